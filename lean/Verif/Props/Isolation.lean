import Verif.Props.ChunkedRequest
import Verif.Props.Accept
import Verif.Props.ClientEncode
import Verif.Proofs.Isolation
/-!
# Property C72: what happens on one connection does not depend on the others
-/

set_option linter.unusedSectionVars false
set_option synthInstance.maxSize 1000

namespace Tophat

section
variable {ρ : Type} [AsyncRead ρ] {σ : Type} [AsyncBufRead σ]

/-- **C72**, on the server: whatever other connections have left in the blocks of the shared pool, before this connection and at
any time during it, the requests delivered, the answers to the reads of their bodies, the bytes written and the way the
connection ends are the same.
Missing: endpoints that read a body again after a read of it has failed. -/
theorem C72_server_partial {env env' : Env} (he : SameButPool env env') (opts : ServerOpts) {endpoint : Endpoint σ}
    (hc : ∀ head len, (endpoint head len).Careful true) (fuel : Nat) : ∀ (it n : Nat) (c : Conn ρ),
    acceptGo env opts endpoint fuel it n c = acceptGo env' opts endpoint fuel it n c
  | 0, _, _ => rfl
  | it + 1, n, c => by
    simp only [acceptGo, acceptStep_alike he opts hc]
    refine Run.bind_congr' fun x => ?_
    obtain ⟨c, ev, r⟩ := x
    cases r with
    | some r => rfl
    | none => simp only [C72_server_partial he opts hc fuel it (n + 1) c]

/-- **C72**, on the client: whatever other connections have left in the blocks of the shared pool, `connect` writes the same
bytes, returns the same response or error, and the reads of the body of the response are answered in the same way.
Missing: reads after a read of the body has failed. -/
theorem C72_client_partial {σ : Type} [AsyncRead σ] {pool pool' : Pool} (hp : SamePool pool pool') (now : Bytes) (fuel fuel' : Nat)
    (req : ClientRequest σ) (io : ρ) (w : Writer) (ks : List Nat) :
    (connect now pool fuel fuel' req io w >>= fun x => seenBy ks x.2 >>= fun s => .ret (x.1, s)) =
      (connect now pool' fuel fuel' req io w >>= fun x => seenBy ks x.2 >>= fun s => .ret (x.1, s)) :=
  seenBy_same hp now fuel fuel' req io w ks

end

/-! ## Cases that meet the hypotheses -/

theorem readThenSend_careful : ∀ (ks : List Nat) (acc : Bytes), (readThenSend ks acc).Careful true
  | [], _ => ⟨fun _ => trivial, fun _ => trivial⟩
  | k :: ks, acc => by
    refine ⟨rfl, fun p => ?_⟩
    cases p with
    | data bs => exact readThenSend_careful ks (acc ++ bs)
    | err e => exact trivial
    | pending => exact readThenSend_careful ks acc

/-- The same surroundings, after another connection has used the pool. -/
def usedEnv : Env := { demoEnv with pool := fun _ => usedPool }

theorem usedEnv_same : SameButPool demoEnv usedEnv := ⟨rfl, rfl, rfl, fun _ => ⟨zeroPool_ok, usedPool_ok, rfl⟩⟩

/-- A chunked request whose body breaks off in nonsense. -/
def brokenChunked : Bytes := ascii "POST / HTTP/1.1\r\nHost: x\r\nTransfer-Encoding: chunked\r\n\r\n1\r\na\r\nZZZZZZZZ"

/-- Events of a connection in given surroundings. -/
def eventsIn (env : Env) (endpoint : Endpoint Cursor) (it : Nat) (c : Conn Script) : Run (List Event × AcceptRes) := do
  let (_, ev, res) ← acceptGo env plainOpts endpoint 1000 it 0 c
  .ret (ev, res)

/-- An endpoint that reads on after errors, and answers with what it got. -/
def stubborn : List Nat → Bytes → Prog Cursor
  | [], acc => .send ⟨200, [], .http11, ⟨acc⟩, some acc.length⟩ (fun _ => .ok) (fun _ => .glitch .new)
  | k :: ks, acc => .read k fun p => match p with
    | .data bs => stubborn ks (acc ++ bs)
    | _ => stubborn ks acc

/-- **C72 is false of the code** for endpoints that read on: the same bytes arrive on the connection, with the same endpoint, and the response
contains what another connection left in the pool. -/
theorem C72_refuted : SameButPool demoEnv usedEnv ∧
    eventsIn demoEnv (fun _ _ => stubborn [8, 8, 8] []) 1 (connOf [brokenChunked]) ≠
      eventsIn usedEnv (fun _ _ => stubborn [8, 8, 8] []) 1 (connOf [brokenChunked]) := by
  refine ⟨usedEnv_same, ?_⟩
  decide +kernel

/-- The endpoint that stops reading after an error is in the theorem, with the same request. -/
example : (∀ head len, (reading [8, 8, 8] head len).Careful true) ∧ SameButPool demoEnv usedEnv ∧
    ∃ ev, eventsIn demoEnv (reading [8, 8, 8]) 1 (connOf [brokenChunked]) = .ret (ev, .running) ∧
      Event.got 8 (.data (ascii "a")) ∈ ev ∧ Event.got 8 (.err .chunkSize) ∈ ev ∧
      eventsIn usedEnv (reading [8, 8, 8]) 1 (connOf [brokenChunked]) = .ret (ev, .running) := by
  refine ⟨fun _ _ => readThenSend_careful _ _, usedEnv_same, ?_⟩
  have h : eventsIn demoEnv (reading [8, 8, 8]) 1 (connOf [brokenChunked]) = eventsIn usedEnv (reading [8, 8, 8]) 1 (connOf [brokenChunked]) := by
    simp only [eventsIn]
    rw [C72_server_partial (endpoint := reading [8, 8, 8]) usedEnv_same plainOpts (fun _ _ => readThenSend_careful _ _)]
  rw [← h]
  have key : (eventsIn demoEnv (reading [8, 8, 8]) 1 (connOf [brokenChunked]) >>= fun x =>
      .ret (decide (Event.got 8 (.data (ascii "a")) ∈ x.1 ∧ Event.got 8 (.err .chunkSize) ∈ x.1 ∧ x.2 = .running))) = .ret true := by
    decide +kernel
  obtain ⟨⟨ev, res⟩, h1, h2⟩ := Run.bind_eq_ret.1 key
  simp only [Run.ret.injEq, decide_eq_true_eq] at h2
  obtain ⟨h3, h4, rfl⟩ := h2
  exact ⟨ev, h1, h3, h4, h1⟩

/-- The caller of `connect` gets a chunked response that breaks off in nonsense, with the used pool. -/
example : SamePool zeroPool usedPool ∧
    (connect (ascii "NOW") usedPool 100 100 demoRequest
      [Ev.data (ascii "HTTP/1.1 200 OK\r\nTransfer-Encoding: chunked\r\n\r\n1\r\na\r\nZZZZZZZZ")] ⟨[], [], 0⟩ >>= fun x => seenBy [8, 8, 8] x.2 >>= fun s =>
        .ret (decide (s = .reply 200 [] none [.data (ascii "a"), .err .chunkSize]))) = .ret true := by
  refine ⟨usedEnv_same.pool 0, ?_⟩
  decide +kernel

end Tophat
