import Verif.Proofs.Flush
import Verif.Props.Prompt
import Verif.Props.ClientEncode
import Verif.Props.ServerDecode
/-!
# Property C75: what was written is flushed before anybody waits

True when `send` has returned, when a client waits for a response, and when a server waits for the next request or has returned.  Not true of the interim response `100 Continue`
(src/server/decode.rs:175 writes it and does not flush), and not true while `send` waits for the next bytes of the response body (`io::copy` flushes at the end only): behind a transport that buffers, the
client that waits for `100 Continue` does not get it, and an event of a stream of events stays where it is until the stream ends.
-/

set_option linter.unusedSectionVars false

namespace Tophat
open Spec

/-! ## `send` -/

/-- **C75**, `send`.  When `send` returns `Ok`, everything has been flushed. -/
theorem C75_sent_partial {σ : Type} [AsyncBufRead σ] {hexLen : Nat → Nat} {now : Bytes} {fuel : Nat} {resp : InnerResponse σ} {w w' : Writer} {amt : Nat}
    (h : sendResponse hexLen now fuel resp w = .ret (w', .ok amt)) : w'.Flushed ∧ w'.seen = w'.got := by
  unfold sendResponse at h
  obtain ⟨⟨s, r⟩, h1, h2⟩ := Run.bind_eq_ret.1 h
  simp only [Run.ret.injEq, Prod.mk.injEq] at h2
  obtain ⟨rfl, rfl⟩ := h2
  rcases copyGo_flushed _ h1 with ⟨a, -, h⟩ | ⟨h, -⟩
  · exact ⟨h, Writer.seen_flushed h⟩
  · exact absurd rfl (h _)

/-- A response sent through a transport that takes 50 bytes, waits, takes the rest, waits, and is flushed. -/
example : sendResponse exactHexLen (ascii "NOW") 1000 (⟨200, [], .http11, ⟨ascii "hello"⟩, some 5⟩ : InnerResponse Cursor) ⟨[.accept 50, .pending, .accept 200, .pending], ascii "before", 6⟩ =
    .ret (⟨[], ascii "beforeHTTP/1.1 200 OK\r\ncontent-length: 5\r\ndate: NOW\r\ncontent-type: application/octet-stream\r\n\r\nhello", 100⟩, .ok 94) := by decide +kernel

/-! ## The client -/

/-- **C75**, the client.  While `connect` waits for the response, and when it has returned one, the whole request has been flushed. -/
theorem C75_client_partial {σ ρ : Type} [AsyncRead σ] [AsyncRead ρ] {now : Bytes} {pool : Pool} {fuel fuel' : Nat} {req : ClientRequest σ} {io : ρ} {w w' : Writer} {x : ConnectRes ρ}
    (h : connect now pool fuel fuel' req io w = .ret (w', x)) (hx : (∃ buf, x = .reading buf) ∨ ∃ rsp, x = .done (.ok rsp)) : w'.Flushed ∧ w'.seen = w'.got := by
  unfold connect at h
  obtain ⟨⟨w1, y⟩, h1, h2⟩ := Run.bind_eq_ret.1 h
  dsimp only at h2
  have key : y = .sent → w1.Flushed := by
    rintro rfl
    unfold clientSend at h1
    obtain ⟨z, h3, h4⟩ := Run.bind_eq_ret.1 h1
    cases z with
    | err e => simp only [Run.ret.injEq, Prod.mk.injEq] at h4; cases h4.2
    | ok enc =>
      dsimp only at h4
      obtain ⟨⟨s, r⟩, h5, h6⟩ := Run.bind_eq_ret.1 h4
      rcases copyGo_flushed _ h5 with ⟨a, rfl, h⟩ | ⟨h, -⟩
      · simp only [Run.ret.injEq, Prod.mk.injEq] at h6
        rw [← h6.1]; exact h
      · cases r with
        | running => simp only [Run.ret.injEq, Prod.mk.injEq] at h6; cases h6.2
        | err e => simp only [Run.ret.injEq, Prod.mk.injEq] at h6; cases h6.2
        | ok a => exact absurd rfl (h a)
  have done : y = .sent → w' = w1 → w'.Flushed ∧ w'.seen = w'.got := by
    rintro h rfl
    exact ⟨key h, Writer.seen_flushed (key h)⟩
  cases y with
  | writing =>
    simp only [Run.ret.injEq, Prod.mk.injEq] at h2
    obtain ⟨-, rfl⟩ := h2
    rcases hx with ⟨_, h⟩ | ⟨_, h⟩ <;> cases h
  | failed e =>
    simp only [Run.ret.injEq, Prod.mk.injEq] at h2
    obtain ⟨-, rfl⟩ := h2
    rcases hx with ⟨_, h⟩ | ⟨_, h⟩ <;> cases h
  | sent =>
    dsimp only at h2
    obtain ⟨d, h3, h4⟩ := Run.bind_eq_ret.1 h2
    cases d with
    | running buf =>
      simp only [Run.ret.injEq, Prod.mk.injEq] at h4
      exact done rfl h4.1.symm
    | done r =>
      simp only [Run.ret.injEq, Prod.mk.injEq] at h4
      exact done rfl h4.1.symm

/-- What can be seen of a client's connection and call. -/
def clientView {ρ : Type} (x : Writer × ConnectRes ρ) : Writer × Option Bytes := (x.1, match x.2 with | .reading b => some b | _ => none)

/-- A client that waits: the server has sent a part of its response. -/
example : (connect (ascii "NOW") zeroPool 100 5 demoRequest ([.data (ascii "HTTP/1.1"), .pending, .pending, .pending, .pending, .pending, .pending] : Script) ⟨[.accept 50, .pending, .accept 10], [], 0⟩).bind (fun x => .ret (clientView x)) =
    .ret (⟨[], ascii "POST /a?q=1 HTTP/1.1\r\nhost: h.org:81\r\ncontent-length: 5\r\nx-a: 1\r\nx-a: 2\r\n\r\nhello", 80⟩, some (ascii "HTTP/1.1")) := by decide +kernel

/-! ## The server -/

section
variable {ρ : Type} [AsyncRead ρ] {σ : Type} [AsyncBufRead σ]

/-- **C75**, the server.  Between two requests, and when it has returned, everything the server has written has been flushed, whatever the endpoint did (its body may have failed half-way).  The transport reports no errors;
the case left out is a timeout that ends the connection while the interim response is being written. -/
theorem C75_server_partial {env : Env} {opts : ServerOpts} {endpoint : Endpoint σ} {fuel it n : Nat} {c c' : Conn ρ} {ev : List Event} {res : AcceptRes}
    (hr : c.wr.Reliable) (hf : c.wr.Flushed) (ht : res = .ok → NoTimeout opts c) (h : acceptGo env opts endpoint fuel it n c = .ret (c', ev, res)) : c'.wr.Flushed ∧ c'.wr.seen = c'.wr.got := by
  have := acceptGo_flushed it hr hf ht h
  exact ⟨this, Writer.seen_flushed this⟩

/-- **C75**, the server, continued: while it is waiting for a head, it writes nothing, so that everything is still flushed. -/
theorem C75_waiting_partial {env : Env} {pool : Pool} {fuel : Nat} {r r' : BufRd ρ} {buf buf' : Bytes} {k k' : Nat} {w w' : Writer} (hr : w.Reliable) (hf : w.Flushed)
    (h : (DecFut.head r buf k).poll env.uriOk pool fuel w = .ret (w', .pending (.head r' buf' k'))) : w'.Flushed ∧ w'.seen = w'.got := by
  obtain ⟨-, h0⟩ := ((decFut_poll_flushed h).2 hr).2 _ rfl trivial
  rw [h0]
  exact ⟨hf, Writer.seen_flushed hf⟩

/-- Decoding never flushes: when the endpoint is called, what has been flushed is what had been flushed before the request. -/
theorem C75_decode_never_flushes {env : Env} {opts : ServerOpts} {fuel n : Nat} {io : ρ} {w w' : Writer} {clock clock' : List Bool} {a : Await ρ}
    (h : awaitDecode env opts fuel (env.pool n) fuel (DecFut.start io) w clock = .ret (w', clock', a)) : w'.flushed = w.flushed := (awaitDecode_flushed _ h).1

end

/-- A connection on which a body fails half-way: the endpoint's `send` returns the error, the endpoint returns a `Glitch`, and the error response behind the torso of the first is flushed with it. -/
def tornEndpoint : Endpoint Script := fun _ _ => .send ⟨200, [], .http11, [.data (ascii "hel"), .err (.transport 1)], none⟩ (fun _ => .ok) (fun _ => .glitch .new)

example : (acceptGo demoEnv plainOpts tornEndpoint 1000 1 0 (connOf [ascii "GET / HTTP/1.1\r\nhost: x\r\n\r\n"])).bind (fun x => .ret (x.1.wr, x.2.2)) =
    .ret (⟨[], ascii "HTTP/1.1 200 OK\r\ntransfer-encoding: chunked\r\ndate: NOW\r\ncontent-type: application/octet-stream\r\n\r\n3\r\nhel\r\nHTTP/1.1 500 Internal Server Error\r\ncontent-length: 0\r\ndate: NOW\r\n\r\n", 174⟩, .running) := by
  decide +kernel

/-! ## Where it fails -/

/-- A connection on which the client has sent a head with `Expect: 100-continue`, and waits. -/
def expectingConn : Conn Script := connOf [postHead]

/-- What is seen when the endpoint is called, and when it then polls the body: the transport, and the answer to the poll. -/
def whenCalled (c : Conn Script) : Run (Writer × RPoll) := do
  let (w, _, a) ← awaitDecode demoEnv plainOpts 1000 (demoEnv.pool 0) 1000 (DecFut.start c.rd) c.wr c.clock
  match a with
  | .ready (.request req) => do
    let (_, p) ← pollRead req.body 100
    .ret (w, p)
  | _ => .diverge

/-- The endpoint has been called and waits for the body; the transport has got `100 Continue`, and has not been flushed: the client sees nothing, and (if it waits for the interim response, as it said it would) both
wait for ever. -/
theorem C75_refuted_interim : ∃ w, whenCalled expectingConn = .ret (w, .pending) ∧ w.got = continueResponse ∧ w.seen = [] ∧ ¬ w.Flushed :=
  ⟨⟨[], continueResponse, 0⟩, by decide +kernel, rfl, rfl, by unfold Writer.Flushed; decide⟩

/-- While `send` has not returned, it has flushed nothing. -/
theorem C75_sending_never_flushes {σ : Type} [AsyncBufRead σ] {hexLen : Nat → Nat} {now : Bytes} {fuel : Nat} {resp : InnerResponse σ} {w w' : Writer} {r : CopyRes}
    (h : sendResponse hexLen now fuel resp w = .ret (w', r)) (hr : ∀ a, r ≠ .ok a) : w'.flushed = w.flushed := by
  unfold sendResponse at h
  obtain ⟨⟨s, r⟩, h1, h2⟩ := Run.bind_eq_ret.1 h
  simp only [Run.ret.injEq, Prod.mk.injEq] at h2
  obtain ⟨rfl, rfl⟩ := h2
  rcases copyGo_flushed _ h1 with ⟨a, rfl, -⟩ | ⟨-, h⟩
  · exact absurd rfl (hr a)
  · exact h

/-- A streamed body that falls silent: the transport has got all that the body has yielded (`C68_streamed`), and the peer of a transport that buffers sees nothing of it, not even the head, however long the silence. -/
theorem C75_refuted_stream {ρ : Type} [AsyncBufRead ρ] [LawfulBufRead ρ] {hexLen : Nat → Nat} (hx : HexLenOk hexLen) {resp : InnerResponse (Stall ρ)} {now : Bytes} (hw : resp.headers.WF) (hl : resp.length = none) {r : ρ} {N : Nat}
    (hb : resp.body = .talk r N) (hf : fin r = none) {w : Writer} (hrel : w.Reliable) (hfl : w.Flushed) {fuel : Nat} (h1 : 2 * ((headOf resp now).length + (rem r).length + 1 + meas r) + w.script.length < fuel) (h2 : fuel ≤ N) :
    ∃ w' wire, sendResponse hexLen now fuel resp w = .ret (w', .running) ∧ w'.got = w.got ++ headOf resp now ++ wire ∧ Chunks wire (rem r) ∧ w'.seen = w.got := by
  obtain ⟨w', wire, a, b, c⟩ := C68_streamed hx hw hl hb hf hrel h1 h2
  refine ⟨w', wire, a, b, c, ?_⟩
  unfold Writer.seen
  rw [C75_sending_never_flushes a (by simp), hfl, b, List.append_assoc, List.take_left]

/-- The body `hello`, ` world`, then silence: all of it was written, and nothing flushed. -/
example : sendResponse exactHexLen (ascii "NOW") 1000 (dozing 1000 none) ⟨[], [], 0⟩ =
    .ret (⟨[], ascii "HTTP/1.1 200 OK\r\ntransfer-encoding: chunked\r\ndate: NOW\r\ncontent-type: application/octet-stream\r\n\r\n5\r\nhello\r\n6\r\n world\r\n", 0⟩, .running) := by decide +kernel

end Tophat
