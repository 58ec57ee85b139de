import Verif.Props.ServerDecode
import Verif.Proofs.Timeout
import Verif.Proofs.OneAnswer
import Verif.Proofs.Consumed
/-!
# Properties C28–C33, C58 and C61: the life of a connection

`acceptGo env opts endpoint fuel it n c` is `accept_with_opts` on the connection `c`, watched for `it`
iterations of its loop: the state of the connection, what has been observed (`ev`), and whether it is
still running or has returned.
-/

set_option linter.unusedSectionVars false
set_option synthInstance.maxSize 1000

namespace Tophat
open Spec

section
variable {ρ : Type} [AsyncRead ρ] [LawfulRead ρ] {σ : Type} [AsyncBufRead σ]

/-- The first iteration of a run that has returned, before which it was running. -/
theorem acceptGo_last {env : Env} {opts : ServerOpts} {endpoint : Endpoint σ} {fuel : Nat} (it : Nat) :
    ∀ {n : Nat} {c c' : Conn ρ} {ev : List Event} {res : AcceptRes}, acceptGo env opts endpoint fuel it n c = .ret (c', ev, res) → res ≠ .running →
    ∃ k cl evs ev2, k < it ∧ acceptGo env opts endpoint fuel k n c = .ret (cl, evs, .running) ∧ Reach c.rd cl.rd ∧
      acceptStep env opts endpoint fuel (n + k) cl = .ret (c', ev2, some res) ∧ ev = evs ++ ev2 := by
  induction it with
  | zero =>
    intro n c c' ev res h hr
    simp only [acceptGo, Run.ret.injEq, Prod.mk.injEq] at h
    exact absurd h.2.2.symm hr
  | succ it ih =>
    intro n c c' ev res h hr
    simp only [acceptGo] at h
    obtain ⟨⟨c1, ev1, r1⟩, h1, h2⟩ := Run.bind_eq_ret.1 h
    cases r1 with
    | some r =>
      simp only [Run.ret.injEq, Prod.mk.injEq] at h2
      obtain ⟨rfl, rfl, rfl⟩ := h2
      exact ⟨0, c, [], ev1, by omega, rfl, .refl, h1, rfl⟩
    | none =>
      dsimp only at h2
      obtain ⟨⟨c2, ev2, r2⟩, h3, h4⟩ := Run.bind_eq_ret.1 h2
      simp only [Run.ret.injEq, Prod.mk.injEq] at h4
      obtain ⟨rfl, rfl, rfl⟩ := h4
      obtain ⟨k, cl, evs, ev3, a1, a2, a3, a4, rfl⟩ := ih h3 hr
      refine ⟨k + 1, cl, ev1 ++ evs, ev3, by omega, ?_, (acceptStep_reach h1).1.trans a3, by rw [← a4]; congr 1; omega, by simp⟩
      simp only [acceptGo, h1, Run.ret_bind, a2]

/-! ## C28 -/

/-- **C28.** On a connection on which the peer sends any bytes, in any fragments and with any delays, and then closes:
what is observed, however long one watches, is a conversation: each request head found is answered with one error response
or handed to the endpoint once, one after the other. -/
theorem C28_conversation {env : Env} (hx : HexLenOk env.hexLen) {opts : ServerOpts} {endpoint : Endpoint σ} {fuel it n : Nat} {c c' : Conn ρ}
    {ev : List Event} {res : AcceptRes} (hf : fin c.rd = none) (h : acceptGo env opts endpoint fuel it n c = .ret (c', ev, res)) :
    Conversation env.uriOk env.now c.wr.Reliable n (rem c.rd) ev :=
  acceptGo_conversation hx it hf h

/-- **C28**: what is recorded as written is exactly what the transport got. -/
theorem C28_written {env : Env} {opts : ServerOpts} {endpoint : Endpoint σ} {fuel it n : Nat} {c c' : Conn ρ}
    {ev : List Event} {res : AcceptRes} (h : acceptGo env opts endpoint fuel it n c = .ret (c', ev, res)) :
    c'.wr.got = c.wr.got ++ written ev :=
  (acceptGo_told it h).2

/-- **C28**, on any connection, also one whose reads fail: each iteration calls the endpoint at most once, and a call is for a well-formed
request whose head is the first one of the bytes still to come. -/
theorem C28_one_call {env : Env} (hx : HexLenOk env.hexLen) {opts : ServerOpts} {endpoint : Endpoint σ} {fuel n : Nat} {c c' : Conn ρ}
    {ev : List Event} {res : Option AcceptRes} (h : acceptStep env opts endpoint fuel n c = .ret (c', ev, res)) :
    calls ev = [] ∨ ∃ hd i head fs len, calls ev = [(head, len)] ∧ FirstHead (rem c.rd) hd ∧
      Judged env.uriOk hd (.serve i head.method head.uri fs len) ∧ MapOf head.headers fs := by
  rcases calls_inv (acceptStep_spec hx h) with h0 | ⟨hd, i, head, fs, len, h1, _, h2⟩
  · exact .inl h0
  · exact .inr ⟨hd, i, head, fs, len, h1, h2.firstHead, h2.judged, h2.headers⟩

end

/-- What a whole connection shows. -/
def watched (opts : ServerOpts) (endpoint : Endpoint Cursor) (it : Nat) (c : Conn Script) : Run (List Event × AcceptRes) := do
  let (_, ev, res) ← acceptGo demoEnv opts endpoint 1000 it 0 c
  .ret (ev, res)

theorem watched_ret {opts : ServerOpts} {endpoint : Endpoint Cursor} {it : Nat} {c : Conn Script} {ev : List Event} {res : AcceptRes}
    (h : watched opts endpoint it c = .ret (ev, res)) : ∃ c', acceptGo demoEnv opts endpoint 1000 it 0 c = .ret (c', ev, res) := by
  unfold watched at h
  obtain ⟨⟨c', ev', res'⟩, h1, h2⟩ := Run.bind_eq_ret.1 h
  simp only [Run.ret.injEq, Prod.mk.injEq] at h2
  obtain ⟨rfl, rfl⟩ := h2
  exact ⟨c', h1⟩

def getA : Bytes := ascii "GET /a HTTP/1.1\r\nHost: x\r\n\r\n"
def getB : Bytes := ascii "GET /b HTTP/1.1\r\nHost: x\r\n\r\n"
def hostX : HeaderMap := [(ascii "host", [ascii "x"])]

/-- The answer of `reading []`. -/
def okEmpty : Bytes := responseHead .http11 200 [] (some 0) (ascii "NOW")

/-- A request, a malformed one, another request, in three packets: two calls and three responses. -/
example : ∃ c', acceptGo demoEnv plainOpts (reading []) 1000 9 0 (connOf [getA, ascii "@ x\r\n\r\n", getB]) =
    .ret (c', [.call ⟨ascii "GET", ascii "/a", hostX⟩ (some 0), .wrote okEmpty, .wrote (errorResponse 400 (ascii "NOW")),
      .call ⟨ascii "GET", ascii "/b", hostX⟩ (some 0), .wrote okEmpty], .ok) :=
  watched_ret (by decide +kernel)

section
variable {ρ : Type} [AsyncRead ρ] [LawfulRead ρ] {σ : Type} [AsyncBufRead σ]

/-! ## C29 -/

/-- **C29**: `accept` returns `Ok` only if, after some iterations, the peer has closed the connection without a further complete
head, or a timeout is configured and the timer fired while the server was waiting for a head or writing an interim response. -/
theorem C29_ok {env : Env} (hx : HexLenOk env.hexLen) {opts : ServerOpts} {endpoint : Endpoint σ} {fuel it n : Nat} {c c' : Conn ρ}
    {ev : List Event} (h : acceptGo env opts endpoint fuel it n c = .ret (c', ev, .ok)) :
    ∃ k cl evs ev2, acceptGo env opts endpoint fuel k n c = .ret (cl, evs, .running) ∧ (fin c.rd = none → rem cl.rd <:+ rem c.rd) ∧ ev = evs ++ ev2 ∧
      ((fin cl.rd = none ∧ NoHead (rem cl.rd) ∧ ev2 = []) ∨
       (opts.timeout = true ∧ (∃ ticks, cl.clock = ticks ++ true :: c'.clock ∧ ∀ t ∈ ticks, t = false) ∧
         (ev2 = [] ∨ (∃ h, FirstHead (rem cl.rd) h) ∧ ∃ x, ev2 = [.wrote x] ∧ x <+: continueResponse))) := by
  obtain ⟨k, cl, evs, ev2, _, a1, a2, a3, rfl⟩ := acceptGo_last it h (by simp)
  refine ⟨k, cl, evs, ev2, a1, fun hf => (a2.suffix hf).1, rfl, ?_⟩
  have b := acceptStep_spec hx a3
  generalize hr : (some AcceptRes.ok : Option AcceptRes) = r at b
  cases b with
  | closed a b => exact .inl ⟨b, a, rfl⟩
  | timedOut a b d e f g i =>
    rename_i ticks x used
    refine .inr ⟨a, ⟨ticks, b, d⟩, ?_⟩
    unfold interimEvent
    split
    · exact .inl rfl
    · rename_i hne
      refine .inr ⟨i (by rintro rfl; exact hne (by rw [f]; simp)), x, ?_, e⟩
      simp [wroteSince, f]
  | lost => cases hr
  | cut => cases hr
  | refused => cases hr
  | gaveUp => cases hr
  | served => cases hr

/-- **C29**: `accept` returns `Err` only if, after some iterations, the next head has a Transfer-Encoding the server does not know;
that request is answered 501. -/
theorem C29_err {env : Env} (hx : HexLenOk env.hexLen) {opts : ServerOpts} {endpoint : Endpoint σ} {fuel it n : Nat} {c c' : Conn ρ}
    {ev : List Event} {e : ServerError} (h : acceptGo env opts endpoint fuel it n c = .ret (c', ev, .err e)) :
    e = .connectionClosedUnsupportedTransferEncoding ∧
    ∃ k cl evs x, acceptGo env opts endpoint fuel k n c = .ret (cl, evs, .running) ∧ (fin c.rd = none → rem cl.rd <:+ rem c.rd) ∧ ev = evs ++ [.wrote x] ∧
      x <+: errorResponse 501 (env.now (n + k)) ∧
      ∃ hd m t fs f, FirstHead (rem cl.rd) hd ∧ HasHead hd m t 1 fs ∧ f ∈ fs ∧ BadCoding f := by
  obtain ⟨k, cl, evs, ev2, _, a1, a2, a3, rfl⟩ := acceptGo_last it h (by simp)
  have b := acceptStep_spec hx a3
  generalize hr : (some (AcceptRes.err e) : Option AcceptRes) = r at b
  cases b with
  | closed => cases hr
  | timedOut => cases hr
  | lost => cases hr
  | cut => cases hr
  | refused => cases hr
  | gaveUp a b d =>
    refine ⟨by cases e; rfl, k, cl, evs, ?_⟩
    obtain ⟨x, x1, x2, _⟩ := SentOk.wrote d
    obtain ⟨m, t, pre, f, post, c1, _, _, c2⟩ := b.gaveUp
    refine ⟨x, a1, fun hf => (a2.suffix hf).1, by rw [x2], ?_, _, m, t, _, f, a, c1, by simp, c2⟩
    rw [← errorWire_eq]; exact x1
  | served => cases hr

/-- **C29**, the other direction: if no complete head is to come before the peer closes, `accept` returns `Ok` without having written or called anything. -/
theorem C29_closes {env : Env} (hx : HexLenOk env.hexLen) {opts : ServerOpts} {endpoint : Endpoint σ} {n : Nat} {c : Conn ρ}
    (hf : fin c.rd = none) (hn : NoHead (rem c.rd)) (it : Nat) :
    ∃ N, ∀ fuel ≥ N, ∃ c', acceptGo env opts endpoint fuel (it + 1) n c = .ret (c', [], .ok) := by
  refine ⟨stepBound env n c, fun fuel hfu => ?_⟩
  obtain ⟨c', ev, res, h⟩ := acceptStep_returns hx (opts := opts) (endpoint := endpoint) (n := n) (c := c)
    (fun h i m t fs len hh => absurd hn hh.not_noHead) hfu
  have key : ev = [] ∧ res = some .ok := by
    have b := acceptStep_spec hx h
    cases b with
    | closed => exact ⟨rfl, rfl⟩
    | timedOut a b d e f g i =>
      rename_i ticks x used
      refine ⟨?_, rfl⟩
      have : x = [] := by
        by_cases hx : x = []
        · exact hx
        · obtain ⟨h, hh⟩ := i hx
          exact absurd hn hh.not_noHead
      subst this
      simp [interimEvent, f]
    | lost _ a => rw [hf] at a; cases a
    | cut a => exact absurd hn a.not_noHead
    | refused a => exact absurd hn a.not_noHead
    | gaveUp a => exact absurd hn a.not_noHead
    | served a => exact absurd hn a.not_noHead
  obtain ⟨rfl, rfl⟩ := key
  exact ⟨c', by simp only [acceptGo, h, Run.ret_bind]⟩

end

def timedOpts : ServerOpts := ⟨true, false⟩

/-- Closed after one request; timed out in the middle of the second; given up at the second; closed in the middle of a head. -/
example :
    watched plainOpts (reading []) 9 (connOf [getA]) = .ret ([.call ⟨ascii "GET", ascii "/a", hostX⟩ (some 0), .wrote okEmpty], .ok) ∧
    watched timedOpts (reading []) 9 { connOf [getA.take 7, getA.drop 7, getB.take 9, getB.drop 9] with clock := [false, false, true] } =
      .ret ([.call ⟨ascii "GET", ascii "/a", hostX⟩ (some 0), .wrote okEmpty], .ok) ∧
    watched plainOpts (reading []) 9 (connOf [getA, ascii "GET /b HTTP/1.1\r\nTransfer-Encoding: gzip\r\n\r\n"]) =
      .ret ([.call ⟨ascii "GET", ascii "/a", hostX⟩ (some 0), .wrote okEmpty, .wrote (errorResponse 501 (ascii "NOW"))],
        .err .connectionClosedUnsupportedTransferEncoding) := by
  decide +kernel

example : fin (connOf [ascii "GET / HTT"]).rd = none ∧ NoHead (rem (connOf [ascii "GET / HTT"]).rd) := by
  refine ⟨rfl, ?_⟩
  show NoHead (Script.bytes _)
  decide +kernel

/-! ## C30 -/

/-- **C30 is false of the code**: two valid requests in one packet; only the first one is served. The peer gets one response, and `accept` returns `Ok`. -/
theorem C30_refuted :
    ∃ c' : Conn Script, acceptGo demoEnv plainOpts (reading []) 1000 9 0 ⟨[.data (getA ++ getB)], ⟨[], [], 0⟩, []⟩ =
      .ret (c', [.call ⟨ascii "GET", ascii "/a", hostX⟩ (some 0), .wrote okEmpty], .ok) :=
  watched_ret (by decide +kernel)

section
variable {σ : Type} [AsyncBufRead σ] [LawfulBufRead σ]

/-- **C30**, what holds: any number of requests `reqs`, each reaching the server in packets of its own (`Delivers`; in any number of packets, cut anywhere, with
any pauses), an endpoint that reads each body to its end before it answers (and does not read a chunked body again after that): each request is served, in order, with exactly its body, and then
`accept` returns `Ok`.  The bodies have a declared length, or are chunked with a framing of at most 4096 bytes.
Missing for the full property: requests that share a packet with bytes of the request before; bodies that are not read; chunked bodies with more framing. -/
theorem C30_keep_alive_partial {env : Env} (hx : HexLenOk env.hexLen) (hp : ∀ n, (env.pool n).Ok) {opts : ServerOpts} {endpoint : Endpoint σ}
    {n : Nat} {gs : List Script} {reqs : List Sent} {w : Writer} {clock : List Bool} (hg : List.Forall₂ (Delivers env.uriOk) gs reqs)
    (hd : ∀ r ∈ reqs, ∀ head, r.TakenBy (endpoint head r.length) (Script.pendings gs.flatten))
    (hw : w.Reliable) (ht : NoTimeout opts (⟨gs.flatten, w, clock⟩ : Conn Script)) (he : endpoint.TameOn env gs.flatten) :
    ∃ N c' evs, (∀ fuel ≥ N, acceptGo env opts endpoint fuel (reqs.length + 1) n ⟨gs.flatten, w, clock⟩ = .ret (c', evs.flatten, .ok)) ∧
      List.Forall₂ ServesIt reqs evs := by
  obtain ⟨N, c', ev, res, h⟩ := acceptGo_total hx hp (opts := opts) (reqs.length + 1) n (⟨gs.flatten, w, clock⟩ : Conn Script) he
  obtain ⟨rfl, evs, rfl, h2⟩ := acceptGo_alone (g0 := []) hx hp hg rfl rfl rfl (Nat.le_refl _) hd hw ht (h N (Nat.le_refl _))
  exact ⟨N, c', evs, h, h2⟩

end

/-- `readThenSend` reads all of the body if it reads often enough. -/
theorem readThenSend_drains (ks : List Nat) : ∀ (acc : Bytes) (m left : Nat), (∀ k ∈ ks, 0 < k) → (left = 0 ∨ m + left ≤ ks.length) → (readThenSend ks acc).Drains m left := by
  induction ks with
  | nil =>
    intro acc m left _ h
    simp at h
    have : left = 0 := by omega
    simp [readThenSend, Prog.Drains, this]
  | cons k ks ih =>
    intro acc m left hk h
    simp only [List.length_cons] at h
    simp only [readThenSend, Prog.Drains]
    refine ⟨hk k List.mem_cons_self, fun hm => ih _ _ _ (fun k hk' => hk k (List.mem_cons_of_mem _ hk')) (by omega), fun bs hb hl _ => ?_⟩
    refine ih _ _ _ (fun k hk' => hk k (List.mem_cons_of_mem _ hk')) ?_
    rcases hb with hb | hb
    · have := List.length_pos_iff.2 hb; omega
    · exact .inl (by omega)

theorem readThenSend_tame (now : Bytes) (ks : List Nat) : ∀ (acc : Bytes) (B : Nat), 8192 + (acc.length + min B ks.sum) < usizeLimit → (readThenSend ks acc).Tame now true B := by
  induction ks with
  | nil =>
    intro acc B h
    simp only [List.sum_nil] at h
    refine ⟨⟨HeaderMap.wf_nil, by show 8192 + acc.length < _; omega, Nat.le_refl _⟩, fun _ => trivial, fun _ => ?_⟩
    exact ⟨(by intro hs h; cases h), (by decide)⟩
  | cons k ks ih =>
    intro acc B h
    simp only [List.sum_cons] at h
    refine ⟨rfl, fun p hp hB => ?_⟩
    cases p with
    | pending => exact ih acc _ (by simp only [RPoll.size]; omega)
    | err e => exact ⟨(by intro hs h; cases h), (by decide)⟩
    | data bs =>
      have hb : bs.length ≤ k := hp
      have hB : bs.length ≤ B := hB
      exact ih (acc ++ bs) _ (by simp [RPoll.size]; omega)

/-- Two requests, the first one with a body, in packets of their own. -/
def aloneReqs : List Sent :=
  [⟨ascii "POST", ascii "/p", [(ascii "Host", ascii "x"), (ascii "Content-Length", ascii "5")], ascii "hello", false⟩, ⟨ascii "GET", ascii "/a", [(ascii "Host", ascii "x")], [], false⟩]
def plainPost : Bytes := ascii "POST /p HTTP/1.1\r\nHost: x\r\nContent-Length: 5\r\n\r\n"
def aloneScripts : List Script := [[.data (plainPost.take 12), .pending, .data (plainPost.drop 12 ++ ascii "he"), .pending, .data (ascii "llo")], [.data getA]]

theorem alone_delivers : List.Forall₂ (Delivers demoEnv.uriOk) aloneScripts aloneReqs := by
  refine .cons ⟨rfl, plainPost, false, ascii "hello", by decide +kernel, by decide +kernel, ?_, rfl⟩ (.cons ⟨rfl, getA, false, [], by decide +kernel, by decide +kernel, ?_, rfl⟩ .nil)
  · exact .serve (fs := [(ascii "Host", ascii "x"), (ascii "Content-Length", ascii "5")]) (hasHead_of (rest := []) (by decide +kernel)) (by decide +kernel) (by decide +kernel) (by decide +kernel) (by decide +kernel)
      (by show ∃ n, IsLength _ n ∧ some 5 = some n; exact ⟨5, (parseUsize_some _ _).1 (by decide +kernel), rfl⟩)
  · exact .serve (fs := [(ascii "Host", ascii "x")]) (hasHead_of (rest := []) (by decide +kernel)) (by decide +kernel) (by decide +kernel) (by decide +kernel) (by decide +kernel) rfl

example : (∀ r ∈ aloneReqs, ∀ head, r.TakenBy (reading [8, 8, 8, 8, 8, 8, 8, 8] head r.length) (Script.pendings aloneScripts.flatten)) ∧
    (∀ B, Endpoint.Tame demoEnv (reading [8, 8, 8, 8, 8, 8, 8, 8]) B) ∧
    watched plainOpts (reading [8, 8, 8, 8, 8, 8, 8, 8]) 3 ⟨aloneScripts.flatten, ⟨[], [], 0⟩, []⟩ =
      .ret ([.call ⟨ascii "POST", ascii "/p", [(ascii "host", [ascii "x"]), (ascii "content-length", [ascii "5"])]⟩ (some 5),
        .got 8 (.data (ascii "he")), .got 8 .pending, .got 8 (.data (ascii "llo")), .got 8 (.data []), .got 8 (.data []), .got 8 (.data []), .got 8 (.data []), .got 8 (.data []),
        .wrote (responseHead .http11 200 [] (some 5) (ascii "NOW") ++ ascii "hello"),
        .call ⟨ascii "GET", ascii "/a", hostX⟩ (some 0),
        .got 8 (.data []), .got 8 (.data []), .got 8 (.data []), .got 8 (.data []), .got 8 (.data []), .got 8 (.data []), .got 8 (.data []), .got 8 (.data []), .wrote okEmpty], .ok) := by
  refine ⟨fun r hr head => ?_, fun B n head len => readThenSend_tame _ _ _ _ (by unfold usizeLimit; simp; omega), by decide +kernel⟩
  have hch : ∀ r ∈ aloneReqs, r.chunked = false := by decide +kernel
  unfold Sent.TakenBy
  rw [hch r hr]
  refine readThenSend_drains _ _ _ _ (by decide) (.inr ?_)
  have : ∀ r ∈ aloneReqs, Script.pendings aloneScripts.flatten + r.body.length ≤ 8 := by decide +kernel
  exact this r hr

/-! ## C31 -/

/-- **C31 is false of the code**: the body of a request, in a packet of its own, which the endpoint does not read, is taken for the next request. -/
theorem C31_refuted :
    ∃ c' : Conn Script, acceptGo demoEnv plainOpts (reading []) 1000 9 0
        ⟨[.data (ascii "POST /p HTTP/1.1\r\nHost: x\r\nContent-Length: 29\r\n\r\n"), .data (ascii "GET /b HTTP/1.1\r\nHost: x\r\n\r\n")], ⟨[], [], 0⟩, []⟩ =
      .ret (c', [.call ⟨ascii "POST", ascii "/p", [(ascii "host", [ascii "x"]), (ascii "content-length", [ascii "29"])]⟩ (some 29), .wrote okEmpty,
        .call ⟨ascii "GET", ascii "/b", hostX⟩ (some 0), .wrote okEmpty], .ok) :=
  watched_ret (by decide +kernel)

section
variable {ρ : Type} [AsyncRead ρ] [LawfulRead ρ] {σ : Type} [AsyncBufRead σ]

/-- **C31**, what holds: what the server reads after a request with a body of `len` bytes lies behind the head and as much of the body as the endpoint has read; if it has read all
of it, none of the body is left.  Missing: bodies that are not read to the end (for chunked ones see `C31_chunked_partial`). -/
theorem C31_body_read_partial {env : Env} (hx : HexLenOk env.hexLen) {opts : ServerOpts} {endpoint : Endpoint σ} {fuel n : Nat} {c c' : Conn ρ} {ev : List Event}
    {res : Option AcceptRes} {h : Bytes} {head : ReqHead} {len : Nat} (hf : fin c.rd = none) (hh : FirstHead (rem c.rd) h)
    (hs : acceptStep env opts endpoint fuel n c = .ret (c', ev, res)) (hc : .call head (some len) ∈ ev) :
    rem c'.rd <:+ (rem c.rd).drop (h.length + (received ((bodyReads ev).map (·.2))).length) ∧
    ((received ((bodyReads ev).map (·.2))).length = len → rem c'.rd <:+ (rem c.rd).drop (h.length + len)) := by
  have := acceptStep_consumed hx hf hh hs hc
  exact ⟨this, fun h => by rw [h] at this; exact this⟩

end

example : ∃ c' : Conn Script, acceptStep demoEnv plainOpts (reading [3, 3, 3, 3, 3]) 1000 0 postConn =
    .ret (c', [.wrote continueResponse, .call ⟨ascii "POST", ascii "/p", [(ascii "host", [ascii "x"]), (ascii "content-length", [ascii "5"]), (ascii "expect", [ascii "100-continue"])]⟩ (some 5),
      .got 3 .pending, .got 3 (.data (ascii "he")), .got 3 .pending, .got 3 (.data (ascii "llo")), .got 3 (.data []),
      .wrote (responseHead .http11 200 [] (some 5) (ascii "NOW") ++ ascii "hello")], none) :=
  observed_ret (by decide +kernel)

/-! ## C32 -/

/-- A connection that is broken: each read fails. -/
structure Broken where

instance : AsyncRead Broken := ⟨fun r _ => .ret (r, .err (.transport 1))⟩

instance : LawfulRead Broken where
  rem _ := []
  fin _ := some (.transport 1)
  meas _ := 0
  read_ok r _ := ⟨r, _, rfl, .err rfl rfl⟩

/-- **C32 is false of the code**: on a broken connection the loop turns forever, without a pause. -/
theorem C32_refuted {σ : Type} [AsyncBufRead σ] (env : Env) (opts : ServerOpts) (endpoint : Endpoint σ) (w : Writer) (clock : List Bool) (fuel : Nat) (it : Nat) :
    ∀ n, acceptGo env opts endpoint (fuel + 1) it n (⟨⟨⟩, w, clock⟩ : Conn Broken) = .ret (⟨⟨⟩, w, clock⟩, [], .running) := by
  induction it with
  | zero => intro n; rfl
  | succ it ih =>
    intro n
    have : acceptStep env opts endpoint (fuel + 1) n (⟨⟨⟩, w, clock⟩ : Conn Broken) = .ret (⟨⟨⟩, w, clock⟩, [], none) := by
      simp only [acceptStep, awaitDecode, DecFut.start, DecFut.poll, headGo]
      have : pollFill (BufRd.new (⟨⟩ : Broken)) = .ret (BufRd.new ⟨⟩, .err (.transport 1)) := rfl
      rw [this]
      simp [answerFail, failResponse, failError, interimEvent, BufRd.new]
    simp only [acceptGo, this, Run.ret_bind, ih (n + 1), List.nil_append]

/-- **C32**, what holds: if reads fail only finitely often (each one is an event of the script, after which the connection goes on), the loop ends: it is still running only for as many
iterations as there are bytes and events left. -/
theorem C32_ends_partial {σ : Type} [AsyncBufRead σ] {env : Env} {opts : ServerOpts} {endpoint : Endpoint σ} {fuel : Nat} (it : Nat) :
    ∀ {n : Nat} {c c' : Conn Script} {ev : List Event}, acceptGo env opts endpoint fuel it n c = .ret (c', ev, .running) → it ≤ Script.size c.rd := by
  induction it with
  | zero => intro n c c' ev _; omega
  | succ it ih =>
    intro n c c' ev h
    simp only [acceptGo] at h
    obtain ⟨⟨c1, ev1, r1⟩, h1, h2⟩ := Run.bind_eq_ret.1 h
    have hp := (acceptStep_reach h1).2
    cases r1 with
    | some r =>
      simp only [Run.ret.injEq, Prod.mk.injEq] at h2
      obtain ⟨rfl, rfl, rfl⟩ := h2
      exfalso
      unfold acceptStep at h1
      obtain ⟨⟨w, clock, a⟩, g1, g2⟩ := Run.bind_eq_ret.1 h1
      cases a with
      | timedOut io => simp at g2
      | ready r =>
        cases r with
        | none io => simp at g2
        | fail f io =>
          dsimp only at g2
          obtain ⟨_, _, g4⟩ := Run.bind_eq_ret.1 g2
          simp only [Run.ret.injEq, Prod.mk.injEq] at g4
          cases f <;> simp [failError] at g4
        | request req =>
          dsimp only at g2
          obtain ⟨_, _, g4⟩ := Run.bind_eq_ret.1 g2
          obtain ⟨_, _, g6⟩ := Run.bind_eq_ret.1 g4
          simp at g6
    | none =>
      dsimp only at h2
      obtain ⟨⟨c2, ev2, r2⟩, h3, h4⟩ := Run.bind_eq_ret.1 h2
      simp only [Run.ret.injEq, Prod.mk.injEq] at h4
      obtain ⟨rfl, rfl, rfl⟩ := h4
      have := ih h3
      have := (hp rfl).size
      omega

/-- Two read errors between two requests. -/
example : watched plainOpts (reading []) 9 ⟨[.data getA, .err (.transport 1), .data (getB.take 5), .err (.transport 2), .data getB], ⟨[], [], 0⟩, []⟩ =
    .ret ([.call ⟨ascii "GET", ascii "/a", hostX⟩ (some 0), .wrote okEmpty, .call ⟨ascii "GET", ascii "/b", hostX⟩ (some 0), .wrote okEmpty], .ok) := by
  decide +kernel

/-! ## C33 -/

section
variable {ρ : Type} [AsyncRead ρ] [LawfulRead ρ] {σ : Type} [AsyncBufRead σ]

/-- **C33**: without a timeout configured, the clock has no effect, and the result is that of a timeout that never fires. -/
theorem C33_no_timeout {env : Env} {verbose : Bool} {endpoint : Endpoint σ} {fuel n : Nat} {rd rd' : ρ} {w w' : Writer}
    {clock clock' : List Bool} {ev : List Event} {res : Option AcceptRes}
    (h : acceptStep env ⟨false, verbose⟩ endpoint fuel n ⟨rd, w, clock⟩ = .ret (⟨rd', w', clock'⟩, ev, res)) :
    (∀ clock₂, ∃ k, acceptStep env ⟨false, verbose⟩ endpoint fuel n ⟨rd, w, clock₂⟩ = .ret (⟨rd', w', k⟩, ev, res)) ∧
    ∀ clock₂, (∀ t ∈ clock₂, t = false) → ∃ k, acceptStep env ⟨true, verbose⟩ endpoint fuel n ⟨rd, w, clock₂⟩ = .ret (⟨rd', w', k⟩, ev, res) :=
  ⟨fun _ => acceptStep_unfired (o1 := ⟨false, verbose⟩) rfl (.inl rfl) (.inl rfl) h,
   fun _ hc => acceptStep_unfired (o1 := ⟨false, verbose⟩) (o2 := ⟨true, verbose⟩) rfl (.inl rfl) (.inr fun t ht => hc t (List.mem_of_mem_take ht)) h⟩

end

section
variable {σ : Type} [AsyncBufRead σ]

/-- **C33**: if the whole head of the next request comes with `p` pauses in it (`g` is the part of the connection's behaviour with the head in it), then what the timer says
later than at the first `p` questions does not matter: the iteration is the one without a timeout.  With `p = 0`, the head is there when the server looks: it is served
whatever the timer says. -/
theorem C33_complete_head {env : Env} {verbose : Bool} {endpoint : Endpoint σ} {fuel n : Nat} {g rest rd' : Script} {w w' : Writer} {h : Bytes}
    {ticks clock clock' : List Bool} {ev : List Event} {res : Option AcceptRes}
    (hg : Script.ending g = none) (hh : FirstHead (Script.bytes g) h) (hw : w.script = []) (hp : ticks.length = Script.pendings g) (ht : ∀ t ∈ ticks, t = false) :
    acceptStep env ⟨false, verbose⟩ endpoint fuel n ⟨g ++ rest, w, []⟩ = .ret (⟨rd', w', []⟩, ev, res) →
    ∃ k, acceptStep env ⟨true, verbose⟩ endpoint fuel n ⟨g ++ rest, w, ticks ++ clock⟩ = .ret (⟨rd', w', k⟩, ev, res) := by
  intro h1
  refine acceptStep_intime (o1 := ⟨false, verbose⟩) (o2 := ⟨true, verbose⟩) rfl hg hh hw (.inl rfl) (.inr ?_) h1
  rw [← hp]
  simpa using ht

/-- **C33**: the timeout takes effect at a poll at which the head is incomplete: `accept` returns `Ok`, and nothing has been written. -/
theorem C33_fires {env : Env} {verbose : Bool} {endpoint : Endpoint σ} {n : Nat} {g rest : Script} {w : Writer} {clock : List Bool}
    (hg : Script.ending g = none) (hn : NoHead (Script.bytes g)) (it : Nat) :
    ∃ N, ∀ fuel ≥ N, acceptGo env ⟨true, verbose⟩ endpoint fuel (it + 1) n
        ⟨g ++ .pending :: rest, w, List.replicate (Script.pendings g) false ++ true :: clock⟩ = .ret (⟨rest, w, clock⟩, [], .ok) := by
  obtain ⟨N, h⟩ := acceptStep_fires (env := env) (opts := ⟨true, verbose⟩) rfl (endpoint := endpoint) (n := n) (g := g) (rest := rest) (w := w) (ck := clock) hg hn
  exact ⟨N, fun fuel hf => by simp only [acceptGo, h fuel hf, Run.ret_bind]⟩

end

/-- An expired timer: a head that is there is served, one that is not is not waited for. -/
example : watched timedOpts (reading []) 1 ⟨[.data getA, .pending], ⟨[], [], 0⟩, [true, true]⟩ =
      .ret ([.call ⟨ascii "GET", ascii "/a", hostX⟩ (some 0), .wrote okEmpty], .running) ∧
    watched timedOpts (reading []) 1 ⟨[.data (getA.take 20), .pending, .data (getA.drop 20)], ⟨[], [], 0⟩, [true, true]⟩ = .ret ([], .ok) := by
  decide +kernel

/-! ## C58 -/

/-- An endpoint that answers and then fails. -/
def sendThenFail : Endpoint Cursor := fun _ _ => .send ⟨200, [], .http11, ⟨[]⟩, some 0⟩ (fun _ => .glitch .new) (fun _ => .glitch .new)

/-- An endpoint that hands on the result of `send`. -/
def sendOnly : Endpoint Cursor := fun _ _ => .send ⟨200, [], .http11, ⟨ascii "hello"⟩, some 5⟩ (fun _ => .ok) (fun _ => .glitch .new)

/-- **C58 is false of the code**: an endpoint that fails after it has sent its response gives two responses to one request. -/
theorem C58_refuted :
    ∃ c' : Conn Script, acceptGo demoEnv plainOpts sendThenFail 1000 9 0 (connOf [getA]) =
      .ret (c', [.call ⟨ascii "GET", ascii "/a", hostX⟩ (some 0), .wrote okEmpty, .wrote (errorResponse 500 (ascii "NOW"))], .ok) :=
  watched_ret (by decide +kernel)

/-- **C58 is false of the code** also when the transport fails in the middle of a response: what got through of it is followed by (part of) another one. -/
theorem C58_refuted_transport :
    ∃ c' : Conn Script, acceptGo demoEnv plainOpts sendOnly 1000 9 0 ⟨[.data getA], ⟨[.accept 10, .err (.transport 1)], [], 0⟩, []⟩ =
      .ret (c', [.call ⟨ascii "GET", ascii "/a", hostX⟩ (some 0), .wrote (ascii "HTTP/1.1 2"), .wrote (errorResponse 500 (ascii "NOW"))], .ok) :=
  watched_ret (by decide +kernel)

section
variable {ρ : Type} [AsyncRead ρ] [LawfulRead ρ] {σ : Type} [AsyncBufRead σ] [LawfulBufRead σ]

/-- **C58**, what holds: if the endpoint does not fail once it has sent its response, and the transport takes what is written, then for a request handed to the endpoint there is
written, besides an interim response, exactly one whole response. -/
theorem C58_one_response_partial {env : Env} (hx : HexLenOk env.hexLen) {opts : ServerOpts} {endpoint : Endpoint σ} (he : ∀ head len, (endpoint head len).OneAnswer)
    {fuel n : Nat} {c c' : Conn ρ} {ev : List Event} {res : Option AcceptRes} (hr : c.wr.Reliable)
    (hs : acceptStep env opts endpoint fuel n c = .ret (c', ev, res)) {head : ReqHead} {len : Option Nat} (hc : .call head len ∈ ev) :
    ∃ h i fs msg, FirstHead (rem c.rd) h ∧ Judged env.uriOk h (.serve i head.method head.uri fs len) ∧
      written ev = written (interim i) ++ msg ∧ WholeResponse (env.now n) msg := by
  obtain ⟨_, h, i, fs, hsv⟩ := call_inv (acceptStep_spec hx hs) hc
  obtain ⟨used, body, body', w1, w2, ev1, g, ev2, h1, h2, h3, h4, h5, h6, rfl⟩ := hsv.run
  have hr1 : w1.Reliable := hr.suffix h2
  have e1 := runProg_told _ _ _ _ _ _ _ h4
  have e2 := answerGlitch_told h5
  have hwr : written (Spec.interim i ++ .call head len :: (ev1 ++ ev2)) = written (Spec.interim i) ++ (written ev1 ++ written ev2) := by
    rw [written_append]; congr 1; exact written_append _ _
  refine ⟨h, i, fs, written ev1 ++ written ev2, hsv.firstHead, hsv.judged, hwr, ?_⟩
  rcases runProg_oneAnswer hx _ _ _ _ _ _ _ (he head len) hr1 h4 with ⟨rfl, msg, m1, m2⟩ | ⟨gl, rfl, g1, rfl⟩
  · simp only [answerGlitch, Run.ret.injEq, Prod.mk.injEq] at h5
    obtain ⟨_, rfl⟩ := h5
    have := e1.2
    rw [m2] at this
    have := List.append_cancel_left this
    rw [← this]
    simpa [written] using m1
  · obtain ⟨msg, m1, m2⟩ := answerGlitch_whole hx g1 hr1 h5
    have f1 : written ev1 = [] := by
      have := e1.2
      exact (List.self_eq_append_right.1 this)
    have f2 := e2.2
    rw [m2] at f2
    have := List.append_cancel_left f2
    rw [f1, ← this]
    exact m1

end

example : (∀ head len, (sendOnly head len).OneAnswer) ∧
    watched plainOpts sendOnly 1 (connOf [getA]) = .ret ([.call ⟨ascii "GET", ascii "/a", hostX⟩ (some 0),
      .wrote (responseHead .http11 200 [] (some 5) (ascii "NOW") ++ ascii "hello")], .running) := by
  refine ⟨fun _ _ => ⟨HeaderMap.wf_nil, rfl, ?_, fun _ => trivial⟩, by decide +kernel⟩
  intro n h
  injection h with h
  subst h
  decide

/-! ## C61 -/

section
variable {ρ : Type} [AsyncRead ρ] [LawfulRead ρ] {σ : Type} [AsyncBufRead σ] [LawfulBufRead σ]

/-- **C61**: no bytes a peer can send, in whatever fragments, with whatever delays, read errors, write errors and timeouts, make the server panic or get stuck, as long as the endpoint is well-behaved
(`TameOn`: given a body no longer than what the peer can still send, it does not read the body again after an error, declares no length larger than the body, and its empty streamed responses do not have the head lengths of C03). -/
theorem C61_robust {env : Env} (hx : HexLenOk env.hexLen) (hp : ∀ n, (env.pool n).Ok) {opts : ServerOpts} {endpoint : Endpoint σ} (it n : Nat) (c : Conn ρ) (he : endpoint.TameOn env c.rd) :
    ∃ N c' ev res, ∀ fuel, N ≤ fuel → acceptGo env opts endpoint fuel it n c = .ret (c', ev, res) :=
  acceptGo_total hx hp it n c he

end

example : HexLenOk demoEnv.hexLen ∧ (∀ n, (demoEnv.pool n).Ok) ∧ ∀ B, Endpoint.Tame demoEnv (reading [8, 5000]) B :=
  ⟨exactHexLen_ok, fun _ => zeroPool_ok, fun _ _ _ _ => readThenSend_tame _ _ _ _ (by unfold usizeLimit; simp; omega)⟩

end Tophat
