import Verif.Proofs.HeadCases
/-!
# Properties C20–C27: what the server makes of a request

`acceptStep env opts endpoint fuel n c` is one iteration of the loop of `accept_with_opts` on the
connection `c`: it waits for a head, decodes it, and answers it or hands it to the endpoint.  `rem c.rd`
are all the bytes the peer is ever going to send on the connection, `FirstHead (rem c.rd) h` says that
`h` is what they begin with, up to and including the first blank line.  The reader `ρ` is any reader
that obeys the `AsyncRead` contract, so all fragmentations and delays are covered.  `ev` is what can be
observed, in order.

`fuel` bounds internal loops; the theorems hold for every `fuel`, those that claim that something
happens say that enough fuel exists.
-/

set_option linter.unusedSectionVars false
set_option synthInstance.maxSize 1000

namespace Tophat
open Spec

variable {ρ : Type} [AsyncRead ρ] [LawfulRead ρ] {σ : Type} [AsyncBufRead σ]

/-! ## Concrete material -/

/-- An environment for the examples. -/
def demoEnv : Env := ⟨exactHexLen, fun t => t ≠ ascii "bad", fun _ => ascii "NOW", fun _ => zeroPool⟩

/-- No timeout. -/
def plainOpts : ServerOpts := ⟨false, false⟩

/-- An endpoint that reads `ks.length` times from the body and answers 200 with what it got. -/
def readThenSend : List Nat → Bytes → Prog Cursor
  | [], acc => .send ⟨200, [], .http11, ⟨acc⟩, some acc.length⟩ (fun _ => .ok) (fun _ => .glitch .new)
  | k :: ks, acc => .read k fun p => match p with
    | .data bs => readThenSend ks (acc ++ bs)
    | .err _ => .glitch .new
    | .pending => readThenSend ks acc

/-- Such an endpoint for all requests. -/
def reading (ks : List Nat) : Endpoint Cursor := fun _ _ => readThenSend ks []

/-- A connection that delivers the given fragments and takes all that is written. -/
def connOf (frags : List Bytes) : Conn Script := ⟨frags.flatMap fun f => [.data f, .pending], ⟨[], [], 0⟩, []⟩

/-- What one iteration shows. -/
def observed (endpoint : Endpoint Cursor) (c : Conn Script) : Run (List Event × Option AcceptRes) := do
  let (_, ev, res) ← acceptStep demoEnv plainOpts endpoint 1000 0 c
  .ret (ev, res)

theorem observed_ret {endpoint : Endpoint Cursor} {c : Conn Script} {ev : List Event} {res : Option AcceptRes}
    (h : observed endpoint c = .ret (ev, res)) : ∃ c', acceptStep demoEnv plainOpts endpoint 1000 0 c = .ret (c', ev, res) := by
  unfold observed at h
  obtain ⟨⟨c', ev', res'⟩, h1, h2⟩ := Run.bind_eq_ret.1 h
  simp only [Run.ret.injEq, Prod.mk.injEq] at h2
  obtain ⟨rfl, rfl⟩ := h2
  exact ⟨c', h1⟩

/-- A request with a body of five bytes, followed by more. -/
def postHead : Bytes := ascii "POST /p HTTP/1.1\r\nHost: x\r\nContent-Length: 5\r\nExpect: 100-continue\r\n\r\n"
def postFields : List (Bytes × Bytes) :=
  [(ascii "Host", ascii "x"), (ascii "Content-Length", ascii "5"), (ascii "Expect", ascii "100-continue")]
def postConn : Conn Script := connOf [postHead.take 30, postHead.drop 30, ascii "he", ascii "lloGET"]

theorem post_first : FirstHead (rem postConn.rd) postHead := by
  show FirstHead (Script.bytes postConn.rd) postHead
  decide +kernel

theorem post_head : HasHead postHead (ascii "POST") (ascii "/p") 1 postFields :=
  hasHead_of (rest := []) (by decide +kernel)

theorem post_reliable : postConn.wr.Reliable := by intro e he; cases he

theorem plain_noTimeout (c : Conn ρ) : NoTimeout plainOpts c := .inl rfl

/-! ## C20 -/

/-- **C20.** Two connections whose byte streams begin with the same head `h`, however fragmented, however
delayed, whatever follows the head, whatever the endpoint: the same is observed up to and including the
call of the endpoint, and the loop goes on or ends in the same way.  (The transports accept what is
written, and no timeout fires.) -/
theorem C20_head_alone {ρ₂ : Type} [AsyncRead ρ₂] [LawfulRead ρ₂] {σ₂ : Type} [AsyncBufRead σ₂] {env : Env} (hx : HexLenOk env.hexLen)
    {opts opts₂ : ServerOpts} {endpoint : Endpoint σ} {endpoint₂ : Endpoint σ₂} {fuel fuel₂ n : Nat}
    {c c' : Conn ρ} {ev : List Event} {res : Option AcceptRes} {c₂ c₂' : Conn ρ₂} {ev₂ : List Event} {res₂ : Option AcceptRes} {h : Bytes}
    (hh : FirstHead (rem c.rd) h) (hh₂ : FirstHead (rem c₂.rd) h) (hr : c.wr.Reliable) (hr₂ : c₂.wr.Reliable)
    (ht : NoTimeout opts c) (ht₂ : NoTimeout opts₂ c₂)
    (hs : acceptStep env opts endpoint fuel n c = .ret (c', ev, res))
    (hs₂ : acceptStep env opts₂ endpoint₂ fuel₂ n c₂ = .ret (c₂', ev₂, res₂)) :
    upToCall ev = upToCall ev₂ ∧ res = res₂ := by
  have a := acceptStep_spec hx hs
  have b := acceptStep_spec hx hs₂
  obtain ⟨v, hv⟩ := Judged.total env.uriOk h
  cases v with
  | refuse i st =>
    obtain ⟨a1, a2, _⟩ := refused_inv a hh hv hr ht
    obtain ⟨b1, b2, _⟩ := refused_inv b hh₂ hv hr₂ ht₂
    exact ⟨by rw [a2, b2], by rw [a1, b1]⟩
  | giveUp =>
    obtain ⟨a1, x, a2, _, _, a3⟩ := gaveUp_inv a hh hv ht
    obtain ⟨b1, y, b2, _, _, b3⟩ := gaveUp_inv b hh₂ hv ht₂
    exact ⟨by rw [a2, b2, a3 hr, b3 hr₂], by rw [a1, b1]⟩
  | serve i m t fs len =>
    obtain ⟨a1, hm, a2⟩ := served_inv a hh hv (fun _ => hr) ht
    obtain ⟨b1, hm₂, b2⟩ := served_inv b hh₂ hv (fun _ => hr₂) ht₂
    obtain ⟨_, _, _, _, _, e1, _, e2, _, _, _, _, _, _, rfl⟩ := a2.run
    obtain ⟨_, _, _, _, _, f1, _, f2, _, _, _, _, _, _, rfl⟩ := b2.run
    obtain ⟨p, p1, p2⟩ := a2.parsed
    obtain ⟨q, q1, q2⟩ := b2.parsed
    rw [p1] at q1
    injection q1 with q1
    subst q1
    have : hm = hm₂ := by rw [← show p.acc.headers = hm from p2, ← show p.acc.headers = hm₂ from q2]
    subst this
    refine ⟨?_, by rw [a1, b1]⟩
    cases i <;> rfl

/-- The same head in five and in two fragments, with different continuations and different endpoints. -/
example : FirstHead (rem (connOf [ascii "POST /p HT", postHead.drop 10 ++ ascii "world"]).rd) postHead ∧
    (∃ c' ev res, acceptStep demoEnv plainOpts (reading [3, 8]) 1000 0 postConn = .ret (c', ev, res) ∧ upToCall ev =
      [.wrote continueResponse, .call ⟨ascii "POST", ascii "/p", [(ascii "host", [ascii "x"]), (ascii "content-length", [ascii "5"]), (ascii "expect", [ascii "100-continue"])]⟩ (some 5)]) ∧
    (∃ c' ev res, acceptStep demoEnv plainOpts (reading []) 1000 0 (connOf [ascii "POST /p HT", postHead.drop 10 ++ ascii "world"]) = .ret (c', ev, res) ∧ upToCall ev =
      [.wrote continueResponse, .call ⟨ascii "POST", ascii "/p", [(ascii "host", [ascii "x"]), (ascii "content-length", [ascii "5"]), (ascii "expect", [ascii "100-continue"])]⟩ (some 5)]) := by
  have key : ∀ (e : Endpoint Cursor) (c : Conn Script) (l : List Event),
      ((do let (ev, _) ← observed e c; .ret (upToCall ev)) : Run (List Event)) = .ret l →
      ∃ c' ev res, acceptStep demoEnv plainOpts e 1000 0 c = .ret (c', ev, res) ∧ upToCall ev = l := by
    intro e c l h
    obtain ⟨⟨ev, res⟩, h1, h2⟩ := Run.bind_eq_ret.1 h
    obtain ⟨c', h3⟩ := observed_ret h1
    simp only [Run.ret.injEq] at h2
    exact ⟨c', ev, res, h3, h2⟩
  refine ⟨?_, key _ _ _ ?_, key _ _ _ ?_⟩
  · show FirstHead (Script.bytes _) _; decide +kernel
  · decide +kernel
  · decide +kernel

/-! ## C21 -/

/-- **C21**, first half: whatever the transport and the timer do, a request without Host field does not
reach the endpoint. -/
theorem C21_not_called {env : Env} (hx : HexLenOk env.hexLen) {opts : ServerOpts} {endpoint : Endpoint σ} {fuel n : Nat} {c c' : Conn ρ}
    {ev : List Event} {res : Option AcceptRes} {h m t : Bytes} {v : Nat} {fs : List (Bytes × Bytes)} (hh : FirstHead (rem c.rd) h) (hd : HasHead h m t v fs)
    (hn : valuesOf (ascii "host") fs = []) (hs : acceptStep env opts endpoint fuel n c = .ret (c', ev, res)) : calls ev = [] := by
  obtain ⟨w, h1, h2⟩ := judged_not_served (uriOk := env.uriOk) (h := h) (fun m' t' fs' len a _ _ b _ _ => b (by rw [← (hd.unique a).2.2.2]; exact hn))
  exact calls_nil_of_not_served (acceptStep_spec hx hs) hh h1 h2

/-- **C21**, second half: an HTTP/1.1 request without Host field, with nothing else wrong in its framing
fields, is answered 400 - after the interim response, if it asks for one. -/
theorem C21_answered {env : Env} (hx : HexLenOk env.hexLen) (opts : ServerOpts) (endpoint : Endpoint σ) (n : Nat) {c : Conn ρ}
    {h m t : Bytes} {fs : List (Bytes × Bytes)} (hh : FirstHead (rem c.rd) h) (hd : HasHead h m t 1 fs) (hm : m ≠ [])
    (hg : ∀ f ∈ fs, GoodField f) (hn : valuesOf (ascii "host") fs = []) (hr : c.wr.Reliable) (ht : NoTimeout opts c) :
    ∃ N, ∀ fuel, N ≤ fuel → ∃ c', acceptStep env opts endpoint fuel n c =
      .ret (c', interim (Expects fs) ++ [.wrote (errorResponse 400 (env.now n))], none) :=
  refused_total hx hh (.noHost hd hm hg hn) hr ht

/-- **C21** for a whole connection: no request ever handed to the endpoint is without Host. -/
theorem C21_connection {env : Env} (hx : HexLenOk env.hexLen) {opts : ServerOpts} {endpoint : Endpoint σ} {fuel it n : Nat} {c c' : Conn ρ}
    {ev : List Event} {res : AcceptRes} (hs : acceptGo env opts endpoint fuel it n c = .ret (c', ev, res)) {head : ReqHead} {len : Option Nat}
    (hc : .call head len ∈ ev) : head.headers.getAll (ascii "host") ≠ [] := by
  obtain ⟨h, i, fs, _, h2, h3⟩ := acceptGo_calls hx it hs head len hc
  rw [h3.2]
  exact h2.served.2.2.2.1

/-- A request without Host, in two fragments. -/
example : ∃ h m t fs, FirstHead (rem (connOf [ascii "GET / HTTP/1.1\r\nAcc", ascii "ept: */*\r\n\r\n"]).rd) h ∧ HasHead h m t 1 fs ∧ m ≠ [] ∧
    (∀ f ∈ fs, GoodField f) ∧ valuesOf (ascii "host") fs = [] ∧ Expects fs = false := by
  refine ⟨ascii "GET / HTTP/1.1\r\nAccept: */*\r\n\r\n", ascii "GET", ascii "/", [(ascii "Accept", ascii "*/*")], ?_, hasHead_of (rest := []) ?_, ?_, ?_, ?_, ?_⟩
  · show FirstHead (Script.bytes _) _; decide +kernel
  all_goals decide +kernel

/-! ## C22 -/

/-- **C22**: only requests that say HTTP/1.1 reach the endpoint, on a whole connection. -/
theorem C22_connection {env : Env} (hx : HexLenOk env.hexLen) {opts : ServerOpts} {endpoint : Endpoint σ} {fuel it n : Nat} {c c' : Conn ρ}
    {ev : List Event} {res : AcceptRes} (hs : acceptGo env opts endpoint fuel it n c = .ret (c', ev, res)) {head : ReqHead} {len : Option Nat}
    (hc : .call head len ∈ ev) : ∃ h fs, HasHead h head.method head.uri 1 fs ∧ MapOf head.headers fs := by
  obtain ⟨h, i, fs, _, h2, h3⟩ := acceptGo_calls hx it hs head len hc
  exact ⟨h, fs, h2.served.1, h3⟩

/-- **C22**: a request of another version HTTP/1.`v` does not reach the endpoint. -/
theorem C22_not_called {env : Env} (hx : HexLenOk env.hexLen) {opts : ServerOpts} {endpoint : Endpoint σ} {fuel n : Nat} {c c' : Conn ρ}
    {ev : List Event} {res : Option AcceptRes} {h m t : Bytes} {v : Nat} {fs : List (Bytes × Bytes)} (hh : FirstHead (rem c.rd) h) (hd : HasHead h m t v fs)
    (hv : v ≠ 1) (hs : acceptStep env opts endpoint fuel n c = .ret (c', ev, res)) : calls ev = [] := by
  obtain ⟨w, h1, h2⟩ := judged_not_served (uriOk := env.uriOk) (h := h) (fun m' t' fs' len a _ _ _ _ _ => hv (hd.unique a).2.2.1)
  exact calls_nil_of_not_served (acceptStep_spec hx hs) hh h1 h2

/-- **C22**: it is answered 505. -/
theorem C22_answered {env : Env} (hx : HexLenOk env.hexLen) (opts : ServerOpts) (endpoint : Endpoint σ) (n : Nat) {c : Conn ρ}
    {h m t : Bytes} {v : Nat} {fs : List (Bytes × Bytes)} (hh : FirstHead (rem c.rd) h) (hd : HasHead h m t v fs) (hm : m ≠ [])
    (hv : v ≠ 1) (hr : c.wr.Reliable) (ht : NoTimeout opts c) :
    ∃ N, ∀ fuel, N ≤ fuel → ∃ c', acceptStep env opts endpoint fuel n c = .ret (c', [.wrote (errorResponse 505 (env.now n))], none) :=
  refused_total hx hh (.version hd hm hv) hr ht

/-- **C22**: what is no request head at all - a version other than HTTP/1.0 and HTTP/1.1, a malformed line,
more than 16 header fields - does not reach the endpoint and is answered 400. -/
theorem C22_malformed {env : Env} (hx : HexLenOk env.hexLen) (opts : ServerOpts) (endpoint : Endpoint σ) (n : Nat) {c : Conn ρ}
    {h : Bytes} (hh : FirstHead (rem c.rd) h) (hd : ∀ m t v fs, ¬ HasHead h m t v fs) (hr : c.wr.Reliable) (ht : NoTimeout opts c) :
    ∃ N, ∀ fuel, N ≤ fuel → ∃ c', acceptStep env opts endpoint fuel n c = .ret (c', [.wrote (errorResponse 400 (env.now n))], none) :=
  refused_total hx hh (.malformed hd) hr ht

/-- An HTTP/1.0 request. -/
example : ∃ h m t fs, FirstHead (rem (connOf [ascii "GET / HTTP/1.0\r\nHost: x\r", ascii "\n\r\n"]).rd) h ∧ HasHead h m t 0 fs ∧ m ≠ [] := by
  refine ⟨ascii "GET / HTTP/1.0\r\nHost: x\r\n\r\n", ascii "GET", ascii "/", [(ascii "Host", ascii "x")], ?_, hasHead_of (rest := []) ?_, ?_⟩
  · show FirstHead (Script.bytes _) _; decide +kernel
  all_goals decide +kernel

/-- An HTTP/2.0 request line. -/
example : ∃ h, FirstHead (rem (connOf [ascii "GET / HTTP/2.0\r\nHost: x\r\n\r\n"]).rd) h ∧ ∀ m t v fs, ¬ HasHead h m t v fs := by
  refine ⟨ascii "GET / HTTP/2.0\r\nHost: x\r\n\r\n", ?_, ?_⟩
  · show FirstHead (Script.bytes _) _; decide +kernel
  · intro m t v fs hd
    obtain ⟨r, h1⟩ := (hasHead_iff _ _ _ _ _).1 hd
    have : (match Httparse.parseRequest 16 (ascii "GET / HTTP/2.0\r\nHost: x\r\n\r\n") with | .ok _ _ => true | _ => false) = false := by decide +kernel
    rw [h1] at this
    cases this

/-! ## C23 -/

/-- **C23**: a request that names an unknown transfer coding anywhere does not reach the endpoint. -/
theorem C23_not_called {env : Env} (hx : HexLenOk env.hexLen) {opts : ServerOpts} {endpoint : Endpoint σ} {fuel n : Nat} {c c' : Conn ρ}
    {ev : List Event} {res : Option AcceptRes} {h m t : Bytes} {v : Nat} {fs : List (Bytes × Bytes)} (hh : FirstHead (rem c.rd) h) (hd : HasHead h m t v fs)
    {f : Bytes × Bytes} (hf : f ∈ fs) (hb : BadCoding f) (hs : acceptStep env opts endpoint fuel n c = .ret (c', ev, res)) : calls ev = [] := by
  obtain ⟨w, h1, h2⟩ := judged_not_served (uriOk := env.uriOk) (h := h)
    (fun m' t' fs' len a _ g _ _ _ => (g f (by rw [← (hd.unique a).2.2.2]; exact hf)).2 hb)
  exact calls_nil_of_not_served (acceptStep_spec hx hs) hh h1 h2

/-- **C23**: if it is the first thing wrong with the framing fields of an HTTP/1.1 request, 501 is written (as
much of it as the transport takes), nothing else, and `accept` returns the error without a further
iteration: the rest of the connection's events are these alone. -/
theorem C23_gives_up {env : Env} (hx : HexLenOk env.hexLen) (opts : ServerOpts) (endpoint : Endpoint σ) (n : Nat) {c : Conn ρ}
    {h m t : Bytes} {pre post : List (Bytes × Bytes)} {f : Bytes × Bytes} (hh : FirstHead (rem c.rd) h) (hd : HasHead h m t 1 (pre ++ f :: post)) (hm : m ≠ [])
    (hp : ∀ g ∈ pre, GoodField g) (hb : BadCoding f) (ht : NoTimeout opts c) :
    ∃ N, ∀ fuel, N ≤ fuel → ∀ it, ∃ c' x, acceptGo env opts endpoint fuel (it + 1) n c =
        .ret (c', [.wrote x], .err .connectionClosedUnsupportedTransferEncoding) ∧
      x <+: errorResponse 501 (env.now n) ∧ (c.wr.Reliable → x = errorResponse 501 (env.now n)) := by
  have hj : Judged env.uriOk h .giveUp := .coding hd hm hp hb
  refine ⟨stepBound env n c, fun fuel hf it => ?_⟩
  obtain ⟨c', ev, res, h1⟩ := acceptStep_returns hx (opts := opts) (endpoint := endpoint) (fuel := fuel) (n := n) (c := c)
    (fun h' i' m t fs len hh' hj' => by have := hh'.unique hh; subst this; have := hj'.unique hj; cases this) hf
  obtain ⟨g1, x, g2, g3, _, g5⟩ := gaveUp_inv (acceptStep_spec hx h1) hh hj ht
  subst g1 g2
  exact ⟨c', x, by simp only [acceptGo, h1, Run.ret_bind], g3, g5⟩

/-- A request with a good and an unknown coding. -/
example : ∃ h m t pre f post, FirstHead (rem (connOf [ascii "PUT / HTTP/1.1\r\nHost: x\r\nTransfer-Encoding: CHUNKED\r\nTransfer-Encoding: gzip\r\n\r\n"]).rd) h ∧
    HasHead h m t 1 (pre ++ f :: post) ∧ m ≠ [] ∧ (∀ g ∈ pre, GoodField g) ∧ BadCoding f := by
  refine ⟨ascii "PUT / HTTP/1.1\r\nHost: x\r\nTransfer-Encoding: CHUNKED\r\nTransfer-Encoding: gzip\r\n\r\n", ascii "PUT", ascii "/",
    [(ascii "Host", ascii "x"), (ascii "Transfer-Encoding", ascii "CHUNKED")], (ascii "Transfer-Encoding", ascii "gzip"), [], ?_, hasHead_of (rest := []) ?_, ?_, ?_, ?_⟩
  · show FirstHead (Script.bytes _) _; decide +kernel
  all_goals decide +kernel

/-! ## C24 -/

/-- **C24**: a request with a Content-Length that is not a number does not reach the endpoint. -/
theorem C24_not_called {env : Env} (hx : HexLenOk env.hexLen) {opts : ServerOpts} {endpoint : Endpoint σ} {fuel n : Nat} {c c' : Conn ρ}
    {ev : List Event} {res : Option AcceptRes} {h m t : Bytes} {v : Nat} {fs : List (Bytes × Bytes)} (hh : FirstHead (rem c.rd) h) (hd : HasHead h m t v fs)
    {f : Bytes × Bytes} (hf : f ∈ fs) (hb : BadLength f) (hs : acceptStep env opts endpoint fuel n c = .ret (c', ev, res)) : calls ev = [] := by
  obtain ⟨w, h1, h2⟩ := judged_not_served (uriOk := env.uriOk) (h := h)
    (fun m' t' fs' len a _ g _ _ _ => (g f (by rw [← (hd.unique a).2.2.2]; exact hf)).1 hb)
  exact calls_nil_of_not_served (acceptStep_spec hx hs) hh h1 h2

/-- **C24**: if it is the first thing wrong with the framing fields, the answer is 400. -/
theorem C24_answered {env : Env} (hx : HexLenOk env.hexLen) (opts : ServerOpts) (endpoint : Endpoint σ) (n : Nat) {c : Conn ρ}
    {h m t : Bytes} {pre post : List (Bytes × Bytes)} {f : Bytes × Bytes} (hh : FirstHead (rem c.rd) h) (hd : HasHead h m t 1 (pre ++ f :: post)) (hm : m ≠ [])
    (hp : ∀ g ∈ pre, GoodField g) (hb : BadLength f) (hr : c.wr.Reliable) (ht : NoTimeout opts c) :
    ∃ N, ∀ fuel, N ≤ fuel → ∃ c', acceptStep env opts endpoint fuel n c = .ret (c', [.wrote (errorResponse 400 (env.now n))], none) :=
  refused_total hx hh (.length hd hm hp hb) hr ht

/-- 2^64 is not representable, a signed or empty number is none either. -/
example : ∃ h m t pre f post, FirstHead (rem (connOf [ascii "PUT / HTTP/1.1\r\nContent-Length: 18446744073709551616\r\n\r\n"]).rd) h ∧
    HasHead h m t 1 (pre ++ f :: post) ∧ m ≠ [] ∧ (∀ g ∈ pre, GoodField g) ∧ BadLength f := by
  refine ⟨ascii "PUT / HTTP/1.1\r\nContent-Length: 18446744073709551616\r\n\r\n", ascii "PUT", ascii "/",
    [], (ascii "Content-Length", ascii "18446744073709551616"), [], ?_, hasHead_of (rest := []) ?_, ?_, ?_, ?_⟩
  · show FirstHead (Script.bytes _) _; decide +kernel
  all_goals decide +kernel

example : BadLength (ascii "content-LENGTH", ascii "-1") ∧ BadLength (ascii "content-length", []) ∧ ¬ BadLength (ascii "content-length", ascii "+007") := by
  decide +kernel

/-! ## C25 -/

/-- **C25**: what the endpoint is given is what the head says: method, target and fields are those of the
head, there is a Host, all framing fields are understood, and the length of the body is the one
`BodyLength` derives from the fields. -/
theorem C25_given {env : Env} (hx : HexLenOk env.hexLen) {opts : ServerOpts} {endpoint : Endpoint σ} {fuel n : Nat} {c c' : Conn ρ}
    {ev : List Event} {res : Option AcceptRes} (hs : acceptStep env opts endpoint fuel n c = .ret (c', ev, res)) {head : ReqHead} {len : Option Nat}
    (hc : .call head len ∈ ev) :
    ∃ h fs, FirstHead (rem c.rd) h ∧ HasHead h head.method head.uri 1 fs ∧ MapOf head.headers fs ∧ (∀ f ∈ fs, GoodField f) ∧
      valuesOf (ascii "host") fs ≠ [] ∧ BodyLength fs len ∧ calls ev = [(head, len)] := by
  obtain ⟨_, h, i, fs, hv⟩ := call_inv (acceptStep_spec hx hs) hc
  obtain ⟨h1, h2, h3, h4, h5, h6, _⟩ := hv.judged.served
  refine ⟨h, fs, hv.firstHead, h1, hv.headers, h3, h4, h6, ?_⟩
  rcases calls_inv (acceptStep_spec hx hs) with h0 | ⟨_, _, _, _, _, h7, _, _⟩
  · have := mem_calls.2 hc; rw [h0] at this; cases this
  · have := mem_calls.2 hc
    rw [h7] at this
    simp only [List.mem_singleton] at this
    rw [h7, this]

/-- **C25**, the other direction: a well-formed request is handed to the endpoint. -/
theorem C25_served {env : Env} (hx : HexLenOk env.hexLen) {opts : ServerOpts} {endpoint : Endpoint σ} {fuel n : Nat} {c c' : Conn ρ}
    {ev : List Event} {res : Option AcceptRes} {h m t : Bytes} {fs : List (Bytes × Bytes)} {len : Option Nat}
    (hh : FirstHead (rem c.rd) h) (hd : HasHead h m t 1 fs) (hm : m ≠ []) (hg : ∀ f ∈ fs, GoodField f) (hn : valuesOf (ascii "host") fs ≠ [])
    (hu : env.uriOk t = true) (hl : BodyLength fs len) (hr : c.wr.Reliable) (ht : NoTimeout opts c)
    (hs : acceptStep env opts endpoint fuel n c = .ret (c', ev, res)) :
    res = none ∧ ∃ hmap, MapOf hmap fs ∧ calls ev = [(⟨m, t, hmap⟩, len)] := by
  obtain ⟨h1, hmap, h2⟩ := served_inv (acceptStep_spec hx hs) hh (.serve hd hm hg hn hu hl) (fun _ => hr) ht
  refine ⟨h1, hmap, h2.headers, ?_⟩
  have hc : .call ⟨m, t, hmap⟩ len ∈ ev := by
    obtain ⟨_, _, _, _, _, _, _, _, _, _, _, _, _, _, rfl⟩ := h2.run
    simp
  obtain ⟨_, _, _, _, _, _, _, _, h3⟩ := C25_given hx hs hc
  exact h3

/-- **C25**: the framing decision, spelled out for the four combinations that matter. -/
theorem C25_lengths (fs : List (Bytes × Bytes)) :
    (valuesOf (ascii "transfer-encoding") fs = [] → valuesOf (ascii "content-length") fs = [] → ∀ len, BodyLength fs len ↔ len = some 0) ∧
    (∀ vs v k, valuesOf (ascii "transfer-encoding") fs = [] → valuesOf (ascii "content-length") fs = vs ++ [v] → IsLength v k →
      ∀ len, BodyLength fs len ↔ len = some k) ∧
    (∀ vs v, valuesOf (ascii "transfer-encoding") fs = vs ++ [v] → lower v = ascii "chunked" → ∀ len, BodyLength fs len ↔ len = none) ∧
    (∀ vs v ws w k, valuesOf (ascii "transfer-encoding") fs = vs ++ [v] → lower v = ascii "identity" →
      valuesOf (ascii "content-length") fs = ws ++ [w] → IsLength w k → ∀ len, BodyLength fs len ↔ len = some k) := by
  refine ⟨?_, ?_, ?_, ?_⟩
  · intro h1 h2 len
    simp [BodyLength, BodyLength.Plain, h1, h2]
  · intro vs v k h1 h2 hk len
    simp only [BodyLength, BodyLength.Plain, h1, h2, List.getLast?_nil, List.getLast?_concat]
    constructor
    · rintro ⟨n, hn, rfl⟩; rw [hn.unique hk]
    · rintro rfl; exact ⟨k, hk, rfl⟩
  · intro vs v h1 h2 len
    simp [BodyLength, h1, h2]
  · intro vs v ws w k h1 h2 h3 hk len
    have : ¬ lower v = ascii "chunked" := by rw [h2]; decide
    simp only [BodyLength, BodyLength.Plain, h1, h3, List.getLast?_concat, if_neg this]
    constructor
    · rintro ⟨n, hn, rfl⟩; rw [hn.unique hk]
    · rintro rfl; exact ⟨k, hk, rfl⟩

/-- Conflicting framing: chunked wins over a length, the last length over the first. -/
example : BodyLength [(ascii "Content-Length", ascii "3"), (ascii "Transfer-Encoding", ascii "Chunked")] none ∧
    BodyLength [(ascii "Content-Length", ascii "3"), (ascii "content-length", ascii "4")] (some 4) := by
  refine ⟨((C25_lengths _).2.2.1 [] (ascii "Chunked") (by decide) (by decide) _).2 rfl, ?_⟩
  exact ((C25_lengths _).2.1 [ascii "3"] (ascii "4") 4 (by decide) (by decide) ⟨ascii "4", .inl rfl, by decide, by decide, by decide, by decide⟩ _).2 rfl

/-- `postConn` meets the hypotheses of `C25_served`. -/
example : (∀ f ∈ postFields, GoodField f) ∧ valuesOf (ascii "host") postFields ≠ [] ∧ demoEnv.uriOk (ascii "/p") = true ∧
    BodyLength postFields (some 5) := by
  refine ⟨by decide +kernel, by decide, by decide +kernel, ?_⟩
  exact ((C25_lengths _).2.1 [] (ascii "5") 5 (by decide) (by decide) ⟨ascii "5", .inl rfl, by decide, by decide, by decide, by decide⟩ _).2 rfl

/-! ## C26 -/

/-- **C26**: whatever an endpoint reads (up to the first error) from a body of declared length `k` is a prefix
of the `k` bytes that follow the head. -/
theorem C26_prefix {env : Env} (hx : HexLenOk env.hexLen) {opts : ServerOpts} {endpoint : Endpoint σ} {fuel n : Nat} {c c' : Conn ρ}
    {ev : List Event} {res : Option AcceptRes} (hs : acceptStep env opts endpoint fuel n c = .ret (c', ev, res)) {head : ReqHead} {k : Nat}
    (hc : .call head (some k) ∈ ev) {h : Bytes} (hh : FirstHead (rem c.rd) h) :
    received ((untilErr (bodyReads ev)).map (·.2)) <+: ((rem c.rd).drop h.length).take k := by
  obtain ⟨_, h', i, fs, hv⟩ := call_inv (acceptStep_spec hx hs) hc
  have := hv.firstHead.unique hh; subst this
  obtain ⟨body, b1, h1, h2⟩ := hv.reads
  exact (h1.fixed_reads h2).1

/-- **C26**: an endpoint that reads a body of declared length `k` sees an error only if the transport failed before the `k` bytes had come. -/
theorem C26_error {env : Env} (hx : HexLenOk env.hexLen) {opts : ServerOpts} {endpoint : Endpoint σ} {fuel n : Nat} {c c' : Conn ρ}
    {ev : List Event} {res : Option AcceptRes} (hs : acceptStep env opts endpoint fuel n c = .ret (c', ev, res)) {head : ReqHead} {k : Nat}
    (hc : .call head (some k) ∈ ev) {h : Bytes} (hh : FirstHead (rem c.rd) h) {e : IoErr} {j : Nat} (he : (j, .err e) ∈ untilErr (bodyReads ev)) :
    ((rem c.rd).drop h.length).length < k ∧ fin c.rd = some e := by
  obtain ⟨_, h', i, fs, hv⟩ := call_inv (acceptStep_spec hx hs) hc
  have := hv.firstHead.unique hh; subst this
  obtain ⟨body, b1, h1, h2⟩ := hv.reads
  obtain ⟨_, k2, k3⟩ := (h1.fixed_reads h2).2.1 e (List.mem_map.2 ⟨_, he, rfl⟩)
  exact ⟨k2, k3⟩

/-- **C26**: an endpoint that reads with non-empty buffers: once it sees the end of the body it has got all
`k` bytes, or all there are if the peer closed the connection before; it sees an error only if the transport
failed before the `k` bytes had come; and it sees one or the other at the latest at the read number
`k + meas c.rd + c.wr.script.length + 1`. -/
theorem C26_complete {env : Env} (hx : HexLenOk env.hexLen) {opts : ServerOpts} {endpoint : Endpoint σ} {fuel n : Nat} {c c' : Conn ρ}
    {ev : List Event} {res : Option AcceptRes} (hs : acceptStep env opts endpoint fuel n c = .ret (c', ev, res)) {head : ReqHead} {k : Nat}
    (hc : .call head (some k) ∈ ev) {h : Bytes} (hh : FirstHead (rem c.rd) h) (hk : ∀ x ∈ bodyReads ev, 0 < x.1) :
    (SawEof ((untilErr (bodyReads ev)).map (·.2)) →
      received ((untilErr (bodyReads ev)).map (·.2)) = ((rem c.rd).drop h.length).take k ∧
      (((rem c.rd).drop h.length).length < k → fin c.rd = none)) ∧
    (∀ e j, (j, .err e) ∈ untilErr (bodyReads ev) → ((rem c.rd).drop h.length).length < k ∧ fin c.rd = some e) ∧
    (k + meas c.rd + c.wr.script.length < (bodyReads ev).length →
      SawEof ((untilErr (bodyReads ev)).map (·.2)) ∨ ∃ e j, (j, .err e) ∈ untilErr (bodyReads ev)) := by
  obtain ⟨_, h', i, fs, hv⟩ := call_inv (acceptStep_spec hx hs) hc
  have := hv.firstHead.unique hh; subst this
  obtain ⟨body, b1, h1, h2⟩ := hv.reads
  obtain ⟨g1, g2, g3, g4⟩ := h1.fixed_reads h2
  have hk' : ∀ j ∈ (untilErr (bodyReads ev)).map (·.1), 0 < j := by
    intro j hj
    obtain ⟨x, hx, rfl⟩ := List.mem_map.1 hj
    exact hk x (untilErr_mem _ x hx)
  refine ⟨fun he => g3 hk' he, ?_, ?_⟩
  · intro e j he
    obtain ⟨_, k2, k3⟩ := g2 e (List.mem_map.2 ⟨_, he, rfl⟩)
    exact ⟨k2, k3⟩
  · intro hl
    by_cases hc : ∃ e j, (j, RPoll.err e) ∈ bodyReads ev
    · exact .inr (untilErr_err _ hc)
    · have heq := untilErr_eq _ hc
      rcases g4 hk' (by rw [heq]; simp only [List.length_take, List.length_map]; omega) with h | ⟨x, hx⟩
      · exact .inl h
      · rw [heq] at hx
        obtain ⟨y, hy, hy2⟩ := List.mem_map.1 hx
        exact .inr ⟨x, y.1, by rw [heq, ← hy2]; exact hy⟩

/-- An endpoint that reads `hello` from `postConn` and sees the end. -/
example : ∃ c' ev res, acceptStep demoEnv plainOpts (reading [3, 3, 8, 8, 8]) 1000 0 postConn = .ret (c', ev, res) ∧
    bodyReads ev = [(3, .pending), (3, .data (ascii "he")), (8, .pending), (8, .data (ascii "llo")), (8, .data [])] := by
  have h : observed (reading [3, 3, 8, 8, 8]) postConn = .ret ([.wrote continueResponse,
      .call ⟨ascii "POST", ascii "/p", [(ascii "host", [ascii "x"]), (ascii "content-length", [ascii "5"]), (ascii "expect", [ascii "100-continue"])]⟩ (some 5),
      .got 3 .pending, .got 3 (.data (ascii "he")), .got 8 .pending, .got 8 (.data (ascii "llo")), .got 8 (.data []),
      .wrote (ascii "HTTP/1.1 200 OK\r\ncontent-length: 5\r\ndate: NOW\r\ncontent-type: application/octet-stream\r\n\r\nhello")], none) := by decide +kernel
  obtain ⟨c', h1⟩ := observed_ret h
  exact ⟨c', _, _, h1, rfl⟩

/-! ## C27 -/

/-- **C27**: an HTTP/1.1 request whose framing fields are in order: the interim response is the first thing
written if the first Expect field is exactly `100-continue`, and is not written otherwise; what follows is
either the call of the endpoint or one error response. -/
theorem C27_interim {env : Env} (hx : HexLenOk env.hexLen) {opts : ServerOpts} {endpoint : Endpoint σ} {fuel n : Nat} {c c' : Conn ρ}
    {ev : List Event} {res : Option AcceptRes} {h m t : Bytes} {fs : List (Bytes × Bytes)}
    (hh : FirstHead (rem c.rd) h) (hd : HasHead h m t 1 fs) (hm : m ≠ []) (hg : ∀ f ∈ fs, GoodField f) (hr : c.wr.Reliable) (ht : NoTimeout opts c)
    (hs : acceptStep env opts endpoint fuel n c = .ret (c', ev, res)) :
    ∃ rest, ev = interim (Expects fs) ++ rest ∧
      (rest = [.wrote (errorResponse 400 (env.now n))] ∨
       ∃ head len ev', rest = .call head len :: ev' ∧ calls ev' = []) := by
  have a := acceptStep_spec hx hs
  by_cases hn : valuesOf (ascii "host") fs = []
  · obtain ⟨_, g2, _⟩ := refused_inv a hh (.noHost hd hm hg hn) hr ht
    exact ⟨_, g2, .inl rfl⟩
  · cases hu : env.uriOk t with
    | false =>
      obtain ⟨_, g2, _⟩ := refused_inv a hh (.badTarget hd hm hg hn hu) hr ht
      exact ⟨_, g2, .inl rfl⟩
    | true =>
      obtain ⟨v, hv⟩ := Judged.total env.uriOk h
      have : ∃ len, BodyLength fs len := by
        generalize hvv : v = v' at hv
        cases hv with
        | malformed a => exact absurd hd (a _ _ _ _)
        | noMethod a => exact absurd (hd.unique a).1 hm
        | version a _ b => exact absurd (hd.unique a).2.2.1.symm b
        | length a _ _ b => exact absurd b (hg _ (by rw [(hd.unique a).2.2.2]; simp)).1
        | coding a _ _ b => exact absurd b (hg _ (by rw [(hd.unique a).2.2.2]; simp)).2
        | noHost a _ _ b => exact absurd ((hd.unique a).2.2.2 ▸ b) hn
        | badTarget a _ _ _ b => rw [← (hd.unique a).2.1, hu] at b; cases b
        | serve a _ _ _ _ b => exact ⟨_, (hd.unique a).2.2.2 ▸ b⟩
      obtain ⟨len, hl⟩ := this
      obtain ⟨_, hmap, h2⟩ := served_inv a hh (.serve hd hm hg hn hu hl) (fun _ => hr) ht
      obtain ⟨_, _, _, _, _, ev1, _, ev2, _, _, _, k1, k2, _, rfl⟩ := h2.run
      refine ⟨_, rfl, .inr ⟨_, _, _, rfl, ?_⟩⟩
      rw [calls_append, runProg_calls _ _ _ _ _ _ _ k1, answerGlitch_calls k2]
      rfl

/-- **C27**: a request that is refused because of its version, method, Content-Length or Transfer-Encoding gets no
interim response. -/
theorem C27_no_interim {env : Env} (hx : HexLenOk env.hexLen) {opts : ServerOpts} {endpoint : Endpoint σ} {fuel n : Nat} {c c' : Conn ρ}
    {ev : List Event} {res : Option AcceptRes} {h : Bytes}
    (hh : FirstHead (rem c.rd) h) (hd : ∀ m t fs, HasHead h m t 1 fs → m ≠ [] → ∃ f ∈ fs, ¬ GoodField f) (hr : c.wr.Reliable) (ht : NoTimeout opts c)
    (hs : acceptStep env opts endpoint fuel n c = .ret (c', ev, res)) :
    ∃ st, (st = 400 ∨ st = 501 ∨ st = 505) ∧ ev = [.wrote (errorResponse st (env.now n))] := by
  have a := acceptStep_spec hx hs
  obtain ⟨v, hv⟩ := Judged.total env.uriOk h
  have hv' := hv
  have hgood : ∀ m t fs, HasHead h m t 1 fs → m ≠ [] → (∀ f ∈ fs, GoodField f) → False := by
    intro m t fs h1 h2 h3
    obtain ⟨f, h4, h5⟩ := hd m t fs h1 h2
    exact h5 (h3 f h4)
  cases hv with
  | malformed => exact ⟨400, .inl rfl, (refused_inv a hh hv' hr ht).2.1⟩
  | noMethod => exact ⟨400, .inl rfl, (refused_inv a hh hv' hr ht).2.1⟩
  | version => exact ⟨505, .inr (.inr rfl), (refused_inv a hh hv' hr ht).2.1⟩
  | length => exact ⟨400, .inl rfl, (refused_inv a hh hv' hr ht).2.1⟩
  | coding =>
    obtain ⟨_, x, g1, _, _, g2⟩ := gaveUp_inv a hh hv' ht
    exact ⟨501, .inr (.inl rfl), by rw [g1, g2 hr]; rfl⟩
  | noHost h1 h2 h3 => exact (hgood _ _ _ h1 h2 h3).elim
  | badTarget h1 h2 h3 => exact (hgood _ _ _ h1 h2 h3).elim
  | serve h1 h2 h3 => exact (hgood _ _ _ h1 h2 h3).elim

/-- `postFields` asks for an interim response; not exactly `100-continue` does not. -/
example : Expects postFields = true ∧ Expects [(ascii "Expect", ascii "100-Continue")] = false ∧
    Expects [(ascii "expect", ascii "x"), (ascii "expect", ascii "100-continue")] = false := by decide +kernel

end Tophat
