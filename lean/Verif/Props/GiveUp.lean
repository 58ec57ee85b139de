import Verif.Proofs.GiveUp
import Verif.Props.Glued
/-!
# Property C90: an endpoint that gives up sending its response
-/

set_option linter.unusedSectionVars false
set_option synthInstance.maxSize 1000

namespace Tophat
open Spec

section
variable {ρ : Type} [AsyncRead ρ] [LawfulRead ρ] {σ : Type} [AsyncBufRead σ] [LawfulBufRead σ] {τ : Type} [AsyncRead τ] [LawfulRead τ]

/-- What is on the wire: the response, whole, and nothing else, if the endpoint has not given up; else a beginning of the response (anything from nothing to all of it), and behind it a whole error response.
For a streamed response and a transport that takes everything at once, that beginning ends with a chunk, or within a head that is longer than the copy buffer. -/
theorem C90_on_the_wire {env : Env} (hx : HexLenOk env.hexLen) {opts : ServerOpts} {endpoint : Endpoint σ} {fuel n : Nat} {c c' : Conn ρ} {head : ReqHead} {len : Option Nat}
    {evs : List Event} {res : Option AcceptRes} (hs : acceptStep env opts endpoint fuel n c = .ret (c', .call head len :: evs, res)) (hrel : c.wr.Reliable)
    {P : InnerResponse σ → Prop} (hP : ∀ resp, P resp → resp.headers.WF ∧ fin resp.body = none ∧ ∀ n, resp.length = some n → 8192 + n < usizeLimit) (he : (endpoint head len).Hurries P) :
    ∃ resp msg, P resp ∧ IsResponse (headOf resp (env.now n)) resp.length (rem resp.body) msg ∧
      ((c'.wr.got = c.wr.got ++ msg ∧ ∀ k, resp.length = some k → k ≤ (rem resp.body).length) ∨
        ∃ sent answer, sent <+: msg ∧ WholeResponse (env.now n) answer ∧ c'.wr.got = c.wr.got ++ (sent ++ answer) ∧
          (c.wr.script = [] → resp.length = none →
            sent <+: headOf resp (env.now n) ∧ sent.length < (headOf resp (env.now n)).length ∧ sent.length % 8192 = 0 ∨
            (∃ v p, sent = headOf resp (env.now n) ++ v ∧ Chunks v p ∧ p <+: rem resp.body) ∨
            ∃ wire, sent = headOf resp (env.now n) ++ wire ∧ ChunkedMessage wire (rem resp.body))) := by
  obtain ⟨_, h, i, fs, hsv⟩ := call_inv (acceptStep_spec hx hs) (List.mem_cons_self ..)
  obtain ⟨used, body, body', w1, w2, ev1, g, ev2, h1, h2, h3, h4, h5, h6, h7⟩ := hsv.run
  have hi : i = false := by
    cases i with
    | false => rfl
    | true => simp [Spec.interim] at h7
  subst hi
  have h1 : w1.got = c.wr.got := by simpa [interimOf] using h1
  have hr1 : w1.Reliable := hrel.suffix h2
  have e1 := runProg_told _ _ _ _ _ _ _ h4
  obtain ⟨resp, msg, k1, k2, ⟨rfl, k3, k4⟩ | ⟨sent, gl, k3, k4, k5, rfl, k6⟩⟩ := runProg_hurries hx hP _ _ _ _ _ _ _ he hr1 h4
  · refine ⟨resp, msg, k1, k2, .inl ⟨?_, k4⟩⟩
    simp only [answerGlitch, Run.ret.injEq, Prod.mk.injEq] at h5
    rw [← h5.1, k3, h1]
  · obtain ⟨answer, m1, m2⟩ := answerGlitch_whole hx k6 (e1.1.reliable hr1) h5
    refine ⟨resp, msg, k1, k2, .inr ⟨sent, answer, k3, m1, by rw [m2, k4, h1, List.append_assoc], fun hs hl => k5 ?_ hl⟩⟩
    rw [hs] at h2
    exact (List.append_eq_nil_iff.1 h2.symm).2

/-- **C90**, what holds if the response is streamed and the transport takes everything at once: the client gets the whole response and nothing else; or a whole error response and nothing else;
or the whole response with a whole error response behind it; or what follows the head is not a chunked body of RFC 7230, so that every recipient can tell.  In this last case a tophat client gets the response, and its
`into_bytes` fails if the framing of the chunks takes less than 4096 bytes.
Missing: responses of declared length, see `C90_refuted`; other transports, see `C90_refuted_stray`; and for a tophat client more framing, see `C15_refuted`. -/
theorem C90_streamed_partial {grow : Nat → Nat → Nat} (hg : GrowOk grow) {env : Env} (hx : HexLenOk env.hexLen) {opts : ServerOpts} {endpoint : Endpoint σ} {fuel n : Nat} {c c' : Conn ρ}
    {head : ReqHead} {len : Option Nat} {evs : List Event} {res : Option AcceptRes} (hs : acceptStep env opts endpoint fuel n c = .ret (c', .call head len :: evs, res))
    (hgot : c.wr.got = []) (hscript : c.wr.script = [])
    {P : InnerResponse σ → Prop} (hP : ∀ resp, P resp → Transmittable resp (env.now n) ∧ resp.length = none ∧ fin resp.body = none ∧ (rem resp.body).length < 2 ^ 64) (he : (endpoint head len).Hurries P)
    {io : τ} {y : Bytes} (hio : rem io = c'.wr.got ++ y) (now' : Bytes) {pool : Pool} (hp : pool.Ok) {cfuel : Nat} (hf : 2 * (rem io).length + meas io < cfuel) :
    ∃ resp, P resp ∧
      (IsResponse (headOf resp (env.now n)) none (rem resp.body) c'.wr.got ∨
      WholeResponse (env.now n) c'.wr.got ∨
      (∃ msg answer, c'.wr.got = msg ++ answer ∧ IsResponse (headOf resp (env.now n)) none (rem resp.body) msg ∧ WholeResponse (env.now n) answer) ∨
      ∃ v p answer, rem io = headOf resp (env.now n) ++ (v ++ (answer ++ y)) ∧ Chunks v p ∧ p <+: rem resp.body ∧ WholeResponse (env.now n) answer ∧ Malformed (v ++ (answer ++ y)) p ∧
        ∃ rsp, ClientDecode.decode now' pool cfuel io = .ret (.done (.ok rsp)) ∧
          (Within 1 4096 v p → ∀ F, p.length + meas io < F →
            ∃ r e, rsp.toBody.intoBytes grow F = .ret (r, .conversion e) ∧ (e = .chunkSize ∨ e = .invalidData ∨ e = .trailer))) := by
  obtain ⟨resp, msg, k1, k2, ⟨k3, -⟩ | ⟨sent, answer, -, m1, m2, m3⟩⟩ := C90_on_the_wire hx hs (by intro e he; rw [hscript] at he; cases he)
    (fun resp h => ⟨(hP resp h).1.wf, (hP resp h).2.2.1, by intro k hk; rw [(hP resp h).2.1] at hk; cases hk⟩) he
  · obtain ⟨-, q2, -⟩ := hP resp k1
    rw [q2] at k2
    exact ⟨resp, k1, .inl (by rw [k3, hgot]; exact k2)⟩
  obtain ⟨q1, q2, q3, q4⟩ := hP resp k1
  refine ⟨resp, k1, .inr ?_⟩
  rw [hgot, List.nil_append] at m2
  rcases m3 hscript q2 with ⟨-, g2, g3⟩ | ⟨v, p, rfl, g2, g3⟩ | ⟨wire, rfl, g2⟩
  · have := q1.small
    have : sent = [] := by
      apply List.eq_nil_of_length_eq_zero
      omega
    subst this
    exact .inl (by rw [m2]; exact m1)
  · have hrem : rem io = headOf resp (env.now n) ++ (v ++ (answer ++ y)) := by rw [hio, m2]; simp
    obtain ⟨a1, a2⟩ := broken_off hg q1 q2 g2 (Nat.lt_of_le_of_lt g3.length_le q4) m1 hrem now' hp hf
    exact .inr (.inr ⟨v, p, answer, hrem, g2, g3, m1, a1, a2⟩)
  · exact .inr (.inl ⟨_, answer, m2, ⟨wire, rfl, g2⟩, m1⟩)

/-- **C90 is false of the code** for every response of declared length whose sending the endpoint gives up once the head is sent: a tophat client gets the response with the endpoint's status and a declared length of `k`, and
once `k` bytes have come behind the head, `into_bytes` returns `Ok` with these: what had been sent of the body (`v`), and then the beginning of the error response. -/
theorem C90_refuted_declared {grow : Nat → Nat → Nat} (hg : GrowOk grow) {env : Env} (hx : HexLenOk env.hexLen) {opts : ServerOpts} {endpoint : Endpoint σ} {fuel n : Nat} {c c' : Conn ρ}
    {head : ReqHead} {len : Option Nat} {evs : List Event} {res : Option AcceptRes} (hs : acceptStep env opts endpoint fuel n c = .ret (c', .call head len :: evs, res))
    (hgot : c.wr.got = []) (hrel : c.wr.Reliable) {k : Nat} (hk : 8192 + k < usizeLimit)
    {P : InnerResponse σ → Prop} (hP : ∀ resp, P resp → Transmittable resp (env.now n) ∧ resp.length = some k ∧ fin resp.body = none) (he : (endpoint head len).Hurries P)
    {io : τ} {y : Bytes} (hio : rem io = c'.wr.got ++ y) (now' : Bytes) {pool : Pool} (hp : pool.Ok) {cfuel : Nat} (hf : 2 * (rem io).length + meas io < cfuel) :
    ∃ resp, P resp ∧
      (c'.wr.got = headOf resp (env.now n) ++ (rem resp.body).take k ∧ k ≤ (rem resp.body).length ∨
      ∃ sent answer, WholeResponse (env.now n) answer ∧ c'.wr.got = sent ++ answer ∧
        ((sent <+: headOf resp (env.now n) ∧ sent ≠ headOf resp (env.now n)) ∨
        ∃ v, sent = headOf resp (env.now n) ++ v ∧ v <+: (rem resp.body).take k ∧
          ∃ rsp, ClientDecode.decode now' pool cfuel io = .ret (.done (.ok rsp)) ∧ rsp.status = resp.status ∧ rsp.length = some k ∧
            ∀ F, k + meas io < F → k ≤ (v ++ (answer ++ y)).length → ∃ r, rsp.toBody.intoBytes grow F = .ret (r, .ok ((v ++ (answer ++ y)).take k)))) := by
  obtain ⟨resp, msg, k1, k2, ⟨k3, k4⟩ | ⟨sent, answer, k3, m1, m2, -⟩⟩ := C90_on_the_wire hx hs hrel
    (fun resp h => ⟨(hP resp h).1.wf, (hP resp h).2.2, by intro m hm; rw [(hP resp h).2.1] at hm; injection hm with hm; omega⟩) he
  · obtain ⟨-, q2, -⟩ := hP resp k1
    rw [q2] at k2
    exact ⟨resp, k1, .inl ⟨by rw [k3, hgot]; exact k2, k4 k q2⟩⟩
  obtain ⟨q1, q2, q3⟩ := hP resp k1
  rw [hgot, List.nil_append] at m2
  rw [q2] at k2
  obtain rfl : msg = headOf resp (env.now n) ++ (rem resp.body).take k := k2
  refine ⟨resp, k1, .inr ⟨sent, answer, m1, m2, ?_⟩⟩
  rcases prefix_split k3 with hlt | ⟨v, rfl, hv⟩
  · exact .inl hlt
  · have hrem : rem io = headOf resp (env.now n) ++ (v ++ (answer ++ y)) := by rw [hio, m2]; simp
    exact .inr ⟨v, rfl, hv, mixed_up hg q1 q2 (by omega) hrem now' hp hf⟩

end

/-- An endpoint that answers with a body which stalls after three bytes, and gives up after `steps` iterations of the copying. -/
def impatient (steps : Nat) (len : Option Nat) : Endpoint Script := fun _ _ =>
  .sendFor steps ⟨200, [], .http11, [.data (ascii "abc"), .pending, .pending, .data (ascii "defghijklmnopqrstuvw")], len⟩ (fun _ => .ok) (fun _ => .glitch .new) (.glitch (.ofStatus 504))

/-- What the server writes, and what a client that gets this and awaits `into_bytes` sees: status, declared length, and the result. -/
def exchangeWith (endpoint : Endpoint Script) (script : List WEv) : Run (Bytes × AcceptRes × Nat × Option Nat × BodyRes) := do
  let (c, _, res) ← acceptGo demoEnv plainOpts endpoint 1000 9 0 { connOf [getA] with wr := ⟨script, [], 0⟩ }
  match ← ClientDecode.decode (ascii "NOW") zeroPool 1000 ([.data c.wr.got] : Script) with
  | .done (.ok rsp) => do
    let (_, x) ← rsp.toBody.intoBytes doubling 1000
    .ret (c.wr.got, res, rsp.status, rsp.length, x)
  | _ => .diverge

theorem exchangeWith_ret {endpoint : Endpoint Script} {script : List WEv} {w : Bytes} {res : AcceptRes} {st : Nat} {l : Option Nat} {x : BodyRes}
    (h : exchangeWith endpoint script = .ret (w, res, st, l, x)) :
    ∃ c' ev, acceptGo demoEnv plainOpts endpoint 1000 9 0 { connOf [getA] with wr := ⟨script, [], 0⟩ } = .ret (c', ev, res) ∧ c'.wr.got = w ∧
      ∃ rsp r, ClientDecode.decode (ascii "NOW") zeroPool 1000 ([.data c'.wr.got] : Script) = .ret (.done (.ok rsp)) ∧ rsp.status = st ∧ rsp.length = l ∧
        rsp.toBody.intoBytes doubling 1000 = .ret (r, x) := by
  unfold exchangeWith at h
  obtain ⟨⟨c', ev, res'⟩, h1, h2⟩ := Run.bind_eq_ret.1 h
  dsimp only at h2
  obtain ⟨d, h3, h4⟩ := Run.bind_eq_ret.1 h2
  split at h4
  · rename_i rsp
    obtain ⟨⟨r, x'⟩, h5, h6⟩ := Run.bind_eq_ret.1 h4
    simp only [Run.ret.injEq, Prod.mk.injEq] at h6
    obtain ⟨rfl, rfl, rfl, rfl, rfl⟩ := h6
    exact ⟨c', ev, h1, rfl, rsp, r, h3, rfl, rfl, h5⟩
  · cases h4

/-- **C90 is false of the code** for responses of declared length: the endpoint gives up while the body is pending after three of 23 bytes and returns a `Glitch`, the server sends its `504` behind these three bytes, and the
client takes the first twenty bytes of it for the rest of the body: `200 OK`, and `into_bytes` returns `Ok` with 23 bytes, as declared. -/
theorem C90_refuted : ∃ c' ev, acceptGo demoEnv plainOpts (impatient 4 (some 23)) 1000 9 0 { connOf [getA] with wr := ⟨[], [], 0⟩ } = .ret (c', ev, .ok) ∧
    c'.wr.got = responseHead .http11 200 [] (some 23) (ascii "NOW") ++ ascii "abc" ++ errorResponse 504 (ascii "NOW") ∧
      ∃ rsp r, ClientDecode.decode (ascii "NOW") zeroPool 1000 ([.data c'.wr.got] : Script) = .ret (.done (.ok rsp)) ∧ rsp.status = 200 ∧ rsp.length = some 23 ∧
        rsp.toBody.intoBytes doubling 1000 = .ret (r, .ok (ascii "abcHTTP/1.1 504 Gateway")) :=
  exchangeWith_ret (by decide +kernel)

/-- **C90 is false of the code** if the transport has taken the whole response but its `flush` is still pending when the endpoint gives up: the response is complete, and behind it follows an error response that belongs to no
request (the next request's response, as far as the client can tell). -/
theorem C90_refuted_stray : ∃ c' ev, acceptGo demoEnv plainOpts (impatient 9 none) 1000 9 0 { connOf [getA] with wr := ⟨[.accept 1000, .accept 1000, .accept 1000, .pending], [], 0⟩ } = .ret (c', ev, .ok) ∧
    c'.wr.got = responseHead .http11 200 [] none (ascii "NOW") ++ ascii "3\r\nabc\r\n14\r\ndefghijklmnopqrstuvw\r\n0\r\n\r\n" ++ errorResponse 504 (ascii "NOW") ∧
      ∃ rsp r, ClientDecode.decode (ascii "NOW") zeroPool 1000 ([.data c'.wr.got] : Script) = .ret (.done (.ok rsp)) ∧ rsp.status = 200 ∧ rsp.length = none ∧
        rsp.toBody.intoBytes doubling 1000 = .ret (r, .ok (ascii "abcdefghijklmnopqrstuvw")) :=
  exchangeWith_ret (by decide +kernel)

/-- The same endpoint without a declared length, giving up at the same moment as in `C90_refuted`: the head and one chunk have been sent, and the client's `into_bytes` fails. -/
example : ∃ c' ev, acceptGo demoEnv plainOpts (impatient 4 none) 1000 9 0 { connOf [getA] with wr := ⟨[], [], 0⟩ } = .ret (c', ev, .ok) ∧
    c'.wr.got = responseHead .http11 200 [] none (ascii "NOW") ++ ascii "3\r\nabc\r\n" ++ errorResponse 504 (ascii "NOW") ∧
      ∃ rsp r, ClientDecode.decode (ascii "NOW") zeroPool 1000 ([.data c'.wr.got] : Script) = .ret (.done (.ok rsp)) ∧ rsp.status = 200 ∧ rsp.length = none ∧
        rsp.toBody.intoBytes doubling 1000 = .ret (r, .conversion .chunkSize) :=
  exchangeWith_ret (by decide +kernel)

/-- With more patience the whole response is sent, and nothing else. -/
example : ∃ c' ev, acceptGo demoEnv plainOpts (impatient 40 (some 23)) 1000 9 0 { connOf [getA] with wr := ⟨[], [], 0⟩ } = .ret (c', ev, .ok) ∧
    c'.wr.got = responseHead .http11 200 [] (some 23) (ascii "NOW") ++ ascii "abcdefghijklmnopqrstuvw" ∧
      ∃ rsp r, ClientDecode.decode (ascii "NOW") zeroPool 1000 ([.data c'.wr.got] : Script) = .ret (.done (.ok rsp)) ∧ rsp.status = 200 ∧ rsp.length = some 23 ∧
        rsp.toBody.intoBytes doubling 1000 = .ret (r, .ok (ascii "abcdefghijklmnopqrstuvw")) :=
  exchangeWith_ret (by decide +kernel)

/-- The hypotheses of `C90_on_the_wire` and `C90_streamed_partial`: one iteration of such a connection. -/
example : ∃ c' evs, acceptStep demoEnv plainOpts (impatient 4 none) 1000 0 (connOf [getA]) = .ret (c', .call ⟨ascii "GET", ascii "/a", hostX⟩ (some 0) :: evs, none) ∧
    (connOf [getA]).wr.got = [] ∧ (connOf [getA]).wr.script = [] ∧
    (∀ resp, resp = (⟨200, [], .http11, [.data (ascii "abc"), .pending, .pending, .data (ascii "defghijklmnopqrstuvw")], none⟩ : InnerResponse Script) →
      Transmittable resp (demoEnv.now 0) ∧ resp.length = none ∧ fin resp.body = none ∧ (rem resp.body).length < 2 ^ 64) ∧
    (impatient 4 none ⟨ascii "GET", ascii "/a", hostX⟩ (some 0)).Hurries
      (· = (⟨200, [], .http11, [.data (ascii "abc"), .pending, .pending, .data (ascii "defghijklmnopqrstuvw")], none⟩ : InnerResponse Script)) := by
  have hstep : (acceptStep demoEnv plainOpts (impatient 4 none) 1000 0 (connOf [getA])).bind (fun x => .ret (x.2.1, x.2.2)) =
      .ret ([.call ⟨ascii "GET", ascii "/a", hostX⟩ (some 0), .wrote (responseHead .http11 200 [] none (ascii "NOW") ++ ascii "3\r\nabc\r\n"), .wrote (errorResponse 504 (ascii "NOW"))], none) := by
    decide +kernel
  obtain ⟨⟨c', ev, res⟩, h1, h2⟩ := Run.bind_eq_ret.1 hstep
  simp only [Run.ret.injEq, Prod.mk.injEq] at h2
  obtain ⟨rfl, rfl⟩ := h2
  refine ⟨c', _, h1, rfl, rfl, ?_, rfl, fun _ => trivial, fun e => ⟨(by intro hs h; cases h), by decide⟩, ⟨(by intro hs h; cases h), by decide⟩⟩
  rintro resp rfl
  exact ⟨⟨rfl, by decide, ⟨by decide, by decide⟩, (HeaderMap.plain_ok (by decide +kernel)).1, (HeaderMap.plain_ok (by decide +kernel)).2, nowOk, by decide, by decide +kernel⟩, rfl, by decide +kernel, by decide +kernel⟩

/-- The hypotheses of `C90_refuted_declared`. -/
example : ∃ c' evs, acceptStep demoEnv plainOpts (impatient 4 (some 23)) 1000 0 (connOf [getA]) = .ret (c', .call ⟨ascii "GET", ascii "/a", hostX⟩ (some 0) :: evs, none) ∧
    (connOf [getA]).wr.got = [] ∧ (connOf [getA]).wr.Reliable ∧ 8192 + 23 < usizeLimit ∧
    (∀ resp, resp = (⟨200, [], .http11, [.data (ascii "abc"), .pending, .pending, .data (ascii "defghijklmnopqrstuvw")], some 23⟩ : InnerResponse Script) →
      Transmittable resp (demoEnv.now 0) ∧ resp.length = some 23 ∧ fin resp.body = none) ∧
    (impatient 4 (some 23) ⟨ascii "GET", ascii "/a", hostX⟩ (some 0)).Hurries
      (· = (⟨200, [], .http11, [.data (ascii "abc"), .pending, .pending, .data (ascii "defghijklmnopqrstuvw")], some 23⟩ : InnerResponse Script)) := by
  have hstep : (acceptStep demoEnv plainOpts (impatient 4 (some 23)) 1000 0 (connOf [getA])).bind (fun x => .ret (x.2.1, x.2.2)) =
      .ret ([.call ⟨ascii "GET", ascii "/a", hostX⟩ (some 0), .wrote (responseHead .http11 200 [] (some 23) (ascii "NOW") ++ ascii "abc"), .wrote (errorResponse 504 (ascii "NOW"))], none) := by
    decide +kernel
  obtain ⟨⟨c', ev, res⟩, h1, h2⟩ := Run.bind_eq_ret.1 hstep
  simp only [Run.ret.injEq, Prod.mk.injEq] at h2
  obtain ⟨rfl, rfl⟩ := h2
  refine ⟨c', _, h1, rfl, (by intro e he; cases he), by decide, ?_, rfl, fun _ => trivial, fun e => ⟨(by intro hs h; cases h), by decide⟩, ⟨(by intro hs h; cases h), by decide⟩⟩
  rintro resp rfl
  exact ⟨⟨rfl, by decide, ⟨by decide, by decide⟩, (HeaderMap.plain_ok (by decide +kernel)).1, (HeaderMap.plain_ok (by decide +kernel)).2, nowOk, by decide, by decide +kernel⟩, rfl, by decide +kernel⟩

end Tophat
