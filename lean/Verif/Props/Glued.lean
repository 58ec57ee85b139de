import Verif.Proofs.Glued
import Verif.Props.Cut
import Verif.Props.Accept
import Verif.Props.RoundTrip
/-!
# Properties C15 and C89: broken chunked bodies read to the end, and responses whose body fails half-way
-/

set_option linter.unusedSectionVars false
set_option synthInstance.maxSize 1000

namespace Tophat
open Spec

section
variable {ρ : Type} [AsyncRead ρ] [LawfulRead ρ]

/-! ## C15 -/

/-- **C15**, an endpoint that awaits `into_bytes`: if the framing of the chunked body is broken within the first 4096 bytes of it, the conversion fails with one of the decoding errors.
Missing: framing that is broken further behind, see `C15_refuted`. -/
theorem C15_into_bytes_partial {grow : Nat → Nat → Nat} (hg : GrowOk grow) {env : Env} {opts : ServerOpts} {fuel n : Nat} (hp : (env.pool n).Ok) {c : Conn ρ} {req : Request ρ}
    (hr : Receives env opts fuel n c req) {h s p : Bytes} (hh : FirstHead (rem c.rd) h) (hl : req.length = none) (hs : rem c.rd = h ++ s) (hb : BrokenWithin 4096 s p)
    {F : Nat} (hF : p.length + (meas c.rd + c.wr.script.length) < F) :
    ∃ r e, req.toBody.intoBytes grow F = .ret (r, .conversion e) ∧ (e = .chunkSize ∨ e = .invalidData ∨ e = .trailer) := by
  have ha := hr.body hh
  rw [hl] at ha
  rw [hs, List.drop_left] at ha
  obtain ⟨t, e, h1, h2, -⟩ := ha.broken hg F 1024 hp hb hF
  exact ⟨_, e, intoBytes_ret (b := req.toBody) (by rw [toBody_reader]; exact h1), h2⟩

/-- **C15**, a client that awaits `into_bytes` on a chunked response: the same. -/
theorem C15_client_partial {grow : Nat → Nat → Nat} (hg : GrowOk grow) {now : Bytes} {pool : Pool} (hp : pool.Ok) {io : ρ} {fuel : Nat} {res : ClientResponse ρ}
    (hd : ClientDecode.decode now pool fuel io = .ret (.done (.ok res))) {h s p : Bytes} (hh : FirstReply (rem io) h) (hl : res.length = none) (hs : rem io = h ++ s) (hb : BrokenWithin 4096 s p)
    {F : Nat} (hF : p.length + meas io < F) :
    ∃ r e, res.toBody.intoBytes grow F = .ret (r, .conversion e) ∧ (e = .chunkSize ∨ e = .invalidData ∨ e = .trailer) := by
  obtain ⟨d, h1, h2⟩ := clientDecode_spec now pool fuel io
  rw [hd] at h1
  injection h1 with h1
  subst h1
  cases h2 with
  | response a b' c d f =>
    have := a.unique hh
    subst this
    rename_i t
    have ht : t = s := by rw [d] at hs; exact List.append_cancel_left hs
    subst ht
    cases f with
    | fixed f1 f => cases hl
    | bare f => cases hl
    | chunked f =>
      obtain ⟨t, e, h1, h2, -⟩ := f.broken hg F 1024 hp hb hF
      refine ⟨_, e, intoBytes_ret (r := ReplyBody.stream (.chunked t)) (x := .err e) ?_, h2⟩
      rw [clientToBody_reader, readToEnd_lift ReplyBody.stream (fun a k => rfl), h1]
      rfl

end

/-! ## C89 -/

section
variable {ρ : Type} [AsyncRead ρ] [LawfulRead ρ] {σ : Type} [AsyncBufRead σ] [LawfulBufRead σ] {τ : Type} [AsyncRead τ] [LawfulRead τ]

/-- What is on the wire when the body of a streamed response fails: either a whole error response and nothing of the failed one, or its head, the data that the body has yielded in complete chunks, and then, instead of
the last chunk, the error response. -/
theorem C89_on_the_wire {env : Env} (hx : HexLenOk env.hexLen) {opts : ServerOpts} {endpoint : Endpoint σ} {fuel n : Nat} {c c' : Conn ρ} {head : ReqHead} {len : Option Nat}
    {evs : List Event} {res : Option AcceptRes} (hs : acceptStep env opts endpoint fuel n c = .ret (c', .call head len :: evs, res)) (hrel : c.wr.Reliable)
    {P : InnerResponse σ → Prop} (hP : ∀ resp, P resp → Transmittable resp (env.now n) ∧ resp.length = none ∧ fin resp.body ≠ none) (he : (endpoint head len).Tries P) :
    ∃ msg, WholeResponse (env.now n) msg ∧ (c'.wr.got = c.wr.got ++ msg ∨
      ∃ resp v, P resp ∧ Chunks v (rem resp.body) ∧ c'.wr.got = c.wr.got ++ (headOf resp (env.now n) ++ (v ++ msg))) := by
  obtain ⟨_, h, i, fs, hsv⟩ := call_inv (acceptStep_spec hx hs) (List.mem_cons_self ..)
  obtain ⟨used, body, body', w1, w2, ev1, g, ev2, h1, h2, h3, h4, h5, h6, h7⟩ := hsv.run
  have hi : i = false := by
    cases i with
    | false => rfl
    | true => simp [Spec.interim] at h7
  subst hi
  have h1 : w1.got = c.wr.got := by simpa [interimOf] using h1
  have hr1 : w1.Reliable := hrel.suffix h2
  have e1 := runProg_told _ _ _ _ _ _ _ h4
  obtain ⟨resp, sent, gl, k1, k2, k3, rfl, k4⟩ := runProg_failed hx (fun resp hp => ⟨(hP resp hp).2.1, (hP resp hp).1.wf, (hP resp hp).2.2⟩) _ _ _ _ _ _ _ he hr1 h4
  obtain ⟨msg, m1, m2⟩ := answerGlitch_whole hx k4 (e1.1.reliable hr1) h5
  refine ⟨msg, m1, ?_⟩
  rw [m2, k2, h1]
  rcases k3.part with ⟨-, q2, q3⟩ | ⟨v, rfl, q⟩
  · have := (hP resp k1).1.small
    have : sent = [] := by
      apply List.eq_nil_of_length_eq_zero
      omega
    subst this
    left
    simp
  · right
    exact ⟨resp, v, k1, q, by simp⟩

/-- A streamed response that is broken off behind a chunk, with another response behind it. -/
theorem broken_off {grow : Nat → Nat → Nat} (hg : GrowOk grow) {now : Bytes} {resp : InnerResponse σ} (q1 : Transmittable resp now) (q2 : resp.length = none) {v p msg y : Bytes} (k2 : Chunks v p)
    (q4 : p.length < 2 ^ 64) (m1 : WholeResponse now msg) {io : τ} (hrem : rem io = headOf resp now ++ (v ++ (msg ++ y))) (now' : Bytes) {pool : Pool} (hp : pool.Ok) {cfuel : Nat}
    (hf : 2 * (rem io).length + meas io < cfuel) :
    Malformed (v ++ (msg ++ y)) p ∧ ∃ rsp, ClientDecode.decode now' pool cfuel io = .ret (.done (.ok rsp)) ∧
      (Within 1 4096 v p → ∀ F, p.length + meas io < F → ∃ r e, rsp.toBody.intoBytes grow F = .ret (r, .conversion e) ∧ (e = .chunkSize ∨ e = .invalidData ∨ e = .trailer)) := by
  obtain ⟨t, rfl⟩ := wholeResponse_H m1
  obtain ⟨a1, a2, a3, rsp, a4⟩ := q1.accepted q2 hrem now' (pool := pool) hf
  have hl : rsp.length = none := by
    obtain ⟨d, h1, h2⟩ := clientDecode_spec now' pool cfuel io
    rw [a4] at h1
    injection h1 with h1
    subst h1
    cases h2 with
    | response a b c d f =>
      have := a.unique a1
      subst this
      cases f with
      | chunked => rfl
      | fixed =>
        cases c with
        | fixed c1 c2 c3 =>
          obtain ⟨-, -, rfl⟩ := a2.unique c1
          refine absurd ⟨?_, ?_⟩ c2
          · intro h; rw [h] at c3; cases c3
          · intro h; unfold SaysChunked at a3; rw [h] at a3; cases a3
      | bare =>
        cases c with
        | bare c1 c2 =>
          obtain ⟨-, -, rfl⟩ := a2.unique c1
          exact absurd a3 c2
  have hbad : NoSizeLine (72 :: t ++ y) := fun z l k hl hp => noSizeLine_H (t ++ y ++ z) l k hl (by simpa using hp)
  exact ⟨.size (k2.frames q4) hbad, rsp, a4, fun hwi F hF => C15_client_partial hg hp a4 a1 hl hrem hwi.glued hF⟩

/-- A response of declared length is accepted by the client, whatever follows its head. -/
theorem Transmittable.accepted_fixed {resp : InnerResponse σ} {now : Bytes} (t : Transmittable resp now) {k : Nat} (hl : resp.length = some k) (hk : k < usizeLimit) {io : τ} {rest : Bytes}
    (hrem : rem io = headOf resp now ++ rest) (now' : Bytes) {pool : Pool} (hp : pool.Ok) {fuel : Nat} (hf : 2 * (rem io).length + meas io < fuel) :
    FirstReply (rem io) (headOf resp now) ∧ ∃ rsp, ClientDecode.decode now' pool fuel io = .ret (.done (.ok rsp)) ∧ rsp.status = resp.status ∧ rsp.length = some k := by
  have hfirst : FirstReply (rem io) (headOf resp now) := by rw [hrem]; exact t.first _
  have hrep := t.reply
  rw [hl] at hrep
  have hcl : valuesOf (ascii "content-length") (sentFields resp.headers (some k) now) = [decimal k] := by
    rw [valuesOf_sent t.valid, if_pos (by rfl), if_neg (by intro h; exact absurd h.2 (by decide)), if_neg (by intro h; exact h.1 rfl),
      if_neg (by intro h; exact absurd h.2 (by decide))]
    rfl
  have hte : valuesOf (ascii "transfer-encoding") (sentFields resp.headers (some k) now) = [] := by
    rw [valuesOf_sent t.valid, if_neg (by show ¬ ascii "content-length" = _; decide), if_neg (by intro h; exact absurd h.2 (by decide)), if_neg (by intro h; exact h.2 rfl),
      if_neg (by intro h; exact absurd h.2 (by decide))]
    rfl
  have hnl : IsLength (decimal k) k := isLength_decimal (by have : usizeLimit = 2 ^ 64 := rfl; omega)
  obtain ⟨d, hd, hk⟩ := C54_iff now' pool hf
  have hgood : ¬ Rejected (rem io) := by
    rintro (hr | ⟨h, h4, h5 | h5⟩)
    · exact hfirst.not_noReply hr
    · have := h4.unique hfirst; subst this; have := t.small; omega
    · have := h4.unique hfirst; subst this
      have := h5.unique (.fixed hrep (fun h => h.2 hte) (by rw [hcl]; rfl) hnl t.status.1)
      cases this
  cases d with
  | err e => exact absurd (hk.1 ⟨e, rfl⟩) hgood
  | ok res =>
    obtain ⟨h, code, fs, c1, c2, c3⟩ := C53_returned_partial hd
    have := c1.unique hfirst; subst this
    obtain ⟨-, rfl, rfl⟩ := c2.unique hrep
    obtain ⟨c4, -⟩ := c3 (by unfold SaysChunked; rw [hte]; simp)
    obtain ⟨b, ps, hps⟩ := reply_reads hp hd []
    exact ⟨hfirst, res, hd, c4, (C63_fixed_partial hd hfirst hrem hrep (by rw [hcl]; rfl) hnl hps).1⟩

/-- A response of declared length `k` that is broken off: whatever the server sends next, the client takes it for the rest of the body. -/
theorem mixed_up {grow : Nat → Nat → Nat} (hg : GrowOk grow) {now : Bytes} {resp : InnerResponse σ} (t : Transmittable resp now) {k : Nat} (hl : resp.length = some k) (hk : k < usizeLimit) {io : τ} {rest : Bytes}
    (hrem : rem io = headOf resp now ++ rest) (now' : Bytes) {pool : Pool} (hp : pool.Ok) {fuel : Nat} (hf : 2 * (rem io).length + meas io < fuel) :
    ∃ rsp, ClientDecode.decode now' pool fuel io = .ret (.done (.ok rsp)) ∧ rsp.status = resp.status ∧ rsp.length = some k ∧
      ∀ F, k + meas io < F → k ≤ rest.length → ∃ r, rsp.toBody.intoBytes grow F = .ret (r, .ok (rest.take k)) := by
  obtain ⟨a1, rsp, a2, a3, a4⟩ := t.accepted_fixed hl hk hrem now' hp hf
  refine ⟨rsp, a2, a3, a4, fun F hF hle => ?_⟩
  obtain ⟨r, x, b1, b4, b2, b3⟩ := C88_length_client_partial hg a2 a1 a4 hrem hF
  cases x with
  | ok bs => exact ⟨r, by rw [b1, (b2 bs rfl).1]⟩
  | conversion e => have := (b3 e).1 rfl; omega
  | running => exact absurd rfl b4

/-- **C89 is false of the code** for every response of declared length, and not just for one: if the body fails before it has yielded the declared `k` bytes, over any transport that does not fail, then what has been sent of the
response (all of its head and `v`, or only a part of the head) is followed by an error response; and if the head has been sent, then a tophat client gets the response with the endpoint's status and a declared length of `k`, and
once `k` bytes have come behind the head, `into_bytes` returns `Ok` with these: `v`, and then the beginning of the error response. -/
theorem C89_refuted_declared {grow : Nat → Nat → Nat} (hg : GrowOk grow) {env : Env} (hx : HexLenOk env.hexLen) {opts : ServerOpts} {endpoint : Endpoint σ} {fuel n : Nat} {c c' : Conn ρ}
    {head : ReqHead} {len : Option Nat} {evs : List Event} {res : Option AcceptRes} (hs : acceptStep env opts endpoint fuel n c = .ret (c', .call head len :: evs, res))
    (hgot : c.wr.got = []) (hrel : c.wr.Reliable) {k : Nat} (hk : 8192 + k < usizeLimit)
    {P : InnerResponse σ → Prop} (hP : ∀ resp, P resp → Transmittable resp (env.now n) ∧ resp.length = some k ∧ fin resp.body ≠ none ∧ (rem resp.body).length < k) (he : (endpoint head len).Tries P)
    {io : τ} {y : Bytes} (hio : rem io = c'.wr.got ++ y) (now' : Bytes) {pool : Pool} (hp : pool.Ok) {cfuel : Nat} (hf : 2 * (rem io).length + meas io < cfuel) :
    ∃ resp sent answer, P resp ∧ WholeResponse (env.now n) answer ∧ c'.wr.got = sent ++ answer ∧
      ((sent <+: headOf resp (env.now n) ∧ sent ≠ headOf resp (env.now n)) ∨
      ∃ v, sent = headOf resp (env.now n) ++ v ∧ v <+: rem resp.body ∧
        ∃ rsp, ClientDecode.decode now' pool cfuel io = .ret (.done (.ok rsp)) ∧ rsp.status = resp.status ∧ rsp.length = some k ∧
          ∀ F, k + meas io < F → k ≤ (v ++ (answer ++ y)).length → ∃ r, rsp.toBody.intoBytes grow F = .ret (r, .ok ((v ++ (answer ++ y)).take k))) := by
  obtain ⟨_, h, i, fs, hsv⟩ := call_inv (acceptStep_spec hx hs) (List.mem_cons_self ..)
  obtain ⟨used, body, body', w1, w2, ev1, g, ev2, h1, h2, h3, h4, h5, h6, h7⟩ := hsv.run
  have hi : i = false := by
    cases i with
    | false => rfl
    | true => simp [Spec.interim] at h7
  subst hi
  have h1 : w1.got = c.wr.got := by simpa [interimOf] using h1
  have hr1 : w1.Reliable := hrel.suffix h2
  have e1 := runProg_told _ _ _ _ _ _ _ h4
  obtain ⟨resp, sent, gl, k1, k2, k3, rfl, k4⟩ := runProg_torn hx hk (fun resp hp => ⟨(hP resp hp).1.wf, (hP resp hp).2.1, (hP resp hp).2.2.1, (hP resp hp).2.2.2⟩) _ _ _ _ _ _ _ he hr1 h4
  obtain ⟨answer, m1, m2⟩ := answerGlitch_whole hx k4 (e1.1.reliable hr1) h5
  rw [k2, h1, hgot, List.nil_append] at m2
  obtain ⟨q1, q2, q3, q4⟩ := hP resp k1
  refine ⟨resp, sent, answer, k1, m1, m2, ?_⟩
  rcases prefix_split k3 with hlt | ⟨v, rfl, hv⟩
  · exact .inl hlt
  · have hrem : rem io = headOf resp (env.now n) ++ (v ++ (answer ++ y)) := by rw [hio, m2]; simp
    exact .inr ⟨v, rfl, hv, mixed_up hg q1 q2 (by omega) hrem now' hp hf⟩

/-- **C89**, what holds for streamed responses: if the body fails, then either the client gets a whole error response instead, and nothing of the failed response;
or what follows the head is not a chunked body of RFC 7230, so that every recipient can tell: the data that the body has yielded is followed by something that is no chunk.
A tophat client gets the response, and its `into_bytes` fails if the framing of these chunks takes less than 4096 bytes.
Missing: responses of declared length, see `C89_refuted`; and for a tophat client more framing, see `C15_refuted`. -/
theorem C89_streamed_partial {grow : Nat → Nat → Nat} (hg : GrowOk grow) {env : Env} (hx : HexLenOk env.hexLen) {opts : ServerOpts} {endpoint : Endpoint σ} {fuel n : Nat} {c c' : Conn ρ}
    {head : ReqHead} {len : Option Nat} {evs : List Event} {res : Option AcceptRes} (hs : acceptStep env opts endpoint fuel n c = .ret (c', .call head len :: evs, res))
    (hgot : c.wr.got = []) (hrel : c.wr.Reliable)
    {P : InnerResponse σ → Prop} (hP : ∀ resp, P resp → Transmittable resp (env.now n) ∧ resp.length = none ∧ fin resp.body ≠ none ∧ (rem resp.body).length < 2 ^ 64) (he : (endpoint head len).Tries P)
    {io : τ} {y : Bytes} (hio : rem io = c'.wr.got ++ y) (now' : Bytes) {pool : Pool} (hp : pool.Ok) {cfuel : Nat} (hf : 2 * (rem io).length + meas io < cfuel) :
    WholeResponse (env.now n) c'.wr.got ∨
    ∃ resp v msg, P resp ∧ rem io = headOf resp (env.now n) ++ (v ++ (msg ++ y)) ∧ Chunks v (rem resp.body) ∧ WholeResponse (env.now n) msg ∧ Malformed (v ++ (msg ++ y)) (rem resp.body) ∧
      ∃ rsp, ClientDecode.decode now' pool cfuel io = .ret (.done (.ok rsp)) ∧
        (Within 1 4096 v (rem resp.body) → ∀ F, (rem resp.body).length + meas io < F →
          ∃ r e, rsp.toBody.intoBytes grow F = .ret (r, .conversion e) ∧ (e = .chunkSize ∨ e = .invalidData ∨ e = .trailer)) := by
  obtain ⟨msg, m1, m2 | ⟨resp, v, k1, k2, k3⟩⟩ := C89_on_the_wire hx hs hrel (fun resp h => ⟨(hP resp h).1, (hP resp h).2.1, (hP resp h).2.2.1⟩) he
  · left
    rw [m2, hgot]
    exact m1
  right
  obtain ⟨q1, q2, q3, q4⟩ := hP resp k1
  have hrem : rem io = headOf resp (env.now n) ++ (v ++ (msg ++ y)) := by rw [hio, k3, hgot]; simp
  obtain ⟨a1, a2⟩ := broken_off hg q1 q2 k2 q4 m1 hrem now' hp hf
  exact ⟨resp, v, _, k1, hrem, k2, m1, a1, a2⟩

end

/-- An endpoint that answers with a body which fails after three bytes; if that is so, it returns a `Glitch`. -/
def tearing (len : Option Nat) : Endpoint Script := fun _ _ =>
  .send ⟨200, [], .http11, [.data (ascii "abc"), .pending, .err (.transport 9)], len⟩ (fun _ => .ok) (fun _ => .glitch .new)

/-- What the server writes, and what a client that gets this and awaits `into_bytes` sees: status, declared length, and the result. -/
def tornExchange (len : Option Nat) : Run (Bytes × AcceptRes × Nat × Option Nat × BodyRes) := do
  let (c, _, res) ← acceptGo demoEnv plainOpts (tearing len) 1000 9 0 (connOf [getA])
  match ← ClientDecode.decode (ascii "NOW") zeroPool 1000 ([.data c.wr.got] : Script) with
  | .done (.ok rsp) => do
    let (_, x) ← rsp.toBody.intoBytes doubling 1000
    .ret (c.wr.got, res, rsp.status, rsp.length, x)
  | _ => .diverge

theorem tornExchange_ret {len : Option Nat} {w : Bytes} {res : AcceptRes} {st : Nat} {l : Option Nat} {x : BodyRes} (h : tornExchange len = .ret (w, res, st, l, x)) :
    ∃ c' ev, acceptGo demoEnv plainOpts (tearing len) 1000 9 0 (connOf [getA]) = .ret (c', ev, res) ∧ c'.wr.got = w ∧
      ∃ rsp r, ClientDecode.decode (ascii "NOW") zeroPool 1000 ([.data c'.wr.got] : Script) = .ret (.done (.ok rsp)) ∧ rsp.status = st ∧ rsp.length = l ∧
        rsp.toBody.intoBytes doubling 1000 = .ret (r, x) := by
  unfold tornExchange at h
  obtain ⟨⟨c', ev, res'⟩, h1, h2⟩ := Run.bind_eq_ret.1 h
  dsimp only at h2
  obtain ⟨d, h3, h4⟩ := Run.bind_eq_ret.1 h2
  split at h4
  · rename_i rsp
    obtain ⟨⟨r, x'⟩, h5, h6⟩ := Run.bind_eq_ret.1 h4
    simp only [Run.ret.injEq, Prod.mk.injEq] at h6
    obtain ⟨rfl, rfl, rfl, rfl, rfl⟩ := h6
    exact ⟨c', ev, h1, rfl, rsp, r, h3, rfl, rfl, h5⟩
  · cases h4

/-- **C89 is false of the code** for responses of declared length: the body fails after three of twenty bytes, the server sends its error response behind these three bytes, and the client takes the first 17 bytes of it for
the rest of the body: `200 OK`, and `into_bytes` returns `Ok` with twenty bytes, as declared. -/
theorem C89_refuted : ∃ c' ev, acceptGo demoEnv plainOpts (tearing (some 20)) 1000 9 0 (connOf [getA]) = .ret (c', ev, .ok) ∧
    c'.wr.got = responseHead .http11 200 [] (some 20) (ascii "NOW") ++ ascii "abc" ++ errorResponse 500 (ascii "NOW") ∧
      ∃ rsp r, ClientDecode.decode (ascii "NOW") zeroPool 1000 ([.data c'.wr.got] : Script) = .ret (.done (.ok rsp)) ∧ rsp.status = 200 ∧ rsp.length = some 20 ∧
        rsp.toBody.intoBytes doubling 1000 = .ret (r, .ok (ascii "abcHTTP/1.1 500 Inte")) :=
  tornExchange_ret (by decide +kernel)

/-- The same endpoint without a declared length: the client's `into_bytes` fails. -/
example : ∃ c' ev, acceptGo demoEnv plainOpts (tearing none) 1000 9 0 (connOf [getA]) = .ret (c', ev, .ok) ∧
    c'.wr.got = responseHead .http11 200 [] none (ascii "NOW") ++ ascii "3\r\nabc\r\n" ++ errorResponse 500 (ascii "NOW") ∧
      ∃ rsp r, ClientDecode.decode (ascii "NOW") zeroPool 1000 ([.data c'.wr.got] : Script) = .ret (.done (.ok rsp)) ∧ rsp.status = 200 ∧ rsp.length = none ∧
        rsp.toBody.intoBytes doubling 1000 = .ret (r, .conversion .chunkSize) :=
  tornExchange_ret (by decide +kernel)

/-- The hypotheses of `C89_streamed_partial`: one iteration of the same connection. -/
example : ∃ c' evs, acceptStep demoEnv plainOpts (tearing none) 1000 0 (connOf [getA]) = .ret (c', .call ⟨ascii "GET", ascii "/a", hostX⟩ (some 0) :: evs, none) ∧
    (connOf [getA]).wr.Reliable ∧
    (∀ resp, resp = (⟨200, [], .http11, [.data (ascii "abc"), .pending, .err (.transport 9)], none⟩ : InnerResponse Script) →
      Transmittable resp (demoEnv.now 0) ∧ resp.length = none ∧ fin resp.body ≠ none ∧ (rem resp.body).length < 2 ^ 64) ∧
    (tearing none ⟨ascii "GET", ascii "/a", hostX⟩ (some 0)).Tries
      (· = (⟨200, [], .http11, [.data (ascii "abc"), .pending, .err (.transport 9)], none⟩ : InnerResponse Script)) := by
  have hstep : (acceptStep demoEnv plainOpts (tearing none) 1000 0 (connOf [getA])).bind (fun x => .ret (x.2.1, x.2.2)) =
      .ret ([.call ⟨ascii "GET", ascii "/a", hostX⟩ (some 0), .wrote (responseHead .http11 200 [] none (ascii "NOW") ++ ascii "3\r\nabc\r\n"), .wrote (errorResponse 500 (ascii "NOW"))], none) := by
    decide +kernel
  obtain ⟨⟨c', ev, res⟩, h1, h2⟩ := Run.bind_eq_ret.1 hstep
  simp only [Run.ret.injEq, Prod.mk.injEq] at h2
  obtain ⟨rfl, rfl⟩ := h2
  refine ⟨c', _, h1, (by intro e he; cases he), ?_, rfl, fun e => ⟨(by intro hs h; cases h), by decide⟩⟩
  rintro resp rfl
  exact ⟨⟨rfl, by decide, ⟨by decide, by decide⟩, (HeaderMap.plain_ok (by decide +kernel)).1, (HeaderMap.plain_ok (by decide +kernel)).2, nowOk, by decide, by decide +kernel⟩, rfl, by decide +kernel, by decide +kernel⟩

/-- The hypotheses of `C89_refuted_declared`. -/
example : ∃ c' evs, acceptStep demoEnv plainOpts (tearing (some 20)) 1000 0 (connOf [getA]) = .ret (c', .call ⟨ascii "GET", ascii "/a", hostX⟩ (some 0) :: evs, none) ∧
    (connOf [getA]).wr.Reliable ∧
    (∀ resp, resp = (⟨200, [], .http11, [.data (ascii "abc"), .pending, .err (.transport 9)], some 20⟩ : InnerResponse Script) →
      Transmittable resp (demoEnv.now 0) ∧ resp.length = some 20 ∧ fin resp.body ≠ none ∧ (rem resp.body).length < 20) ∧
    (tearing (some 20) ⟨ascii "GET", ascii "/a", hostX⟩ (some 0)).Tries
      (· = (⟨200, [], .http11, [.data (ascii "abc"), .pending, .err (.transport 9)], some 20⟩ : InnerResponse Script)) := by
  have hstep : (acceptStep demoEnv plainOpts (tearing (some 20)) 1000 0 (connOf [getA])).bind (fun x => .ret (x.2.1, x.2.2)) =
      .ret ([.call ⟨ascii "GET", ascii "/a", hostX⟩ (some 0), .wrote (responseHead .http11 200 [] (some 20) (ascii "NOW") ++ ascii "abc"), .wrote (errorResponse 500 (ascii "NOW"))], none) := by
    decide +kernel
  obtain ⟨⟨c', ev, res⟩, h1, h2⟩ := Run.bind_eq_ret.1 hstep
  simp only [Run.ret.injEq, Prod.mk.injEq] at h2
  obtain ⟨rfl, rfl⟩ := h2
  refine ⟨c', _, h1, (by intro e he; cases he), ?_, rfl, fun e => ⟨(by intro hs h; cases h), by decide⟩⟩
  rintro resp rfl
  exact ⟨⟨rfl, by decide, ⟨by decide, by decide⟩, (HeaderMap.plain_ok (by decide +kernel)).1, (HeaderMap.plain_ok (by decide +kernel)).2, nowOk, by decide, by decide +kernel⟩, rfl, by decide +kernel, by decide +kernel⟩

/-- The hypotheses of `C15_into_bytes_partial`: a size line that is none. -/
example : ∃ req, Receives demoEnv plainOpts 1000 0 (connOf [chunkedPost, ascii "3\r\nabc\r\nHello"]) req ∧ req.length = none ∧
    FirstHead (rem (connOf [chunkedPost, ascii "3\r\nabc\r\nHello"]).rd) chunkedPost ∧
    rem (connOf [chunkedPost, ascii "3\r\nabc\r\nHello"]).rd = chunkedPost ++ ascii "3\r\nabc\r\nHello" ∧ BrokenWithin 4096 (ascii "3\r\nabc\r\nHello") (ascii "abc") ∧
    (req.toBody.intoBytes doubling 20 >>= fun x => Run.ret x.2) = .ret (.conversion .chunkSize) := by
  obtain ⟨req, h1, h2, h3⟩ := trailersOn_ret (c := connOf [chunkedPost, ascii "3\r\nabc\r\nHello"]) (conv := fun b => b.intoBytes doubling 20 >>= fun x => Run.ret x.2) (len := none)
    (x := .conversion .chunkSize) (by decide +kernel)
  refine ⟨req, h1, h2, ?_, ?_, ?_, h3⟩
  · show FirstHead (Script.bytes _) chunkedPost
    decide +kernel
  · show Script.bytes _ = _
    decide +kernel
  · have h1 : SizeLine (ascii "3\r\n") (ascii "abc").length := ⟨ascii "3", [], [], by decide, by decide, by decide, by simp, .inl rfl⟩
    exact (within_of_length (Frames.cons h1 (by decide) .nil) (by decide) : Within 1 4096 (ascii "3\r\nabc\r\n") (ascii "abc")).glued (t := ascii "ello")

end Tophat
