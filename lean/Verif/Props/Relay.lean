import Verif.Proofs.Relay
import Verif.Proofs.Total
import Verif.Props.ChunkedDecoder
import Verif.Props.ChunkedRequest
import Verif.Props.Body
import Verif.Props.KeepAlive
import Verif.Spec.Relay
/-!
# C76: passing on the body of a request
-/

set_option linter.unusedSectionVars false

namespace Tophat
open Spec

/-! ## Sending -/

/-- A writer that does not fail: `send` fails only if the body does. -/
theorem CopyOutcome.reliable {F : Bytes → Prop} {E : Bytes → IoErr → Prop} {b : Prop} {sent : Bytes} {used : List WEv} {x : IoErr} {w w' : Writer}
    (h : CopyOutcome F E b sent used (.err x)) (hu : w.script = used ++ w'.script) (hr : w.Reliable) : E sent x := by
  rcases h with h | ⟨pre, rfl, _⟩ | ⟨_, pre, rfl, _⟩
  · exact h.1
  · exact absurd rfl ((hr (.err x) (by rw [hu]; simp)).2 x)
  · exact absurd rfl (hr (.accept 0) (by rw [hu]; simp)).1

/-- What comes of passing on the body behind the bytes `s`. -/
structure Relayed (env : Env) (n : Nat) (a : StatusCode × HeaderMap) (s : Bytes) (len : Option Nat) (w w' : Writer) (r : CopyRes) (sent : Bytes) (used : List WEv) (q : Bytes) : Prop where
  ends : r ≠ .running
  got : w'.got = w.got ++ sent
  script : w.script = used ++ w'.script
  part : PartOfBody s len q
  whole : ∀ p, WholeBody s len p → q = p
  message : ∃ msg, IsResponse (relayHead a len (env.now n)) len q msg ∧ sent <+: msg
  ok : ∀ amt, r = .ok amt → IsResponse (relayHead a len (env.now n)) len q sent
  err : ∀ x p, r = .err x → WholeBody s len p → ¬ w.Reliable

section
variable {ρ : Type} [AsyncRead ρ] [LawfulRead ρ]

/-- The record of a chunked body. -/
theorem chunked_record {pool : Pool} (hp : pool.Ok) {r : BufRd ρ} : ∃ t : BufRd Script, Twins (BufRd.new (ChunkedDecoder.new r pool)) t ∧ Carries (rem r) (rem t) ∧
    ∀ b x p fs, Roomy b p fs → fs.length ≤ 16 → rem r = b ++ x → rem t = p ∧ fin t = none := by
  obtain ⟨s, hs⟩ := decoder_tells _ (ChunkedDecoder.new r pool) (Dec.decInv_new r pool hp) (Nat.le_refl _)
  obtain ⟨k, d', ps, h1, h2, h3⟩ := hs.polls
  have hk : ∀ j ∈ List.replicate k bufRdCap, 0 < j := by
    intro j hj
    rw [(List.mem_replicate.1 hj).2]
    decide
  have ht : rem (⟨s, []⟩ : BufRd Script) = received ps := by rw [h2]; rfl
  refine ⟨⟨s, []⟩, ⟨rfl, hs⟩, by rw [ht]; exact C12_prefix hp hk h1, ?_⟩
  intro b x p fs hb hn hr
  obtain ⟨a1, a2, _⟩ := C13_roomy_partial hp hk h1 hb hn hr
  have hf : fin (⟨s, []⟩ : BufRd Script) = Script.ending s := rfl
  rw [ht, hf]
  cases he : Script.ending s with
  | none => rw [he] at h3; exact ⟨(a2 h3.1).1, rfl⟩
  | some e => rw [he] at h3; exact absurd (a1 ⟨e, h3.1⟩) h3.2

theorem passOn_spec {env : Env} (hx : HexLenOk env.hexLen) {pool : Pool} (hp : pool.Ok) {a : StatusCode × HeaderMap} (ha : a.2.WF) {s : Bytes} {e : Option IoErr} {m : Nat} {head : ReqHead} {len : Option Nat}
    {body : ReqBody ρ} (hb : BodyAt pool s e m len body) (hlim : ∀ k, len = some k → 8192 + k < usizeLimit) (fuel n : Nat) (w : Writer) {io : ρ} {w' : Writer} {r : CopyRes}
    (h : passOn env fuel n a.1 a.2 ⟨head, body, len⟩ w = .ret (io, w', r)) : ∃ sent used q, Relayed env n a s len w w' r sent used q := by
  cases hb with
  | @fixed rd k h1 h2 h3 =>
    unfold passOn at h
    obtain ⟨⟨t, w1, r1⟩, h4, h5⟩ := Run.bind_eq_ret.1 h
    simp only [Run.ret.injEq, Prod.mk.injEq] at h5
    obtain ⟨_, rfl, rfl⟩ := h5
    rcases sendBody_send env fuel n (⟨a.1, a.2, .http11, (⟨rd, k⟩ : Take (BufRd ρ)), some k⟩) w with ⟨b, w1', r1', j1, j2, j3⟩ | ⟨j1, _⟩ | ⟨j1, _⟩
    · rw [h4] at j1
      simp only [Run.ret.injEq, Prod.mk.injEq] at j1
      obtain ⟨_, rfl, rfl⟩ := j1
      rcases sendResponse_spec hx (resp := ⟨a.1, a.2, .http11, (⟨rd, k⟩ : Take (BufRd ρ)), some k⟩) (now := env.now n) ha (fun n hn => hlim n hn) fuel w with ⟨i1, _⟩ | ⟨w2, r2, sent, used, i1, i2, i3, i4, i5⟩
      · rw [j3] at i1; simp at i1
      · rw [j3] at i1
        simp only [Run.ret.injEq, Prod.mk.injEq] at i1
        obtain ⟨rfl, rfl⟩ := i1
        have hrem : rem (⟨rd, k⟩ : Take (BufRd ρ)) = s.take k := by rw [← h1]; rfl
        refine ⟨sent, used, s.take k, j2, i2, i3, rfl, ?_, ?_, ?_, ?_⟩
        · rintro p ⟨rfl, hp⟩
          exact (List.prefix_iff_eq_take.1 hp).symm
        · rw [← hrem]; exact i4
        · rintro amt rfl
          rw [← hrem]; exact i5.1.1
        · rintro x p rfl ⟨hl, hpre⟩ hr
          have := i5.reliable i3 hr
          have hf : fin (⟨rd, k⟩ : Take (BufRd ρ)) = none := by
            show (if k ≤ (rem rd).length then none else fin rd) = none
            rw [if_pos (by rw [h1, ← hl]; exact hpre.length_le)]
          rw [hf] at this
          cases this.1
    · rw [h4] at j1; cases j1
    · rw [h4] at j1; cases j1
  | @chunked rd h1 h2 h3 =>
    obtain ⟨t, ht, hc, hw⟩ := chunked_record hp (r := rd)
    unfold passOn at h
    obtain ⟨⟨b', w1, r1⟩, h4, h5⟩ := Run.bind_eq_ret.1 h
    simp only [Run.ret.injEq, Prod.mk.injEq] at h5
    obtain ⟨_, rfl, rfl⟩ := h5
    rcases sendBody_send env fuel n (⟨a.1, a.2, .http11, BufRd.new (ChunkedDecoder.new rd pool), none⟩) w with ⟨b, w1', r1', j1, j2, j3⟩ | ⟨j1, _⟩ | ⟨j1, _⟩
    · rw [h4] at j1
      simp only [Run.ret.injEq, Prod.mk.injEq] at j1
      obtain ⟨_, rfl, rfl⟩ := j1
      rw [sendResponse_record ht] at j3
      rcases sendResponse_spec hx (resp := ⟨a.1, a.2, .http11, t, none⟩) (now := env.now n) ha (fun n hn => hlim n hn) fuel w with ⟨i1, _⟩ | ⟨w2, r2, sent, used, i1, i2, i3, i4, i5⟩
      · rw [j3] at i1; simp at i1
      · rw [j3] at i1
        simp only [Run.ret.injEq, Prod.mk.injEq] at i1
        obtain ⟨rfl, rfl⟩ := i1
        refine ⟨sent, used, rem t, j2, i2, i3, by rw [← h1]; exact hc, ?_, i4, ?_, ?_⟩
        · rintro p ⟨b, x, fs, k1, k2, k3⟩
          exact (hw b x p fs k1 k2 (h1.trans k3)).1
        · rintro amt rfl
          exact i5.1.1
        · rintro x p rfl ⟨b, y, fs, k1, k2, k3⟩ hr
          have := (i5.reliable i3 hr).1
          rw [(hw b y p fs k1 k2 (h1.trans k3)).2] at this
          cases this
    · rw [h4] at j1; cases j1
    · rw [h4] at j1; cases j1

/-! ## C76 -/

theorem wroteSince_append {w w' : Writer} {x : Bytes} (h : w'.got = w.got ++ x) : wroteSince w w' = .wrote x := by
  unfold wroteSince; rw [h, List.drop_left]

/-- An iteration in which the body of a request is passed on. -/
theorem relayStep_served {env : Env} (hx : HexLenOk env.hexLen) (hp : ∀ n, (env.pool n).Ok) {opts : ServerOpts} {answer : ReqHead → StatusCode × HeaderMap} (ha : ∀ head, (answer head).2.WF)
    {fails : IoErr → Glitch} {fuel n : Nat} {c c' : Conn ρ} {ev : List Event} {res : Option AcceptRes} (hs : relayStep env opts answer fails fuel n c = .ret (c', ev, res))
    {head : ReqHead} {len : Option Nat} (hc : .call head len ∈ ev) (hlim : ∀ k, len = some k → 8192 + k < usizeLimit) :
    res = none ∧ ∃ h i fs w w1 r sent used post q, FirstHead (rem c.rd) h ∧ Judged env.uriOk h (.serve i head.method head.uri fs len) ∧ MapOf head.headers fs ∧
      (c.wr.Reliable → w.Reliable) ∧ Relayed env n (answer head) ((rem c.rd).drop h.length) len w w1 r sent used q ∧
      ev = interim i ++ .call head len :: .wrote sent :: post ∧ (∀ amt, r = .ok amt → post = []) := by
  unfold relayStep at hs
  have nocall : ∀ {w w' : Writer} {l : List Event}, (∀ hd ln, .call hd ln ∉ l) → .call head len ∉ interimEvent w w' ++ l := by
    intro w w' l hl h
    rcases List.mem_append.1 h with h | h
    · have := mem_calls.2 h
      rw [calls_interimEvent] at this
      cases this
    · exact hl _ _ h
  rcases awaitDecode_spec (env := env) (opts := opts) (pool := env.pool n) fuel fuel c.clock (decInv_start c.rd c.wr) with ⟨k1, _⟩ | ⟨w, clock, d, k1, k2⟩
  · rw [k1] at hs; cases hs
  · rw [k1] at hs
    simp only [Run.ret_bind] at hs
    cases k2 with
    | timedOut =>
      simp only [Run.ret.injEq, Prod.mk.injEq] at hs
      obtain ⟨_, rfl, _⟩ := hs
      exact absurd (by simpa using hc) (nocall (l := []) (by simp))
    | @ready dr ticks a b cc dd =>
      cases dr with
      | none io =>
        simp only [Run.ret.injEq, Prod.mk.injEq] at hs
        obtain ⟨_, rfl, _⟩ := hs
        exact absurd (by simpa using hc) (nocall (l := []) (by simp))
      | fail f io =>
        dsimp only at hs
        obtain ⟨⟨w', ev'⟩, h1, h2⟩ := Run.bind_eq_ret.1 hs
        simp only [Run.ret.injEq, Prod.mk.injEq] at h2
        obtain ⟨_, rfl, _⟩ := h2
        refine absurd hc (nocall ?_)
        intro hd ln hm
        unfold answerFail at h1
        cases hf : failResponse f with
        | none => rw [hf] at h1; simp at h1; rw [h1.2] at hm; cases hm
        | some resp =>
          rw [hf] at h1
          obtain ⟨⟨w2, r2⟩, _, h3⟩ := Run.bind_eq_ret.1 h1
          simp only [Run.ret.injEq, Prod.mk.injEq] at h3
          rw [← h3.2] at hm
          simp [wroteSince] at hm
      | request req =>
        dsimp only at hs
        obtain ⟨⟨io, w1, r⟩, h1, h2⟩ := Run.bind_eq_ret.1 hs
        obtain ⟨⟨w2, ev2⟩, h3, h4⟩ := Run.bind_eq_ret.1 h2
        simp only [Run.ret.injEq, Prod.mk.injEq] at h4
        obtain ⟨_, rfl, rfl⟩ := h4
        have hreq : head = req.head ∧ len = req.length := by
          have := mem_calls.2 hc
          rw [calls_append, calls_interimEvent, calls, calls.eq_def (wroteSince w w1 :: ev2)] at this
          simp only [wroteSince, answerGlitch_calls h3] at this
          simpa using this
        obtain ⟨rfl, rfl⟩ := hreq
        cases a.decided with
        | @serve h i m' t fs len hm used body b1 b2 b3 b3' b4 b5 b6 =>
          obtain ⟨sent, used', q, hR⟩ := passOn_spec hx (hp n) (ha _) (head := ⟨m', t, hm⟩) b6 hlim fuel n w h1
          refine ⟨rfl, h, i, fs, w, w1, r, sent, used', ev2, q, b1, b2, b3, ?_, hR, ?_, ?_⟩
          · intro hr x hx'
            exact hr x (by rw [b5]; exact List.mem_append_right _ hx')
          · rw [interimEvent_whole b4, interimEvents_eq, wroteSince_append hR.got]
          · rintro amt rfl
            simp [answerGlitch, orGlitch] at h3
            exact h3.2

/-- **C76**: of the body nothing else is passed on than what it is.  If the endpoint is called with a request and passes its body on, then everything that is written behind the interim response is the beginning of one response,
with the status and the headers that the endpoint chose and the declared length of the request, whose body is a part of the body of the request: the declared number of bytes behind the head (or as many as arrive), or data that is
carried by the chunks that arrive.  (If sending fails, an error response follows: `post`.) -/
theorem C76_nothing_else {env : Env} (hx : HexLenOk env.hexLen) (hp : ∀ n, (env.pool n).Ok) {opts : ServerOpts} {answer : ReqHead → StatusCode × HeaderMap} (ha : ∀ head, (answer head).2.WF)
    {fails : IoErr → Glitch} {fuel n : Nat} {c c' : Conn ρ} {ev : List Event} {res : Option AcceptRes} (hs : relayStep env opts answer fails fuel n c = .ret (c', ev, res))
    {head : ReqHead} {len : Option Nat} (hc : .call head len ∈ ev) (hlim : ∀ k, len = some k → 8192 + k < usizeLimit) :
    res = none ∧ ∃ h i fs sent post q msg, FirstHead (rem c.rd) h ∧ Judged env.uriOk h (.serve i head.method head.uri fs len) ∧ MapOf head.headers fs ∧
      ev = interim i ++ .call head len :: .wrote sent :: post ∧
      PartOfBody ((rem c.rd).drop h.length) len q ∧ IsResponse (relayHead (answer head) len (env.now n)) len q msg ∧ sent <+: msg := by
  obtain ⟨h0, h, i, fs, w, w1, r, sent, used, post, q, h1, h2, h3, _, h4, h5, _⟩ := relayStep_served hx hp ha hs hc hlim
  obtain ⟨msg, h6, h7⟩ := h4.message
  exact ⟨h0, h, i, fs, sent, post, q, msg, h1, h2, h3, h5, h4.part, h6, h7⟩

/-- **C76**, the part that holds: a body of which all bytes arrive, and whose framing, if it is chunked, fits into 4096 bytes, is passed on as it is.  Unless writing fails, the response is written completely, its body is that of
the request, and nothing is written after it.

Missing: bodies that are cut off: with a declared length they make the server spin (`C76_refuted_spin`), chunked ones are passed on as complete (`C76_refuted_cut`); and longer framing, which the decoder does not handle (C13). -/
theorem C76_whole_partial {env : Env} (hx : HexLenOk env.hexLen) (hp : ∀ n, (env.pool n).Ok) {opts : ServerOpts} {answer : ReqHead → StatusCode × HeaderMap} (ha : ∀ head, (answer head).2.WF)
    {fails : IoErr → Glitch} {fuel n : Nat} {c c' : Conn ρ} {ev : List Event} {res : Option AcceptRes} (hs : relayStep env opts answer fails fuel n c = .ret (c', ev, res))
    {head : ReqHead} {len : Option Nat} (hc : .call head len ∈ ev) (hlim : ∀ k, len = some k → 8192 + k < usizeLimit)
    {h p : Bytes} (hh : FirstHead (rem c.rd) h) (hb : WholeBody ((rem c.rd).drop h.length) len p) :
    res = none ∧ ∃ i sent post, ev = interim i ++ .call head len :: .wrote sent :: post ∧
      (∃ msg, IsResponse (relayHead (answer head) len (env.now n)) len p msg ∧ sent <+: msg) ∧
      (c.wr.Reliable → IsResponse (relayHead (answer head) len (env.now n)) len p sent ∧ post = []) := by
  obtain ⟨h0, h', i, fs, w, w1, r, sent, used, post, q, h1, h2, h3, h3', h4, h5, h6⟩ := relayStep_served hx hp ha hs hc hlim
  obtain rfl := hh.unique h1
  obtain rfl := h4.whole p hb
  refine ⟨h0, i, sent, post, h5, h4.message, fun hr => ?_⟩
  cases r with
  | running => exact absurd rfl h4.ends
  | ok amt => exact ⟨h4.ok amt rfl, h6 amt rfl⟩
  | err x => exact absurd (h3' hr) (h4.err x q rfl hb)

theorem sendBody_mono {σ : Type} [AsyncBufRead σ] {env : Env} {f g n : Nat} (hg : f ≤ g) (resp : InnerResponse σ) (w : Writer) :
    (sendBody env f n resp w).Le (sendBody env g n resp w) := by
  have key : ∀ f, sendBody env f n resp w = (copyFull (Encoder.poll env.hexLen (env.now n)) f (CopyState.init (Encoder.encode resp) w) >>= fun x => .ret (x.1.enc.resp.body, x.1.writer, x.2)) := by
    intro f
    unfold sendBody copyFull
    cases copyGo (Encoder.poll env.hexLen (env.now n)) f (CopyState.init (Encoder.encode resp) w) with
    | panic => rfl
    | diverge => rfl
    | ret x =>
      obtain ⟨s, r⟩ := x
      simp only [Run.ret_bind]
      split <;> rfl
  rw [key, key]
  exact (copyFull_mono f g hg _).bind fun _ => .rfl

theorem passOn_mono {env : Env} {f g n : Nat} (hg : f ≤ g) (status : StatusCode) (hs : HeaderMap) (req : Request ρ) (w : Writer) :
    (passOn env f n status hs req w).Le (passOn env g n status hs req w) := by
  obtain ⟨head, body, len⟩ := req
  cases body with
  | fixed t => exact (sendBody_mono hg _ w).bind fun _ => .rfl
  | chunked t => exact (sendBody_mono hg _ w).bind fun _ => .rfl

theorem passOn_total {env : Env} (hx : HexLenOk env.hexLen) {pool : Pool} (hp : pool.Ok) {a : StatusCode × HeaderMap} (ha : a.2.WF) {s : Bytes} {e : Option IoErr} {m : Nat} {head : ReqHead} {len : Option Nat}
    {body : ReqBody ρ} (hb : BodyAt pool s e m len body) (hlim : ∀ k, len = some k → 8192 + k < usizeLimit) (n : Nat) (w : Writer) {p : Bytes} (hw : WholeBody s len p)
    (h03 : len = none → p = [] → (relayHead a none (env.now n)).length % 8192 ∉ [8188, 8189]) :
    ∃ N io w' r, passOn env N n a.1 a.2 ⟨head, body, len⟩ w = .ret (io, w', r) := by
  cases hb with
  | @fixed rd k h1 h2 h3 =>
    obtain ⟨hl, hpre⟩ := hw
    let resp : InnerResponse (Take (BufRd ρ)) := ⟨a.1, a.2, .http11, ⟨rd, k⟩, some k⟩
    have hrem : rem resp.body = s.take k := by rw [← h1]; rfl
    refine ⟨2 * ((headOf resp (env.now n)).length + k + meas resp.body) + w.script.length + 1, ?_⟩
    rcases sendResponse_spec hx (resp := resp) (now := env.now n) ha (fun n hn => hlim n hn) (2 * ((headOf resp (env.now n)).length + k + meas resp.body) + w.script.length + 1) w with ⟨_, _, i1⟩ | ⟨w2, r2, sent, used, i1, i2, i3, i4, i5⟩
    · exfalso
      have i1 : (rem resp.body).length < k := i1
      rw [hrem, List.length_take] at i1
      have := hpre.length_le
      omega
    · rcases sendBody_send env (2 * ((headOf resp (env.now n)).length + k + meas resp.body) + w.script.length + 1) n resp w with ⟨b, w1', r1', j1, j2, j3⟩ | ⟨_, j1⟩ | ⟨_, j1 | ⟨w3, j1⟩⟩
      · refine ⟨(ReqBody.fixed b).io, w1', r1', ?_⟩
        unfold passOn
        dsimp only
        rw [j1]
        rfl
      · rw [i1] at j1; cases j1
      · rw [i1] at j1; cases j1
      · rw [i1] at j1
        simp only [Run.ret.injEq, Prod.mk.injEq] at j1
        obtain ⟨_, rfl⟩ := j1
        have i5 := i5.1
        simp only [resp] at i5
        omega
  | @chunked rd h1 h2 h3 =>
    obtain ⟨t, ht, hc, hwt⟩ := chunked_record hp (r := rd)
    obtain ⟨b, x, fs, k1, k2, k3⟩ := hw
    obtain ⟨e1, e2⟩ := hwt b x p fs k1 k2 (h1.trans k3)
    let resp : InnerResponse (BufRd Script) := ⟨a.1, a.2, .http11, t, none⟩
    let N := 2 * ((headOf resp (env.now n)).length + ((rem resp.body).length + 1) + meas resp.body) + w.script.length + 1
    refine ⟨N, ?_⟩
    rcases sendResponse_spec hx (resp := resp) (now := env.now n) ha (fun n hn => hlim n hn) N w with ⟨_, _, i1, i2⟩ | ⟨w2, r2, sent, used, i1, i2, i3, i4, i5⟩
    · exfalso
      have i1 : rem t = [] := i1
      have := h03 rfl (e1.symm.trans i1)
      have i2 : (relayHead a none (env.now n)).length % 8192 = 8189 ∨ (relayHead a none (env.now n)).length % 8192 = 8188 := i2
      simp only [List.mem_cons, List.not_mem_nil, or_false, not_or] at this
      omega
    · rcases sendBody_send env N n (⟨a.1, a.2, .http11, BufRd.new (ChunkedDecoder.new rd pool), none⟩ : InnerResponse (BufRd (ChunkedDecoder (BufRd ρ)))) w with ⟨b, w1', r1', j1, j2, j3⟩ | ⟨_, j1⟩ | ⟨_, j1 | ⟨w3, j1⟩⟩
      · refine ⟨(ReqBody.chunked b).io, w1', r1', ?_⟩
        unfold passOn
        dsimp only
        rw [j1]
        rfl
      all_goals rw [sendResponse_record ht, i1] at j1
      · cases j1
      · cases j1
      · simp only [Run.ret.injEq, Prod.mk.injEq] at j1
        obtain ⟨_, rfl⟩ := j1
        have i5 := i5.1
        simp only [resp, N] at i5
        omega

/-- **C76**: passing on such a body comes to an end, whatever the writer does.  It is assumed that the header maps of the response are such, and that the error response can be sent if sending fails; and a chunked body
that is empty must not meet a head of the unlucky lengths (C03). -/
theorem C76_ends_partial {env : Env} (hx : HexLenOk env.hexLen) (hp : ∀ n, (env.pool n).Ok) {opts : ServerOpts} {answer : ReqHead → StatusCode × HeaderMap} (ha : ∀ head, (answer head).2.WF)
    {fails : IoErr → Glitch} (hf : ∀ e, (fails e).Ok) (n : Nat) (c : Conn ρ)
    (hb : ∀ h i m t fs len, FirstHead (rem c.rd) h → Judged env.uriOk h (.serve i m t fs len) →
      ∃ p, WholeBody ((rem c.rd).drop h.length) len p ∧ (∀ k, len = some k → 8192 + k < usizeLimit) ∧
        (len = none → p = [] → ∀ head, (relayHead (answer head) none (env.now n)).length % 8192 ∉ [8188, 8189])) :
    ∃ N c' ev res, ∀ fuel, N ≤ fuel → relayStep env opts answer fails fuel n c = .ret (c', ev, res) := by
  let M := (rem c.rd).length + meas c.rd + c.wr.script.length + 3
  have key : ∃ w clock a, awaitDecode env opts M (env.pool n) M (DecFut.start c.rd) c.wr c.clock = .ret (w, clock, a) ∧
      AwaitOk env.uriOk (env.pool n) opts.timeout (rem c.rd) (fin c.rd) (meas c.rd + c.wr.script.length) c.wr w c.clock clock a := by
    rcases awaitDecode_spec (env := env) (opts := opts) (pool := env.pool n) M M c.clock (decInv_start c.rd c.wr) with
      ⟨_, k2⟩ | ⟨w, clock, a, k1, k2⟩
    · exfalso
      simp only [M] at k2
      omega
    · exact ⟨w, clock, a, k1, k2⟩
  obtain ⟨w, clock, a, k1, k2⟩ := key
  have lift : ∀ N, M ≤ N → awaitDecode env opts N (env.pool n) N (DecFut.start c.rd) c.wr c.clock = .ret (w, clock, a) :=
    fun N hN => (awaitDecode_mono hN M N hN _ _ _).ret k1
  cases k2 with
  | timedOut => exact ⟨M, _, _, _, fun N hN => by unfold relayStep; rw [lift N hN]; rfl⟩
  | ready a b cc d =>
    rename_i res ticks
    have refuses : ∀ f st, failResponse f = some (plainResponse st) → ∃ N w' ev, answerFail env N n f w = .ret (w', ev) := by
      intro f st hf
      rcases answerFail_spec hx hf (sendBound (plainResponse st) (env.now n) w + 1) n w with ⟨_, h⟩ | ⟨w', h1, _⟩
      · omega
      · exact ⟨_, w', _, h1⟩
    cases res with
    | none io => exact ⟨M, _, _, _, fun N hN => by unfold relayStep; rw [lift N hN]; rfl⟩
    | fail f io =>
      have : ∃ N w' ev, answerFail env N n f w = .ret (w', ev) := by
        cases f with
        | connectionLost e => exact ⟨0, w, [], rfl⟩
        | _ => exact refuses _ _ rfl
      obtain ⟨N, w', ev, h1⟩ := this
      refine ⟨max M N, ⟨io, w', clock⟩, interimEvent c.wr w ++ ev, (failError f).map .err, fun fuel hN => ?_⟩
      unfold relayStep
      rw [lift _ (by omega)]
      simp only [Run.ret_bind, (answerFail_mono (by omega : N ≤ fuel) f w).ret h1]
    | request req =>
      cases a.decided with
      | @serve h i m' t fs len hm used body b1 b2 b3 b3' b4 b5 b6 =>
        obtain ⟨p, p1, p2, p3⟩ := hb h i m' t fs len b1 b2
        obtain ⟨N1, io, w1, r, h1⟩ := passOn_total hx (hp n) (ha ⟨m', t, hm⟩) (head := ⟨m', t, hm⟩) b6 p2 n w p1 (fun e1 e2 => p3 e1 e2 _)
        obtain ⟨N2, w2, ev2, h3⟩ := answerGlitch_total hx (opts := opts) (n := n) (g := orGlitch fails r)
          (by intro x hx'; cases r <;> simp [orGlitch] at hx'; rw [← hx']; exact hf _) w1
        refine ⟨max M (max N1 N2), ⟨io, w2, clock⟩, interimEvent c.wr w ++ .call ⟨m', t, hm⟩ len :: wroteSince w w1 :: ev2, none, fun fuel hN => ?_⟩
        unfold relayStep
        rw [lift _ (by omega)]
        simp only [Run.ret_bind]
        rw [(passOn_mono (by omega : N1 ≤ fuel) _ _ _ w).ret h1]
        simp only [Run.ret_bind]
        rw [(answerGlitch_mono (by omega : N2 ≤ fuel) _ w1).ret h3]
        rfl

/-! ## Bodies that are cut off -/

theorem passOn_spins {env : Env} {pool : Pool} {a : StatusCode × HeaderMap} (ha : a.2.WF) {s : Bytes} {head : ReqHead} {k : Nat}
    {body : ReqBody ρ} (hb : BodyAt pool s none 0 (some k) body) (hlim : 8192 + k < usizeLimit) (hs : s.length < k) {n : Nat}
    (hh : (relayHead a (some k) (env.now n)).length + s.length < 8192) (fuel : Nat) (w : Writer) :
    passOn env fuel n a.1 a.2 ⟨head, body, some k⟩ w = .diverge := by
  cases hb with
  | @fixed rd _ h1 h2 h3 =>
    have hrem : rem (⟨rd, k⟩ : Take (BufRd ρ)) = s := by
      show (rem rd).take k = s
      rw [h1, List.take_of_length_le (by omega)]
    have : sendBody env fuel n (⟨a.1, a.2, .http11, (⟨rd, k⟩ : Take (BufRd ρ)), some k⟩) w = .diverge := by
      unfold sendBody
      cases fuel with
      | zero => rfl
      | succ fuel =>
        have hd := C05_short_reader_hangs (hexLen := env.hexLen) (resp := ⟨a.1, a.2, .http11, (⟨rd, k⟩ : Take (BufRd ρ)), some k⟩) (now := env.now n) (n := k) rfl ha
          (buf := List.replicate copyBufLen 0) (by rw [List.length_replicate]; exact hlim)
          (by show (rem (⟨rd, k⟩ : Take (BufRd ρ))).length < k; rw [hrem]; exact hs)
          (by
            show (if k ≤ (rem rd).length then none else fin rd) = none
            rw [h2, ite_self])
          (by have : meas (⟨rd, k⟩ : Take (BufRd ρ)) ≤ meas rd := Nat.le_refl _
              show meas (⟨rd, k⟩ : Take (BufRd ρ)) = 0
              omega)
          (by
            show (relayHead a (some k) (env.now n)).length + (rem (⟨rd, k⟩ : Take (BufRd ρ))).length < _
            rw [hrem, List.length_replicate]
            exact hh) (copyBufLen + 1)
        have hp : (Encoder.encode (⟨a.1, a.2, .http11, (⟨rd, k⟩ : Take (BufRd ρ)), some k⟩ : InnerResponse (Take (BufRd ρ)))).poll env.hexLen (env.now n) (List.replicate copyBufLen 0) = .diverge := by
          unfold Encoder.poll
          rw [List.length_replicate]
          exact hd
        simp only [copyGo, CopyState.init, Nat.le_refl, ge_iff_le, if_true, hp]
        rfl
    unfold passOn
    dsimp only
    rw [this]
    rfl

/-- **C76 is false of the code**: a client that announces more than it sends, and closes, makes the server spin.  The endpoint passes the body on, less arrives than was declared, and the connection is at its end: then handling the
request never comes to an end, although no read is ever delayed and the writer takes everything. -/
theorem C76_spins {env : Env} {opts : ServerOpts} {answer : ReqHead → StatusCode × HeaderMap} (ha : ∀ head, (answer head).2.WF)
    {fails : IoErr → Glitch} {n : Nat} {c : Conn ρ} (ht : opts.timeout = false) (hm : meas c.rd = 0) (hw : c.wr.script = []) (hf : fin c.rd = none)
    {h m t : Bytes} {i : Bool} {fs : List (Bytes × Bytes)} {k : Nat} (hh : FirstHead (rem c.rd) h) (hj : Judged env.uriOk h (.serve i m t fs (some k)))
    (hs : ((rem c.rd).drop h.length).length < k) (hlim : 8192 + k < usizeLimit)
    (hfit : ∀ head, (relayHead (answer head) (some k) (env.now n)).length + ((rem c.rd).drop h.length).length < 8192) (fuel : Nat) :
    relayStep env opts answer fails fuel n c = .diverge := by
  unfold relayStep
  rcases awaitDecode_spec (env := env) (opts := opts) (pool := env.pool n) fuel fuel c.clock (decInv_start c.rd c.wr) with ⟨k1, _⟩ | ⟨w, clock, a, k1, k2⟩
  · rw [k1]; rfl
  · rw [k1]
    simp only [Run.ret_bind]
    cases k2 with
    | timedOut a => rw [ht] at a; cases a
    | @ready dr ticks a b cc dd =>
      cases a.decided with
      | none b1 => exact absurd b1 hh.not_noHead
      | lost b1 => exact absurd b1 hh.not_noHead
      | cut _ _ _ _ _ _ b7 => exact absurd (by rw [Writer.Reliable, hw]; simp) b7
      | refuse b1 b2 => obtain rfl := hh.unique b1; have := hj.unique b2; cases this
      | giveUp b1 b2 => obtain rfl := hh.unique b1; have := hj.unique b2; cases this
      | @serve h' i' m' t' fs' len hm' used body b1 b2 b3 b3' b4 b5 b6 =>
        obtain rfl := hh.unique b1
        have := hj.unique b2
        injection this with e1 e2 e3 e4 e5
        subst e5
        rw [hf, hm, hw] at b6
        dsimp only
        rw [passOn_spins (ha _) b6 hlim hs (hfit _)]
        rfl

end

/-! ## Examples -/

/-- 200, with a header. -/
def passing : ReqHead → StatusCode × HeaderMap := fun _ => (200, [(ascii "x-relay", [ascii "yes"])])

theorem passing_wf (head : ReqHead) : (passing head).2.WF := by
  show HeaderMap.WF [(ascii "x-relay", [ascii "yes"])]
  exact ⟨by decide, by decide⟩

def observedRelay (c : Conn Script) : Run (List Event × Option AcceptRes) := do
  let (_, ev, res) ← relayStep demoEnv plainOpts passing (fun _ => Glitch.new) 1000 0 c
  .ret (ev, res)

theorem observedRelay_ret {c : Conn Script} {ev : List Event} {res : Option AcceptRes} (h : observedRelay c = .ret (ev, res)) :
    ∃ c', relayStep demoEnv plainOpts passing (fun _ => Glitch.new) 1000 0 c = .ret (c', ev, res) := by
  unfold observedRelay at h
  obtain ⟨⟨c', ev', res'⟩, h1, h2⟩ := Run.bind_eq_ret.1 h
  simp only [Run.ret.injEq, Prod.mk.injEq] at h2
  obtain ⟨rfl, rfl⟩ := h2
  exact ⟨c', h1⟩

/-- The hypotheses of `C76_whole_partial` and of `C76_ends_partial` are met by a chunked body in two packets, and this is what is observed. -/
example : (∃ c', relayStep demoEnv plainOpts passing (fun _ => Glitch.new) 1000 0 chunkedConn =
      .ret (c', [.call ⟨ascii "POST", ascii "/c", [(ascii "host", [ascii "x"]), (ascii "transfer-encoding", [ascii "chunked"])]⟩ none,
        .wrote (responseHead .http11 200 [(ascii "x-relay", [ascii "yes"])] none (ascii "NOW") ++ ascii "3\r\nabc\r\n2\r\nde\r\n0\r\n\r\n")], none)) ∧
    FirstHead (rem chunkedConn.rd) chunkedPost ∧ WholeBody ((rem chunkedConn.rd).drop chunkedPost.length) none (ascii "abcde") ∧ chunkedConn.wr.Reliable ∧ (Glitch.new).Ok := by
  refine ⟨observedRelay_ret (by decide +kernel), by show FirstHead (Script.bytes _) _; decide +kernel, ?_, (by intro e h; cases h), (by intro hs h; cases h), by decide⟩
  exact ⟨_, ascii "GET", [], roomy_of_length chunkedBody (by decide), by decide, by show (Script.bytes _).drop _ = _; decide +kernel⟩

/-- The same, for a body of a declared length, in two packets. -/
example : (∃ c', relayStep demoEnv plainOpts passing (fun _ => Glitch.new) 1000 0 fixedConn =
      .ret (c', [.call ⟨ascii "POST", ascii "/c", [(ascii "host", [ascii "x"]), (ascii "content-length", [ascii "3"])]⟩ (some 3),
        .wrote (responseHead .http11 200 [(ascii "x-relay", [ascii "yes"])] (some 3) (ascii "NOW") ++ ascii "abc")], none)) ∧
    FirstHead (rem fixedConn.rd) fixedPost ∧ WholeBody ((rem fixedConn.rd).drop fixedPost.length) (some 3) (ascii "abc") ∧ fixedConn.wr.Reliable := by
  refine ⟨observedRelay_ret (by decide +kernel), fixed_first, ⟨by decide, ?_⟩, by intro e h; cases h⟩
  show _ <+: (Script.bytes _).drop _
  decide +kernel

/-- The writer fails in the middle: what was sent is the beginning of the response, and the attempt at an error response is behind it. -/
example : observedRelay ⟨fixedConn.rd, ⟨[.accept 9, .err (.transport 4), .accept 3, .err (.transport 5)], [], 0⟩, []⟩ =
    .ret ([.call ⟨ascii "POST", ascii "/c", [(ascii "host", [ascii "x"]), (ascii "content-length", [ascii "3"])]⟩ (some 3), .wrote (ascii "HTTP/1.1 "), .wrote (ascii "HTT")], none) := by
  decide +kernel

/-- **C76 is false of the code** for chunked bodies that are cut off: the client is told that the body it sent has arrived, although it has not: two bytes were announced and did not come, and the response is complete. -/
theorem C76_refuted_cut : ∃ (c c' : Conn Script) (head : ReqHead) (sent : Bytes), relayStep demoEnv plainOpts passing (fun _ => Glitch.new) 1000 0 c = .ret (c', [.call head none, .wrote sent], none) ∧
    IsResponse (relayHead (passing head) none (ascii "NOW")) none (ascii "abc") sent ∧
    ∃ h, FirstHead (rem c.rd) h ∧ ∀ b p fs, Body b p fs → ¬ b <+: (rem c.rd).drop h.length := by
  obtain ⟨c', h⟩ := observedRelay_ret (c := cutConn)
    (ev := [.call ⟨ascii "POST", ascii "/c", [(ascii "host", [ascii "x"]), (ascii "transfer-encoding", [ascii "chunked"])]⟩ none,
      .wrote (responseHead .http11 200 [(ascii "x-relay", [ascii "yes"])] none (ascii "NOW") ++ ascii "3\r\nabc\r\n0\r\n\r\n")]) (res := none) (by decide +kernel)
  refine ⟨cutConn, c', _, _, h, ⟨_, rfl, ?_⟩, chunkedPost, cut_first, cut_noBody⟩
  exact ⟨ascii "3\r\nabc\r\n", .cons (h := ascii "3") (d := ascii "abc") ⟨by decide, by decide, by decide⟩ (by decide) .nil, by decide⟩

/-- **C76 is false of the code** for bodies with a declared length: three bytes are announced, two come, and the connection is closed.  No amount of time is enough to handle this request. -/
theorem C76_refuted_spin : ∃ c : Conn Script, Script.bytes c.rd = fixedPost ++ ascii "ab" ∧ c.wr.Reliable ∧
    ∀ fuel, relayStep demoEnv plainOpts passing (fun _ => Glitch.new) fuel 0 c = .diverge := by
  refine ⟨⟨[.data (fixedPost ++ ascii "ab")], ⟨[], [], 0⟩, []⟩, by decide +kernel, (by intro e h; cases h), fun fuel => ?_⟩
  refine C76_spins passing_wf rfl rfl rfl rfl (h := fixedPost) (i := false) (m := ascii "POST") (t := ascii "/c") (fs := [(ascii "Host", ascii "x"), (ascii "Content-Length", ascii "3")]) (k := 3) ?_ ?_ ?_ (by decide) ?_ fuel
  · show FirstHead (Script.bytes _) _; decide +kernel
  · exact .serve (fs := [(ascii "Host", ascii "x"), (ascii "Content-Length", ascii "3")]) (hasHead_of (rest := []) (by decide +kernel)) (by decide +kernel) (by decide +kernel) (by decide +kernel) (by decide +kernel)
      (by show ∃ n, IsLength _ n ∧ some 3 = some n; exact ⟨3, (parseUsize_some _ _).1 (by decide +kernel), rfl⟩)
  · show ((Script.bytes _).drop _).length < 3; decide +kernel
  · intro head
    show (responseHead .http11 200 [(ascii "x-relay", [ascii "yes"])] (some 3) (ascii "NOW")).length + ((Script.bytes _).drop _).length < 8192
    decide +kernel

end Tophat
