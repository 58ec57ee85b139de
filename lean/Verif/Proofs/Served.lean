import Verif.Proofs.ReqBody
/-! An iteration of the accept loop in which the endpoint is called. -/

set_option linter.unusedSectionVars false

namespace Tophat
open Spec

theorem calls_append (a b : List Event) : calls (a ++ b) = calls a ++ calls b := by
  induction a with
  | nil => rfl
  | cons x a ih => cases x <;> simp [calls, ih]

theorem written_append (a b : List Event) : written (a ++ b) = written a ++ written b := by
  induction a with
  | nil => rfl
  | cons x a ih => cases x <;> simp [written, ih]

theorem mem_calls {ev : List Event} {h : ReqHead} {len : Option Nat} : (h, len) ∈ calls ev ↔ .call h len ∈ ev := by
  induction ev with
  | nil => simp [calls]
  | cons x ev ih => cases x <;> simp [calls, ih]

theorem calls_interimEvents (i : Bool) : calls (interimEvents i) = [] := by cases i <;> rfl
theorem calls_interimEvent (w w' : Writer) : calls (interimEvent w w') = [] := by
  unfold interimEvent; split <;> rfl
theorem bodyReads_interimEvents (i : Bool) : bodyReads (interimEvents i) = [] := by cases i <;> rfl
theorem bodyReads_interimEvent (w w' : Writer) : bodyReads (interimEvent w w') = [] := by
  unfold interimEvent; split <;> rfl

theorem interimEvents_eq (i : Bool) : interimEvents i = Spec.interim i := rfl

theorem errorWire_eq (st : StatusCode) (now : Bytes) : errorWire st now = errorResponse st now := rfl

section
variable {ρ : Type} [AsyncRead ρ] {σ : Type} [AsyncBufRead σ]

theorem runAfter_calls {b : Bool} (a : After b) (body body' : ReqBody ρ) (ev : List Event) (g : Option Glitch)
    (h : runAfter a body = .ret (body', ev, g)) : calls ev = [] ∧ written ev = [] := by
  induction a generalizing body ev with
  | read k next ih =>
    simp only [runAfter] at h
    obtain ⟨⟨b1, p⟩, h1, h2⟩ := Run.bind_eq_ret.1 h
    dsimp only at h2
    obtain ⟨⟨b2, ev2, g2⟩, h3, h4⟩ := Run.bind_eq_ret.1 h2
    simp only [Run.ret.injEq, Prod.mk.injEq] at h4
    obtain ⟨rfl, rfl, rfl⟩ := h4
    exact ih p b1 ev2 h3
  | ok =>
    simp only [runAfter, Run.ret.injEq, Prod.mk.injEq] at h
    obtain ⟨rfl, rfl, rfl⟩ := h
    exact ⟨rfl, rfl⟩
  | glitch =>
    simp only [runAfter, Run.ret.injEq, Prod.mk.injEq] at h
    obtain ⟨rfl, rfl, rfl⟩ := h
    exact ⟨rfl, rfl⟩

theorem runProg_calls {env : Env} {fuel n : Nat} (a : Prog σ) (body body' : ReqBody ρ) (w w' : Writer) (ev : List Event) (g : Option Glitch)
    (h : runProg env fuel n a body w = .ret (body', w', ev, g)) : calls ev = [] := by
  induction a generalizing body ev with
  | read k next ih =>
    simp only [runProg] at h
    obtain ⟨⟨b1, p⟩, h1, h2⟩ := Run.bind_eq_ret.1 h
    dsimp only at h2
    obtain ⟨⟨b2, w2, ev2, g2⟩, h3, h4⟩ := Run.bind_eq_ret.1 h2
    simp only [Run.ret.injEq, Prod.mk.injEq] at h4
    obtain ⟨rfl, rfl, rfl, rfl⟩ := h4
    exact ih p b1 ev2 h3
  | send resp onOk onErr =>
    simp only [runProg] at h
    obtain ⟨⟨w1, r⟩, h1, h2⟩ := Run.bind_eq_ret.1 h
    dsimp only at h2
    cases r with
    | running => cases h2
    | err e =>
      obtain ⟨⟨b2, ev2, g2⟩, h3, h4⟩ := Run.bind_eq_ret.1 h2
      simp only [Run.ret.injEq, Prod.mk.injEq] at h4
      obtain ⟨rfl, rfl, rfl, rfl⟩ := h4
      exact (runAfter_calls _ _ _ _ _ h3).1
    | ok amt =>
      obtain ⟨⟨b2, ev2, g2⟩, h3, h4⟩ := Run.bind_eq_ret.1 h2
      simp only [Run.ret.injEq, Prod.mk.injEq] at h4
      obtain ⟨rfl, rfl, rfl, rfl⟩ := h4
      exact (runAfter_calls _ _ _ _ _ h3).1
  | sendFor steps resp onOk onErr onDrop =>
    simp only [runProg] at h
    obtain ⟨⟨w1, r⟩, h1, h2⟩ := Run.bind_eq_ret.1 h
    dsimp only at h2
    cases r with
    | running =>
      obtain ⟨⟨b2, ev2, g2⟩, h3, h4⟩ := Run.bind_eq_ret.1 h2
      simp only [Run.ret.injEq, Prod.mk.injEq] at h4
      obtain ⟨rfl, rfl, rfl, rfl⟩ := h4
      exact (runAfter_calls _ _ _ _ _ h3).1
    | err e =>
      obtain ⟨⟨b2, ev2, g2⟩, h3, h4⟩ := Run.bind_eq_ret.1 h2
      simp only [Run.ret.injEq, Prod.mk.injEq] at h4
      obtain ⟨rfl, rfl, rfl, rfl⟩ := h4
      exact (runAfter_calls _ _ _ _ _ h3).1
    | ok amt =>
      obtain ⟨⟨b2, ev2, g2⟩, h3, h4⟩ := Run.bind_eq_ret.1 h2
      simp only [Run.ret.injEq, Prod.mk.injEq] at h4
      obtain ⟨rfl, rfl, rfl, rfl⟩ := h4
      exact (runAfter_calls _ _ _ _ _ h3).1
  | glitch =>
    simp only [runProg, Run.ret.injEq, Prod.mk.injEq] at h
    obtain ⟨rfl, rfl, rfl, rfl⟩ := h
    rfl

theorem answerGlitch_calls {env : Env} {opts : ServerOpts} {fuel n : Nat} {g : Option Glitch} {w w' : Writer} {ev : List Event}
    (h : answerGlitch env opts fuel n g w = .ret (w', ev)) : calls ev = [] := by
  unfold answerGlitch at h
  cases g with
  | none => simp at h; rw [h.2]; rfl
  | some g =>
    dsimp only at h
    obtain ⟨⟨w1, r⟩, h1, h2⟩ := Run.bind_eq_ret.1 h
    simp at h2
    rw [← h2.2]; rfl

end

section
variable {ρ : Type} [AsyncRead ρ] [LawfulRead ρ] {σ : Type} [AsyncBufRead σ]

/-- An iteration in which the endpoint is called. -/
structure Served (env : Env) (opts : ServerOpts) (endpoint : Endpoint σ) (fuel n : Nat) (c c' : Conn ρ) (ev : List Event)
    (h : Bytes) (i : Bool) (head : ReqHead) (fs : List (Bytes × Bytes)) (len : Option Nat) : Prop where
  firstHead : FirstHead (rem c.rd) h
  judged : Judged env.uriOk h (.serve i head.method head.uri fs len)
  headers : MapOf head.headers fs
  parsed : ∃ p, parseHead h = .ok p ∧ p.acc.headers = head.headers
  run : ∃ (used : List WEv) (body body' : ReqBody ρ) (w1 w2 : Writer) (ev1 : List Event) (g : Option Glitch) (ev2 : List Event),
    w1.got = c.wr.got ++ interimOf i ∧ c.wr.script = used ++ w1.script ∧
    BodyAt (env.pool n) ((rem c.rd).drop h.length) (fin c.rd) (meas c.rd + c.wr.script.length) len body ∧
    runProg env fuel n (endpoint head len) body w1 = .ret (body', w2, ev1, g) ∧
    answerGlitch env opts fuel n g w2 = .ret (c'.wr, ev2) ∧ c'.rd = body'.io ∧
    ev = Spec.interim i ++ .call head len :: (ev1 ++ ev2)

theorem calls_inv {env : Env} {opts : ServerOpts} {endpoint : Endpoint σ} {fuel n : Nat} {c c' : Conn ρ} {ev : List Event}
    {res : Option AcceptRes} (hs : StepOk env opts endpoint fuel n c c' ev res) :
    calls ev = [] ∨ ∃ h i head fs len, calls ev = [(head, len)] ∧ res = none ∧
      Served env opts endpoint fuel n c c' ev h i head fs len := by
  cases hs with
  | closed => exact .inl rfl
  | timedOut => exact .inl (calls_interimEvent _ _)
  | lost => exact .inl rfl
  | cut => exact .inl (calls_interimEvent _ _)
  | refused => left; rw [calls_append, calls_interimEvents]; rfl
  | gaveUp => exact .inl rfl
  | served a b d e f g k l m =>
    rename_i h i m' t fs len hm used body body' w1 w2 w3 ev1 gg ev2 clock'
    right
    refine ⟨h, i, ⟨m', t, hm⟩, fs, len, ?_, rfl, a, b, d, e, used, body, body', w1, w2, ev1, gg, ev2, f, g, k, l, m, rfl, rfl⟩
    rw [calls_append, calls_interimEvents, calls, calls_append, runProg_calls _ _ _ _ _ _ _ l, answerGlitch_calls m]
    rfl

theorem call_inv {env : Env} {opts : ServerOpts} {endpoint : Endpoint σ} {fuel n : Nat} {c c' : Conn ρ} {ev : List Event}
    {res : Option AcceptRes} (hs : StepOk env opts endpoint fuel n c c' ev res) {head : ReqHead} {len : Option Nat} (hc : .call head len ∈ ev) :
    res = none ∧ ∃ h i fs, Served env opts endpoint fuel n c c' ev h i head fs len := by
  rcases calls_inv hs with h0 | ⟨h, i, hd, fs, l, h1, h2, h3⟩
  · have := mem_calls.2 hc; rw [h0] at this; cases this
  · have := mem_calls.2 hc
    rw [h1] at this
    simp only [List.mem_singleton, Prod.mk.injEq] at this
    obtain ⟨rfl, rfl⟩ := this
    exact ⟨h2, h, i, fs, h3⟩

/-- The endpoint's reads of the body. -/
theorem Served.reads {env : Env} {opts : ServerOpts} {endpoint : Endpoint σ} {fuel n : Nat} {c c' : Conn ρ} {ev : List Event}
    {h : Bytes} {i : Bool} {head : ReqHead} {fs : List (Bytes × Bytes)} {len : Option Nat}
    (hs : Served env opts endpoint fuel n c c' ev h i head fs len) :
    ∃ (body b1 : ReqBody ρ), BodyAt (env.pool n) ((rem c.rd).drop h.length) (fin c.rd) (meas c.rd + c.wr.script.length) len body ∧
      polls body ((untilErr (bodyReads ev)).map (·.1)) = .ret (b1, (untilErr (bodyReads ev)).map (·.2)) := by
  obtain ⟨used, body, body', w1, w2, ev1, g, ev2, _, _, h3, h4, h5, _, rfl⟩ := hs.run
  obtain ⟨b1, k1, _⟩ := runProg_polls _ _ _ _ _ _ _ h4
  refine ⟨body, b1, h3, ?_⟩
  have : bodyReads (Spec.interim i ++ .call head len :: (ev1 ++ ev2)) = bodyReads ev1 := by
    rw [bodyReads_append, ← interimEvents_eq, bodyReads_interimEvents, bodyReads, bodyReads_append, answerGlitch_reads h5]
    · simp
    all_goals simp
  rw [this]; exact k1

/-- With a transport and a timer that do not interfere, a request that is to be served reaches the endpoint. -/
theorem served_inv {env : Env} {opts : ServerOpts} {endpoint : Endpoint σ} {fuel n : Nat} {c c' : Conn ρ} {ev : List Event}
    {res : Option AcceptRes} (hs : StepOk env opts endpoint fuel n c c' ev res) {h : Bytes} {i : Bool} {m t : Bytes} {fs : List (Bytes × Bytes)} {len : Option Nat}
    (hh : FirstHead (rem c.rd) h) (hj : Judged env.uriOk h (.serve i m t fs len)) (hr : i = true → c.wr.Reliable) (ht : NoTimeout opts c) :
    res = none ∧ ∃ hm, Served env opts endpoint fuel n c c' ev h i ⟨m, t, hm⟩ fs len := by
  cases hs with
  | closed a => exact absurd a hh.not_noHead
  | timedOut a b => exact (ht.not_fired a b).elim
  | lost a => exact absurd a hh.not_noHead
  | cut a b d e =>
    have := a.unique hh; subst this
    have := b.unique hj
    subst this
    rcases d with ⟨_, h⟩ | ⟨_, _, _, _, h⟩
    · cases h
    · injection h with h; exact absurd (hr h) e
  | refused a b => have := a.unique hh; subst this; have := b.unique hj; cases this
  | gaveUp a b => have := a.unique hh; subst this; have := b.unique hj; cases this
  | served a b d e f g k l m' =>
    have := a.unique hh; subst this
    have := b.unique hj
    injection this with e1 e2 e3 e4 e5
    subst e1 e2 e3 e4 e5
    exact ⟨rfl, _, a, b, d, e, _, _, _, _, _, _, _, _, f, g, k, l, m', rfl, rfl⟩

end

end Tophat
