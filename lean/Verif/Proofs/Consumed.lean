import Verif.Proofs.Conversation
/-! How much of a body of known length an endpoint has consumed. -/

set_option linter.unusedSectionVars false
set_option synthInstance.maxSize 1000

namespace Tophat
open Spec

section
variable {ρ : Type} [AsyncRead ρ] [LawfulRead ρ]

theorem fixed_consumed {t : Take (BufRd ρ)} {b' : ReqBody ρ} {k : Nat} {p : RPoll} (hf : fin t.inner = none)
    (h : pollRead (ReqBody.fixed t) k = .ret (b', p)) :
    ∃ t', b' = .fixed t' ∧ fin t'.inner = none ∧ rem t.inner = received [p] ++ rem t'.inner := by
  have h1 : (pollRead t k >>= ReqBody.ofFixed) = .ret (b', p) := h
  obtain ⟨⟨t1, p'⟩, h3, h4⟩ := Run.bind_eq_ret.1 h1
  simp only [ReqBody.ofFixed, Run.ret.injEq, Prod.mk.injEq] at h4
  obtain ⟨rfl, rfl⟩ := h4
  have h5 : t.read k = .ret (t1, p') := h3
  refine ⟨t1, rfl, ?_⟩
  unfold Take.read at h5
  split at h5
  · simp only [Run.ret.injEq, Prod.mk.injEq] at h5
    obtain ⟨rfl, rfl⟩ := h5
    exact ⟨hf, rfl⟩
  · obtain ⟨r', q, hp, ho⟩ := LawfulRead.read_ok t.inner (min k t.limit)
    rw [hp] at h5
    simp only [Run.ret_bind, Run.ret.injEq] at h5
    cases ho with
    | pending a b c =>
      simp only [Take.counted, Prod.mk.injEq] at h5
      obtain ⟨rfl, rfl⟩ := h5
      exact ⟨by rw [← hf, ← b], by rw [← a]; rfl⟩
    | err a b => rw [hf] at b; cases b
    | data a b c d e =>
      simp only [Take.counted, Prod.mk.injEq] at h5
      obtain ⟨rfl, rfl⟩ := h5
      exact ⟨by rw [← hf, ← c], by rw [b]; simp [received]⟩

theorem received_cons (p : RPoll) (ps : List RPoll) : received (p :: ps) = received [p] ++ received ps := by
  cases p <;> simp [received]

theorem runAfter_consumed {b : Bool} (a : After b) : ∀ (t : Take (BufRd ρ)) (body' : ReqBody ρ) (ev : List Event) (g : Option Glitch),
    fin t.inner = none → runAfter a (.fixed t) = .ret (body', ev, g) →
    rem t.inner = received ((bodyReads ev).map (·.2)) ++ rem body'.buf := by
  induction a with
  | read k next ih =>
    intro t body' ev g hf h
    simp only [runAfter] at h
    obtain ⟨⟨b1, p⟩, h1, h2⟩ := Run.bind_eq_ret.1 h
    dsimp only at h2
    obtain ⟨⟨b2, ev2, g2⟩, h3, h4⟩ := Run.bind_eq_ret.1 h2
    simp only [Run.ret.injEq, Prod.mk.injEq] at h4
    obtain ⟨rfl, rfl, rfl⟩ := h4
    obtain ⟨t', rfl, a1, a2⟩ := fixed_consumed hf h1
    have := ih _ _ _ _ _ a1 h3
    simp only [bodyReads, List.map_cons]
    rw [received_cons, a2, this, List.append_assoc]
  | ok =>
    intro t body' ev g hf h
    simp only [runAfter, Run.ret.injEq, Prod.mk.injEq] at h
    obtain ⟨rfl, rfl, rfl⟩ := h
    rfl
  | glitch =>
    intro t body' ev g hf h
    simp only [runAfter, Run.ret.injEq, Prod.mk.injEq] at h
    obtain ⟨rfl, rfl, rfl⟩ := h
    rfl

variable {σ : Type} [AsyncBufRead σ]

theorem runProg_consumed {env : Env} {fuel n : Nat} (a : Prog σ) : ∀ (t : Take (BufRd ρ)) (body' : ReqBody ρ) (w w' : Writer) (ev : List Event) (g : Option Glitch),
    fin t.inner = none → runProg env fuel n a (.fixed t) w = .ret (body', w', ev, g) →
    rem t.inner = received ((bodyReads ev).map (·.2)) ++ rem body'.buf := by
  induction a with
  | read k next ih =>
    intro t body' w w' ev g hf h
    simp only [runProg] at h
    obtain ⟨⟨b1, p⟩, h1, h2⟩ := Run.bind_eq_ret.1 h
    dsimp only at h2
    obtain ⟨⟨b2, w2, ev2, g2⟩, h3, h4⟩ := Run.bind_eq_ret.1 h2
    simp only [Run.ret.injEq, Prod.mk.injEq] at h4
    obtain ⟨rfl, rfl, rfl, rfl⟩ := h4
    obtain ⟨t', rfl, a1, a2⟩ := fixed_consumed hf h1
    have := ih _ _ _ _ _ _ _ a1 h3
    simp only [bodyReads, List.map_cons]
    rw [received_cons, a2, this, List.append_assoc]
  | send resp onOk onErr =>
    intro t body' w w' ev g hf h
    simp only [runProg] at h
    obtain ⟨⟨w1, r⟩, h1, h2⟩ := Run.bind_eq_ret.1 h
    dsimp only at h2
    cases r with
    | running => cases h2
    | err e =>
      obtain ⟨⟨b2, ev2, g2⟩, h3, h4⟩ := Run.bind_eq_ret.1 h2
      simp only [Run.ret.injEq, Prod.mk.injEq] at h4
      obtain ⟨rfl, rfl, rfl, rfl⟩ := h4
      exact runAfter_consumed _ _ _ ev2 _ hf h3
    | ok amt =>
      obtain ⟨⟨b2, ev2, g2⟩, h3, h4⟩ := Run.bind_eq_ret.1 h2
      simp only [Run.ret.injEq, Prod.mk.injEq] at h4
      obtain ⟨rfl, rfl, rfl, rfl⟩ := h4
      exact runAfter_consumed _ _ _ ev2 _ hf h3
  | sendFor steps resp onOk onErr onDrop =>
    intro t body' w w' ev g hf h
    simp only [runProg] at h
    obtain ⟨⟨w1, r⟩, h1, h2⟩ := Run.bind_eq_ret.1 h
    dsimp only at h2
    cases r with
    | running =>
      obtain ⟨⟨b2, ev2, g2⟩, h3, h4⟩ := Run.bind_eq_ret.1 h2
      simp only [Run.ret.injEq, Prod.mk.injEq] at h4
      obtain ⟨rfl, rfl, rfl, rfl⟩ := h4
      exact runAfter_consumed _ _ _ ev2 _ hf h3
    | err e =>
      obtain ⟨⟨b2, ev2, g2⟩, h3, h4⟩ := Run.bind_eq_ret.1 h2
      simp only [Run.ret.injEq, Prod.mk.injEq] at h4
      obtain ⟨rfl, rfl, rfl, rfl⟩ := h4
      exact runAfter_consumed _ _ _ ev2 _ hf h3
    | ok amt =>
      obtain ⟨⟨b2, ev2, g2⟩, h3, h4⟩ := Run.bind_eq_ret.1 h2
      simp only [Run.ret.injEq, Prod.mk.injEq] at h4
      obtain ⟨rfl, rfl, rfl, rfl⟩ := h4
      exact runAfter_consumed _ _ _ ev2 _ hf h3
  | glitch =>
    intro t body' w w' ev g hf h
    simp only [runProg, Run.ret.injEq, Prod.mk.injEq] at h
    obtain ⟨rfl, rfl, rfl, rfl⟩ := h
    rfl

/-- What is left for the next head comes from behind what has been read of the body. -/
theorem acceptStep_consumed {env : Env} (hx : HexLenOk env.hexLen) {opts : ServerOpts} {endpoint : Endpoint σ} {fuel n : Nat} {c c' : Conn ρ} {ev : List Event}
    {res : Option AcceptRes} {h : Bytes} {head : ReqHead} {len : Nat} (hf : fin c.rd = none) (hh : FirstHead (rem c.rd) h)
    (hs : acceptStep env opts endpoint fuel n c = .ret (c', ev, res)) (hc : .call head (some len) ∈ ev) :
    rem c'.rd <:+ (rem c.rd).drop (h.length + (received ((bodyReads ev).map (·.2))).length) := by
  obtain ⟨_, h', i, fs, hsv⟩ := call_inv (acceptStep_spec hx hs) hc
  have := hsv.firstHead.unique hh
  subst this
  obtain ⟨used, body, body', w1, w2, ev1, g, ev2, _, _, h3, h4, h5, h6, rfl⟩ := hsv.run
  have hbr : bodyReads (Spec.interim i ++ .call head (some len) :: (ev1 ++ ev2)) = bodyReads ev1 := by
    rw [bodyReads_append, ← interimEvents_eq, bodyReads_interimEvents, bodyReads, bodyReads_append, answerGlitch_reads h5]
    · simp
    all_goals simp
  rw [hbr]
  generalize hl : some len = l at h3
  cases h3 with
  | chunked => cases hl
  | fixed a b cc =>
    have := runProg_consumed _ _ _ _ _ _ _ (by rw [b, hf]) h4
    rw [h6, ReqBody.io_eq, ← List.drop_drop, ← a, this]
    simp only [List.drop_left]
    exact BufRd.inner_suffix _

end

end Tophat
