import Verif.Proofs.ChunkedReqBody
/-! Verdicts from what a head says; concrete heads; whole connections. -/

set_option linter.unusedSectionVars false

namespace Tophat
open Spec

/-! ## Deciding on concrete heads -/

theorem endsBlank_iff (h : Bytes) : EndsBlank h ↔ 4 ≤ h.length ∧ h.drop (h.length - 4) = [13, 10, 13, 10] := by
  constructor
  · rintro ⟨q, rfl⟩
    refine ⟨by simp, ?_⟩
    simp
  · rintro ⟨_, h2⟩
    exact ⟨h.take (h.length - 4), by rw [← h2]; simp⟩

instance (h : Bytes) : Decidable (EndsBlank h) := decidable_of_iff _ (endsBlank_iff h).symm

theorem firstHead_iff (s h : Bytes) : FirstHead s h ↔ h = s.take h.length ∧ EndsBlank h ∧ ∀ i ∈ List.range h.length, ¬ EndsBlank (h.take i) := by
  unfold FirstHead
  constructor
  · rintro ⟨h1, h2, h3⟩
    refine ⟨List.prefix_iff_eq_take.1 h1, h2, ?_⟩
    intro i hi hb
    have := h3 _ (List.take_prefix i h) hb
    have := congrArg List.length this
    simp at hi this
    omega
  · rintro ⟨h1, h2, h3⟩
    refine ⟨List.prefix_iff_eq_take.2 h1, h2, ?_⟩
    intro p hp hb
    by_cases hl : p.length < h.length
    · rw [List.prefix_iff_eq_take] at hp
      rw [hp] at hb
      exact absurd hb (h3 _ (List.mem_range.2 hl))
    · exact hp.eq_of_length (Nat.le_antisymm hp.length_le (by omega))

instance (s h : Bytes) : Decidable (FirstHead s h) := decidable_of_iff _ (firstHead_iff s h).symm

theorem noHead_iff (s : Bytes) : NoHead s ↔ ∀ i ∈ List.range (s.length + 1), ¬ EndsBlank (s.take i) := by
  unfold NoHead
  constructor
  · intro h i _
    exact h _ (List.take_prefix i s)
  · intro h p hp hb
    have := List.prefix_iff_eq_take.1 hp
    rw [this] at hb
    exact h _ (List.mem_range.2 (by have := hp.length_le; omega)) hb

instance (s : Bytes) : Decidable (NoHead s) := decidable_of_iff _ (noHead_iff s).symm

instance (v : Bytes) : Decidable (KnownCoding v) := by unfold KnownCoding; infer_instance

theorem badLength_iff (f : Bytes × Bytes) : BadLength f ↔ lower f.1 = ascii "content-length" ∧ parseUsize f.2 = none := by
  unfold BadLength
  constructor
  · rintro ⟨h1, h2⟩
    refine ⟨h1, ?_⟩
    cases hp : parseUsize f.2 with
    | none => rfl
    | some n => exact absurd ((parseUsize_some _ _).1 hp) (h2 n)
  · rintro ⟨h1, h2⟩
    exact ⟨h1, parseUsize_none h2⟩

instance (f : Bytes × Bytes) : Decidable (BadLength f) := decidable_of_iff _ (badLength_iff f).symm
instance (f : Bytes × Bytes) : Decidable (BadCoding f) := by unfold BadCoding; infer_instance
instance (f : Bytes × Bytes) : Decidable (GoodField f) := by unfold GoodField; infer_instance

theorem hasHead_of {h rest m t : Bytes} {v : Nat} {fs : List (Bytes × Bytes)} (hp : Httparse.parseRequest 16 h = .ok rest ⟨m, t, v, fs⟩) : HasHead h m t v fs :=
  (hasHead_iff _ _ _ _ _).2 ⟨rest, hp⟩

/-! ## Reads up to the first error -/

theorem untilErr_mem : ∀ l : List (Nat × RPoll), ∀ x ∈ untilErr l, x ∈ l := by
  intro l
  induction l with
  | nil => simp [untilErr]
  | cons y l ih =>
    intro x hx
    obtain ⟨j, p⟩ := y
    cases p with
    | err e => simp [untilErr] at hx; simp [hx]
    | pending =>
      simp only [untilErr, List.mem_cons] at hx ⊢
      rcases hx with hx | hx
      · exact .inl hx
      · exact .inr (ih x hx)
    | data bs =>
      simp only [untilErr, List.mem_cons] at hx ⊢
      rcases hx with hx | hx
      · exact .inl hx
      · exact .inr (ih x hx)

theorem untilErr_err : ∀ l : List (Nat × RPoll), (∃ e j, (j, .err e) ∈ l) → ∃ e j, (j, .err e) ∈ untilErr l := by
  intro l
  induction l with
  | nil => simp
  | cons y l ih =>
    rintro ⟨e, j, hx⟩
    obtain ⟨j', p⟩ := y
    cases p with
    | err e' => exact ⟨e', j', by simp [untilErr]⟩
    | pending =>
      obtain ⟨e2, j2, h⟩ := ih ⟨e, j, by simpa using hx⟩
      exact ⟨e2, j2, by simp [untilErr, h]⟩
    | data bs =>
      obtain ⟨e2, j2, h⟩ := ih ⟨e, j, by simpa using hx⟩
      exact ⟨e2, j2, by simp [untilErr, h]⟩

theorem untilErr_eq : ∀ l : List (Nat × RPoll), (¬ ∃ e j, (j, .err e) ∈ l) → untilErr l = l := by
  intro l
  induction l with
  | nil => intro _; rfl
  | cons y l ih =>
    intro hn
    obtain ⟨j', p⟩ := y
    have ht : ¬ ∃ e j, (j, RPoll.err e) ∈ l := fun ⟨e, j, h⟩ => hn ⟨e, j, List.mem_cons_of_mem _ h⟩
    cases p with
    | err e' => exact absurd ⟨e', j', List.mem_cons_self⟩ hn
    | pending => simp only [untilErr]; rw [ih ht]
    | data bs => simp only [untilErr]; rw [ih ht]

/-! ## Verdicts -/

/-- What a request that is served looks like. -/
theorem Spec.Judged.served {uriOk : Bytes → Bool} {h : Bytes} {i : Bool} {m t : Bytes} {fs : List (Bytes × Bytes)} {len : Option Nat}
    (a : Judged uriOk h (.serve i m t fs len)) : HasHead h m t 1 fs ∧ m ≠ [] ∧ (∀ f ∈ fs, GoodField f) ∧ valuesOf (ascii "host") fs ≠ [] ∧
      uriOk t = true ∧ BodyLength fs len ∧ i = Expects fs := by
  generalize hv : Verdict.serve i m t fs len = v at a
  cases a <;> simp at hv
  obtain ⟨rfl, rfl, rfl, rfl, rfl⟩ := hv
  exact ⟨by assumption, by assumption, by assumption, by assumption, by assumption, by assumption, rfl⟩

/-- A request that is not served, because of something its head says. -/
theorem judged_not_served {uriOk : Bytes → Bool} {h : Bytes}
    (hn : ∀ m t fs len, HasHead h m t 1 fs → m ≠ [] → (∀ f ∈ fs, GoodField f) → valuesOf (ascii "host") fs ≠ [] → uriOk t = true → BodyLength fs len → False) :
    ∃ v, Judged uriOk h v ∧ ∀ i m t fs len, v ≠ .serve i m t fs len := by
  obtain ⟨v, hv⟩ := Judged.total uriOk h
  refine ⟨v, hv, ?_⟩
  rintro i m t fs len rfl
  obtain ⟨h1, h2, h3, h4, h5, h6, _⟩ := hv.served
  exact hn m t fs len h1 h2 h3 h4 h5 h6

theorem Spec.Judged.gaveUp {uriOk : Bytes → Bool} {h : Bytes} (a : Judged uriOk h .giveUp) :
    ∃ m t pre f post, HasHead h m t 1 (pre ++ f :: post) ∧ m ≠ [] ∧ (∀ g ∈ pre, GoodField g) ∧ BadCoding f := by
  generalize hv : Verdict.giveUp = v at a
  cases a <;> simp at hv
  exact ⟨_, _, _, _, _, by assumption, by assumption, by assumption, by assumption⟩

section
variable {ρ : Type} [AsyncRead ρ] [LawfulRead ρ] {σ : Type} [AsyncBufRead σ]

theorem calls_nil_of_not_served {env : Env} {opts : ServerOpts} {endpoint : Endpoint σ} {fuel n : Nat} {c c' : Conn ρ} {ev : List Event}
    {res : Option AcceptRes} (hs : StepOk env opts endpoint fuel n c c' ev res) {h : Bytes} {v : Verdict}
    (hh : FirstHead (rem c.rd) h) (hj : Judged env.uriOk h v) (hv : ∀ i m t fs len, v ≠ .serve i m t fs len) : calls ev = [] := by
  rcases calls_inv hs with h0 | ⟨h', i, hd, fs, l, h1, h2, h3⟩
  · exact h0
  · have := h3.firstHead.unique hh; subst this
    exact absurd (h3.judged.unique hj).symm (hv _ _ _ _ _)

/-- A refused request with enough fuel. -/
theorem refused_total {env : Env} (hx : HexLenOk env.hexLen) {opts : ServerOpts} {endpoint : Endpoint σ} {n : Nat} {c : Conn ρ}
    {h : Bytes} {i : Bool} {st : Nat} (hh : FirstHead (rem c.rd) h) (hj : Judged env.uriOk h (.refuse i st)) (hr : c.wr.Reliable) (ht : NoTimeout opts c) :
    ∃ N, ∀ fuel, N ≤ fuel → ∃ c', acceptStep env opts endpoint fuel n c = .ret (c', Spec.interim i ++ [.wrote (errorResponse st (env.now n))], none) := by
  refine ⟨stepBound env n c, fun fuel hf => ?_⟩
  obtain ⟨c', ev, res, h1⟩ := acceptStep_returns hx (opts := opts) (endpoint := endpoint) (fuel := fuel) (n := n) (c := c)
    (fun h' i' m t fs len hh' hj' => by have := hh'.unique hh; subst this; have := hj'.unique hj; cases this) hf
  obtain ⟨g1, g2, _⟩ := refused_inv (acceptStep_spec hx h1) hh hj hr ht
  subst g1 g2
  exact ⟨c', h1⟩

/-! ## Whole connections -/

/-- Every request handed to the endpoint in the course of a connection was judged fit. -/
theorem acceptGo_calls {env : Env} (hx : HexLenOk env.hexLen) {opts : ServerOpts} {endpoint : Endpoint σ} {fuel : Nat} (it : Nat) :
    ∀ {n : Nat} {c c' : Conn ρ} {ev : List Event} {res : AcceptRes}, acceptGo env opts endpoint fuel it n c = .ret (c', ev, res) →
    ∀ head len, .call head len ∈ ev → ∃ h i fs, FirstHead h h ∧ Judged env.uriOk h (.serve i head.method head.uri fs len) ∧ MapOf head.headers fs := by
  induction it with
  | zero =>
    intro n c c' ev res h
    simp only [acceptGo, Run.ret.injEq, Prod.mk.injEq] at h
    obtain ⟨rfl, rfl, rfl⟩ := h
    simp
  | succ it ih =>
    intro n c c' ev res h
    simp only [acceptGo] at h
    obtain ⟨⟨c1, ev1, r1⟩, h1, h2⟩ := Run.bind_eq_ret.1 h
    dsimp only at h2
    have step : ∀ head len, .call head len ∈ ev1 → ∃ h i fs, FirstHead h h ∧ Judged env.uriOk h (.serve i head.method head.uri fs len) ∧ MapOf head.headers fs := by
      intro head len hm
      obtain ⟨_, hd, i, fs, hs⟩ := call_inv (acceptStep_spec hx h1) hm
      obtain ⟨_, a, b⟩ := hs.firstHead
      exact ⟨hd, i, fs, ⟨List.prefix_rfl, a, b⟩, hs.judged, hs.headers⟩
    cases r1 with
    | some r =>
      simp only [Run.ret.injEq, Prod.mk.injEq] at h2
      obtain ⟨rfl, rfl, rfl⟩ := h2
      exact step
    | none =>
      obtain ⟨⟨c2, ev2, r2⟩, h3, h4⟩ := Run.bind_eq_ret.1 h2
      simp only [Run.ret.injEq, Prod.mk.injEq] at h4
      obtain ⟨rfl, rfl, rfl⟩ := h4
      intro head len hm
      rcases List.mem_append.1 hm with hm | hm
      · exact step head len hm
      · exact ih h3 head len hm

end

end Tophat
