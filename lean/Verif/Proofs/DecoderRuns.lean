import Verif.Proofs.DecoderFit
import Verif.Spec.Reads
/-! Runs of the decoder: any number of polls. -/

set_option linter.unusedSectionVars false

namespace Tophat
open Tophat.Spec Tophat.Httparse

theorem received_append (a b : List RPoll) : received (a ++ b) = received a ++ received b := by
  induction a with
  | nil => rfl
  | cons p a ih => cases p <;> simp [received, ih]

namespace Dec

variable {ρ : Type} [AsyncRead ρ] [LawfulRead ρ]

/-- Outcome of a sequence of polls. -/
inductive RunOut (g : G) (m n : Nat) : ChunkedDecoder ρ → List RPoll → Prop
  | going {d' ps} : Steps g (received ps) (abs d') → DecInv d' → (∀ e, .err e ∉ ps) → ps.length = n →
      (SawEof ps → d'.state = .done) →
      (¬ SawEof ps → n + meas d'.inner ≤ (received ps).length + m) → RunOut g m n d' ps
  | failed {d' qs e g'} : Steps g (received qs) g' → Fails g' e → d'.sent = g'.sent → (∀ e, .err e ∉ qs) →
      (SawEof qs → g'.st = .done) → (¬ SawEof qs → g'.st = .done → g.st = .done) →
      RunOut g m n d' (qs ++ [.err e])

theorem polls_spec (ks : List Nat) : ∀ (d : ChunkedDecoder ρ), (∀ k ∈ ks, 0 < k) → DecInv d →
    ∃ d' ps, polls d ks = .ret (d', ps) ∧ RunOut (abs d) (meas d.inner) ks.length d' ps := by
  induction ks with
  | nil =>
    intro d _ hd
    exact ⟨d, [], rfl, .going .refl hd (by simp) rfl (by simp [SawEof]) (by simp [received])⟩
  | cons k ks ih =>
    intro d hk hd
    obtain ⟨d1, p, hp, ho⟩ := poll_spec d k (hk k (by simp)) hd
    simp only [polls, hp, Run.ret_bind]
    have hk' : ∀ k ∈ ks, 0 < k := fun k h => hk k (by simp [h])
    cases ho with
    | err h1 h2 h3 h4 => exact ⟨_, _, rfl, .failed (qs := []) h1 h2 h3 (by simp) (by simp [SawEof]) (fun _ => h4)⟩
    | pending h1 h2 h3 hpd =>
      obtain ⟨d2, ps, hp2, ho2⟩ := ih d1 hk' h2
      simp only [hp2, Run.ret_bind]
      refine ⟨_, _, rfl, ?_⟩
      have hsaw : ∀ qs, SawEof (.pending :: qs) ↔ SawEof qs := by simp [SawEof]
      cases ho2 with
      | going g1 g2 g3 g4 g5 g6 =>
        refine .going ?_ g2 (by simpa using g3) (by simp [g4]) ?_ ?_
        · have := h1.trans g1; simpa [received] using this
        · rw [hsaw]; exact g5
        · rw [hsaw]; intro h; have := g6 h; simp only [received, List.length_cons]; omega
      | failed g1 g2 g3 g4 g5 g6 =>
        refine .failed (qs := .pending :: _) ?_ g2 g3 (by simpa using g4) ?_ ?_
        · have := h1.trans g1; simpa [received] using this
        · rw [hsaw]; exact g5
        · rw [hsaw]; intro h hd
          exact hpd (g6 h hd)
    | data h1 h2 h3 h4 h5 =>
      rename_i bs
      obtain ⟨d2, ps, hp2, ho2⟩ := ih d1 hk' h2
      simp only [hp2, Run.ret_bind]
      refine ⟨_, _, rfl, ?_⟩
      have hsaw : ∀ qs, SawEof (.data bs :: qs) ↔ bs = [] ∨ SawEof qs := by
        intro qs; simp only [SawEof, List.mem_cons, RPoll.data.injEq]
        constructor
        · rintro (h | h)
          · exact .inl h.symm
          · exact .inr h
        · rintro (h | h)
          · exact .inl h.symm
          · exact .inr h
      cases ho2 with
      | going g1 g2 g3 g4 g5 g6 =>
        refine .going ?_ g2 (by simpa using g3) (by simp [g4]) ?_ ?_
        · have := h1.trans g1; simpa [received] using this
        · rw [hsaw]
          rintro (h | h)
          · exact (done_steps g1 (h5.1 h)).2
          · exact g5 h
        · rw [hsaw]; intro h
          have hbs : bs ≠ [] := fun hb => h (.inl hb)
          have := g6 (fun hs => h (.inr hs))
          have := List.length_pos_iff.2 hbs
          simp only [received, List.length_cons, List.length_append]; omega
      | failed g1 g2 g3 g4 g5 g6 =>
        refine .failed (qs := .data bs :: _) ?_ g2 g3 (by simpa using g4) ?_ ?_
        · have := h1.trans g1; simpa [received] using this
        · rw [hsaw]
          rintro (h | h)
          · exact (done_steps g1 (h5.1 h)).2
          · exact g5 h
        · rw [hsaw]; intro h hd
          have := g6 (fun hs => h (.inr hs)) hd
          exact absurd (h5.2 this) (fun hb => h (.inl hb))

end Dec
end Tophat
