import Verif.Proofs.DecoderSteps
/-! What the decoder has consumed and handed out, as an invariant of its transition system. -/

namespace Tophat
open Tophat.Spec Tophat.Httparse

namespace Spec

theorem Frames.snoc {w p l d : Bytes} (h : Frames w p) (hl : SizeLine l d.length) (hd : d ≠ []) :
    Frames (w ++ (l ++ (d ++ [13, 10]))) (p ++ d) := by
  induction h with
  | nil => have := Frames.cons hl hd .nil; simpa using this
  | cons hl' hd' _ ih => have := Frames.cons hl' hd' ih; simpa using this

theorem Frames.append {w p w' p' : Bytes} (h : Frames w p) (h' : Frames w' p') : Frames (w ++ w') (p ++ p') := by
  induction h with
  | nil => simpa using h'
  | cons hl' hd' _ ih => have := Frames.cons hl' hd' ih; simpa using this

theorem Carries.mono {s s' d : Bytes} (h : Carries s d) (hp : s <+: s') : Carries s' d := by
  obtain ⟨w, p, hf, h⟩ := h
  refine ⟨w, p, hf, ?_⟩
  rcases h with ⟨h1, h2⟩ | ⟨l, n, x, h1, h2, h3, h4⟩
  · exact .inl ⟨h1.trans hp, h2⟩
  · exact .inr ⟨l, n, x, h1, h2, h3.trans hp, h4⟩

end Spec

namespace Dec

/-- Relation between the state, the consumed bytes `c`, the bytes `D` handed out and the trailers sent. -/
def StRel (st : DState) (c D : Bytes) (sent : List HeaderMap) : Prop :=
  match st with
  | .init => Frames c D ∧ sent = []
  | .chunk cur len => ∃ w p l x, Frames w p ∧ SizeLine l len ∧ c = w ++ (l ++ x) ∧ x.length = cur ∧ cur < len ∧
      D = p ++ x ∧ sent = []
  | .chunkEnd => ∃ w p l x, Frames w p ∧ SizeLine l x.length ∧ c = w ++ (l ++ x) ∧ x ≠ [] ∧ D = p ++ x ∧ sent = []
  | .trailer => ∃ w l, Frames w D ∧ SizeLine l 0 ∧ c = w ++ l ∧ sent = []
  | .trailerDone h => ∃ fs, Body c D fs ∧ fs.length ≤ 16 ∧ h = fieldMap fs ∧ sent = []
  | .trailerSending h => ∃ fs, Body c D fs ∧ fs.length ≤ 16 ∧ h = fieldMap fs ∧ sent = []
  | .done => (Carries c D ∧ sent = []) ∨ ∃ fs, Body c D fs ∧ fs.length ≤ 16 ∧ sent = [fieldMap fs]

/-- The invariant: `S` is the whole byte stream. -/
def Inv (S : Bytes) (g : G) (D : Bytes) : Prop :=
  ∃ c, S = c ++ (g.win ++ g.R) ∧ StRel g.st c D g.sent

theorem body_carries {c D : Bytes} {fs : List (Bytes × Bytes)} (h : Body c D fs) : Carries c D := by
  obtain ⟨w, l, t, rfl, hf, _, _⟩ := h
  exact ⟨w, D, hf, .inl ⟨List.prefix_append _ _, rfl⟩⟩

theorem stRel_carries {st : DState} {c D : Bytes} {sent : List HeaderMap} (h : StRel st c D sent) : Carries c D := by
  cases st with
  | init => exact ⟨c, D, h.1, .inl ⟨List.prefix_refl _, rfl⟩⟩
  | chunk cur len =>
    obtain ⟨w, p, l, x, h1, h2, rfl, h4, h5, rfl, _⟩ := h
    exact ⟨w, p, h1, .inr ⟨l, len, x, h2, by omega, List.prefix_refl _, rfl⟩⟩
  | chunkEnd =>
    obtain ⟨w, p, l, x, h1, h2, rfl, h4, rfl, _⟩ := h
    exact ⟨w, p, h1, .inr ⟨l, _, x, h2, Nat.le_refl _, List.prefix_refl _, rfl⟩⟩
  | trailer =>
    obtain ⟨w, l, h1, h2, rfl, _⟩ := h
    exact ⟨w, D, h1, .inl ⟨List.prefix_append _ _, rfl⟩⟩
  | trailerDone x => obtain ⟨fs, h, _⟩ := h; exact body_carries h
  | trailerSending x => obtain ⟨fs, h, _⟩ := h; exact body_carries h
  | done =>
    rcases h with ⟨h, _⟩ | ⟨fs, h, _⟩
    · exact h
    · exact body_carries h

theorem Inv.carries {S D : Bytes} {g : G} (h : Inv S g D) : Carries S D := by
  obtain ⟨c, rfl, h⟩ := h
  exact (stRel_carries h).mono (List.prefix_append _ _)

theorem stuck_sent {st : DState} {c D w : Bytes} {sent : List HeaderMap} (h : StRel st c D sent) (hs : Stuck st w)
    (hd : st ≠ .done) : sent = [] := by
  cases st with
  | init => exact h.2
  | chunk => exact absurd hs (by simp [Stuck])
  | chunkEnd => obtain ⟨_, _, _, _, _, _, _, _, _, h⟩ := h; exact h
  | trailer => obtain ⟨_, _, _, _, _, h⟩ := h; exact h
  | trailerDone => exact absurd hs (by simp [Stuck])
  | trailerSending => exact absurd hs (by simp [Stuck])
  | done => exact absurd rfl hd

theorem chunk_rel {cur len : Nat} {c D x : Bytes} {sent : List HeaderMap} (h : StRel (.chunk cur len) c D sent)
    (hx : x ≠ []) (hl : cur + x.length ≤ len) : StRel (chunkState (cur + x.length) len) (c ++ x) (D ++ x) sent := by
  obtain ⟨w, p, l, y, h1, h2, rfl, h4, h5, rfl, h6⟩ := h
  unfold chunkState
  split
  · rename_i he
    refine ⟨w, p, l, y ++ x, h1, ?_, by simp, by simp [hx], by simp, h6⟩
    rw [List.length_append, h4, he]; exact h2
  · refine ⟨w, p, l, y ++ x, h1, h2, by simp, by simp [h4], by omega, by simp, h6⟩

theorem Inv.step {S D x : Bytes} {g g' : G} (h : Inv S g D) (ht : Trans g x g') : Inv S g' (D ++ x) := by
  obtain ⟨c, hS, hr⟩ := h
  cases ht with
  | grow c' _ _ _ _ => exact ⟨c, by simpa using hS, by simpa using hr⟩
  | refill bs R' h1 h2 h3 h4 => exact ⟨c, by rw [hS, h2]; simp, by simpa using hr⟩
  | eof h1 h2 =>
    refine ⟨c, by simpa using hS, ?_⟩
    by_cases hd : g.st = .done
    · simp only [List.append_nil]; rw [← hd]; exact hr
    · exact .inl ⟨by simpa using stRel_carries hr, stuck_sent hr h1 hd⟩
  | size l w n h1 h2 h3 =>
    rw [h1] at hr
    refine ⟨c ++ l, by rw [hS, h2]; simp, ?_⟩
    simp only [List.append_nil]
    split
    · rename_i hn; subst hn
      exact ⟨c, l, hr.1, h3, rfl, hr.2⟩
    · exact ⟨c, D, l, [], hr.1, h3, by simp, rfl, by omega, by simp, hr.2⟩
  | drain cur len x w h1 h2 h3 h4 =>
    rw [h1] at hr
    exact ⟨c ++ x, by rw [hS, h2]; simp, chunk_rel hr h3 h4⟩
  | direct cur len x R' h1 h2 h3 h4 h5 =>
    rw [h1] at hr
    exact ⟨c ++ x, by rw [hS, h2, h3]; simp, chunk_rel hr h4 h5⟩
  | cut cur len h1 h2 h3 h4 =>
    refine ⟨c, by simpa using hS, .inl ⟨by simpa using stRel_carries hr, ?_⟩⟩
    rw [h1] at hr
    obtain ⟨_, _, _, _, _, _, _, _, _, _, h⟩ := hr; exact h
  | chunkEnd w h1 h2 =>
    rw [h1] at hr
    obtain ⟨w', p, l, y, g1, g2, rfl, g4, rfl, g5⟩ := hr
    refine ⟨w' ++ (l ++ (y ++ [13, 10])), by rw [hS, h2]; simp, ?_⟩
    have := Frames.snoc g1 g2 g4
    exact ⟨by simpa using this, g5⟩
  | trailer l w fs h1 h2 h3 h4 =>
    rw [h1] at hr
    obtain ⟨w', l', g1, g2, rfl, g5⟩ := hr
    refine ⟨w' ++ (l' ++ l), by rw [hS, h2]; simp, fs, ⟨w', l', l, rfl, ?_, g2, h3⟩, h4, rfl, g5⟩
    simpa using g1
  | take m h1 =>
    rw [h1] at hr
    exact ⟨c, by simpa using hS, by simp only [List.append_nil]; exact hr⟩
  | send m h1 =>
    rw [h1] at hr
    obtain ⟨fs, g1, g2, rfl, g3⟩ := hr
    exact ⟨c, by simpa using hS, .inr ⟨fs, by simpa using g1, g2, by rw [g3]; rfl⟩⟩

theorem Inv.steps {S D x : Bytes} {g g' : G} (h : Inv S g D) (ht : Steps g x g') : Inv S g' (D ++ x) := by
  induction ht with
  | refl => simpa using h
  | tail _ ht ih => rw [← List.append_assoc]; exact ih.step ht

/-- Nothing is handed out once the state is `done`. -/
theorem done_steps {g g' : G} {x : Bytes} (h : Steps g x g') (hd : g.st = .done) : x = [] ∧ g'.st = .done := by
  induction h with
  | refl => exact ⟨rfl, hd⟩
  | tail _ ht ih =>
    obtain ⟨rfl, h2⟩ := ih
    cases ht <;> simp_all

theorem inv_new {ρ : Type} [AsyncRead ρ] [LawfulRead ρ] (inner : ρ) (pool : Pool) :
    Inv (rem inner) (abs (ChunkedDecoder.new inner pool)) [] :=
  ⟨[], by simp [abs, conf, ChunkedDecoder.new, window], .nil, rfl⟩

end Dec
end Tophat
