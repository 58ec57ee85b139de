import Verif.Proofs.Basic
import Verif.Spec.Chunked
/-! Helper lemmas: the chunked grammar is unambiguous. -/

namespace Tophat.Spec


theorem hexFold_none (bs : Bytes) :
    bs.foldl (fun (acc : Option Nat) c => acc.bind fun a => (hexVal c).map fun v => 16 * a + v) none = none := by
  induction bs with
  | nil => rfl
  | cons b bs ih => simpa using ih

theorem hexFold_mem {bs : Bytes} {c : UInt8} (hc : c ∈ bs) (hv : hexVal c = none) :
    ∀ a, bs.foldl (fun (acc : Option Nat) c => acc.bind fun a => (hexVal c).map fun v => 16 * a + v) a = none := by
  induction bs with
  | nil => simp at hc
  | cons b bs ih =>
    intro a
    rw [List.foldl_cons]
    rcases List.mem_cons.1 hc with rfl | hc
    · cases a <;> simp [hv, hexFold_none]
    · exact ih hc _

theorem ChunkSize.no_cr {h : Bytes} {n : Nat} (hs : ChunkSize h n) : (13 : UInt8) ∉ h := by
  intro hm
  have := hexFold_mem hm (by decide) (some 0)
  have h2 := hs.2.1
  rw [hexNum, this] at h2
  cases h2

/-- A size line determines its digits and what follows. -/
theorem ChunkSize.line_inj {h h' x x' : Bytes} {n n' : Nat} (hs : ChunkSize h n) (hs' : ChunkSize h' n')
    (he : h ++ 13 :: x = h' ++ 13 :: x') : h = h' ∧ n = n' ∧ x = x' := by
  have key : ∀ (a b : Bytes), (13 : UInt8) ∉ a → (13 : UInt8) ∉ b → a ++ 13 :: x = b ++ 13 :: x' → a = b ∧ x = x' := by
    intro a
    induction a with
    | nil =>
      intro b _ hb h
      cases b with
      | nil => simpa using h
      | cons c b => simp at h hb; exact absurd h.1 hb.1
    | cons c a ih =>
      intro b ha hb h
      cases b with
      | nil => simp at h ha; exact absurd h.1.symm ha.1
      | cons d b =>
        simp only [List.cons_append, List.cons.injEq] at h
        simp only [List.mem_cons, not_or] at ha hb
        have := ih b ha.2 hb.2 h.2
        exact ⟨by rw [h.1, this.1], this.2⟩
  obtain ⟨h1, h2⟩ := key h h' hs.no_cr hs'.no_cr he
  subst h1
  have := hs.2.1.symm.trans hs'.2.1
  exact ⟨rfl, by simpa using this, h2⟩

/-- No whole-chunk sequence begins with a complete message. -/
theorem Chunks.no_terminator {w p : Bytes} (hc : Chunks w p) :
    ∀ {m q x : Bytes}, ChunkedMessage m q → w ≠ m ++ x := by
  induction hc with
  | nil =>
    rintro m q x ⟨w', _, rfl⟩ he
    simp at he
  | @cons h d w p hs hd hc ih =>
    rintro m q x ⟨w', hw', rfl⟩ he
    cases hw' with
    | nil =>
      have h0 : ChunkSize [48] 0 := ⟨by simp, by decide, by simp⟩
      have := hs.line_inj h0 (x := 10 :: (d ++ [13, 10] ++ w)) (x' := [10, 13, 10] ++ x) (by simpa using he)
      exact hd (by simpa using this.2.1)
    | @cons h' d' w' p' hs' hd' hw' =>
      have := hs.line_inj hs' (x := 10 :: (d ++ [13, 10] ++ w))
        (x' := 10 :: (d' ++ [13, 10] ++ (w' ++ [48, 13, 10, 13, 10] ++ x))) (by simpa using he)
      obtain ⟨_, h2, h3⟩ := this
      simp only [List.cons.injEq, true_and, List.append_assoc] at h3
      obtain ⟨_, h4⟩ := List.append_inj h3 h2
      simp only [List.cons_append, List.nil_append, List.cons.injEq, true_and] at h4
      exact ih ⟨w', hw', rfl⟩ (x := x) (by simpa using h4)

/-- Two complete messages at the start of the same bytes are the same message. -/
theorem ChunkedMessage.unique {m m' p p' x x' : Bytes} (h : ChunkedMessage m p) (h' : ChunkedMessage m' p')
    (he : m ++ x = m' ++ x') : m = m' ∧ p = p' ∧ x = x' := by
  obtain ⟨w, hw, rfl⟩ := h
  obtain ⟨w', hw', rfl⟩ := h'
  have h0 : ChunkSize [48] 0 := ⟨by simp, by decide, by simp⟩
  suffices w = w' ∧ p = p' by
    obtain ⟨rfl, rfl⟩ := this
    exact ⟨rfl, rfl, by simpa using he⟩
  induction hw generalizing w' p' with
  | nil =>
    cases hw' with
    | nil => exact ⟨rfl, rfl⟩
    | @cons h d w p hs hd hc =>
      have := h0.line_inj hs (x := [10, 13, 10] ++ x) (x' := 10 :: (d ++ [13, 10] ++ (w ++ [48, 13, 10, 13, 10] ++ x')))
        (by simpa using he)
      exact absurd this.2.1.symm (by simpa using hd)
  | @cons h d w p hs hd hc ih =>
    cases hw' with
    | nil =>
      have := hs.line_inj h0 (x := 10 :: (d ++ [13, 10] ++ (w ++ [48, 13, 10, 13, 10] ++ x))) (x' := [10, 13, 10] ++ x')
        (by simpa using he)
      exact absurd this.2.1 (by simpa using hd)
    | @cons h' d' w' p' hs' hd' hc' =>
      have := hs.line_inj hs' (x := 10 :: (d ++ [13, 10] ++ (w ++ [48, 13, 10, 13, 10] ++ x)))
        (x' := 10 :: (d' ++ [13, 10] ++ (w' ++ [48, 13, 10, 13, 10] ++ x'))) (by simpa using he)
      obtain ⟨h1, h2, h3⟩ := this
      simp only [List.cons.injEq, true_and, List.append_assoc] at h3
      obtain ⟨h5, h4⟩ := List.append_inj h3 h2
      simp only [List.cons_append, List.nil_append, List.cons.injEq, true_and] at h4
      obtain ⟨g1, g2⟩ := ih w' hc' (by simpa using h4)
      subst h1 h5 g1 g2
      exact ⟨rfl, rfl⟩

end Tophat.Spec
