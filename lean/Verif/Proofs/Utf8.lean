import Verif.Model.Body
import Verif.Spec.Utf8
/-! The validation of UTF-8 accepts exactly the encodings of texts. -/

namespace Tophat
open Spec

theorem byte_eq {x : Nat} {a : UInt8} (h : x = a.toNat) : UInt8.ofNat x = a := by
  subst h; simp

theorem byte_toNat {x : Nat} (h : x < 256) : (UInt8.ofNat x).toNat = x := by
  simp only [UInt8.toNat_ofNat']; omega

theorem utf8_scalar {n : Nat} (h : Scalar n) (r : Bytes) : utf8Valid (encodeScalar n ++ r) = utf8Valid r := by
  unfold Scalar at h
  unfold encodeScalar
  split
  · rename_i h1
    rw [List.cons_append, List.nil_append, utf8Valid.eq_def]
    dsimp only
    rw [byte_toNat (by omega), if_pos h1]
  · split
    · rw [List.cons_append, List.cons_append, List.nil_append, utf8Valid.eq_def]
      dsimp only
      rw [byte_toNat (by omega), byte_toNat (by omega), if_neg (by omega), if_pos (by omega), decide_eq_true (by omega)]
      rfl
    · split
      · rw [List.cons_append, List.cons_append, List.cons_append, List.nil_append, utf8Valid.eq_def]
        dsimp only
        rw [byte_toNat (by omega), byte_toNat (by omega), byte_toNat (by omega), if_neg (by omega), if_neg (by omega), if_pos (by omega), decide_eq_true (by constructor <;> split <;> omega),
          decide_eq_true (by omega)]
        rfl
      · rw [List.cons_append, List.cons_append, List.cons_append, List.cons_append, List.nil_append, utf8Valid.eq_def]
        dsimp only
        rw [byte_toNat (by omega), byte_toNat (by omega), byte_toNat (by omega), byte_toNat (by omega), if_neg (by omega), if_neg (by omega), if_neg (by omega), if_pos (by omega),
          decide_eq_true (by constructor <;> split <;> omega), decide_eq_true (by omega), decide_eq_true (by omega)]
        rfl

theorem utf8_step {a : UInt8} {r : Bytes} (h : utf8Valid (a :: r) = true) : ∃ n s, Scalar n ∧ a :: r = encodeScalar n ++ s ∧ utf8Valid s = true := by
  rw [utf8Valid.eq_def] at h
  dsimp only at h
  split at h
  · rename_i h1
    exact ⟨a.toNat, r, .inl (by omega), by unfold encodeScalar; rw [if_pos h1, byte_eq rfl]; rfl, h⟩
  · split at h
    · split at h
      · rename_i b r
        simp only [Bool.and_eq_true, decide_eq_true_eq] at h
        refine ⟨(a.toNat - 0xC0) * 64 + (b.toNat - 0x80), r, .inl (by omega), ?_, h.2⟩
        unfold encodeScalar
        rw [if_neg (by omega), if_pos (by omega), byte_eq (a := a) (by omega), byte_eq (a := b) (by omega)]
        rfl
      · cases h
    · split at h
      · split at h
        · rename_i b c r
          simp only [Bool.and_eq_true, decide_eq_true_eq] at h
          have h1 := h.1.1
          have h2 := h.1.2
          refine ⟨(a.toNat - 0xE0) * 4096 + (b.toNat - 0x80) * 64 + (c.toNat - 0x80), r, ?_, ?_, h.2⟩
          · unfold Scalar
            split at h1 <;> split at h1 <;> omega
          · unfold encodeScalar
            rw [if_neg (by split at h1 <;> omega), if_neg (by split at h1 <;> split at h1 <;> omega), if_pos (by split at h1 <;> split at h1 <;> omega),
              byte_eq (a := a) (by split at h1 <;> split at h1 <;> omega), byte_eq (a := b) (by split at h1 <;> split at h1 <;> omega),
              byte_eq (a := c) (by split at h1 <;> split at h1 <;> omega)]
            rfl
        · cases h
      · split at h
        · split at h
          · rename_i b c d r
            simp only [Bool.and_eq_true, decide_eq_true_eq] at h
            have h1 := h.1.1.1
            have h2 := h.1.1.2
            have h3 := h.1.2
            refine ⟨(a.toNat - 0xF0) * 262144 + (b.toNat - 0x80) * 4096 + (c.toNat - 0x80) * 64 + (d.toNat - 0x80), r, ?_, ?_, h.2⟩
            · unfold Scalar
              split at h1 <;> split at h1 <;> omega
            · unfold encodeScalar
              rw [if_neg (by split at h1 <;> split at h1 <;> omega), if_neg (by split at h1 <;> split at h1 <;> omega), if_neg (by split at h1 <;> split at h1 <;> omega),
                byte_eq (a := a) (by split at h1 <;> split at h1 <;> omega), byte_eq (a := b) (by split at h1 <;> split at h1 <;> omega),
                byte_eq (a := c) (by split at h1 <;> split at h1 <;> omega), byte_eq (a := d) (by split at h1 <;> split at h1 <;> omega)]
              rfl
          · cases h
        · cases h

theorem encodeScalar_ne (n : Nat) : encodeScalar n ≠ [] := by
  unfold encodeScalar
  split
  · simp
  · split
    · simp
    · split <;> simp

theorem utf8Valid_iff (bs : Bytes) : utf8Valid bs = true ↔ IsUtf8 bs := by
  constructor
  · generalize hn : bs.length = n
    induction n using Nat.strongRecOn generalizing bs with
    | ind n ih =>
      intro h
      cases bs with
      | nil => exact ⟨[], by simp, rfl⟩
      | cons a r =>
        obtain ⟨c, s, h1, h2, h3⟩ := utf8_step h
        have hlt : s.length < n := by
          have := congrArg List.length h2
          have := List.length_pos_iff.2 (encodeScalar_ne c)
          simp only [List.length_append, List.length_cons] at *
          omega
        obtain ⟨cs, g1, g2⟩ := ih s.length hlt s rfl h3
        refine ⟨c :: cs, ?_, ?_⟩
        · intro x hx
          rcases List.mem_cons.1 hx with rfl | hx
          · exact h1
          · exact g1 x hx
        · rw [h2, g2]; rfl
  · rintro ⟨cs, h1, rfl⟩
    induction cs with
    | nil => rfl
    | cons c cs ih =>
      have : encodeText (c :: cs) = encodeScalar c ++ encodeText cs := rfl
      rw [this, utf8_scalar (h1 c List.mem_cons_self)]
      exact ih fun x hx => h1 x (List.mem_cons_of_mem _ hx)

end Tophat
