import Verif.Model.Basic
import Verif.Spec.Chunked
/-! Helper lemmas about the basic vocabulary. -/

namespace Tophat

theorem writeAt_ok {buf bs : Bytes} {off : Nat} (h : off + bs.length ≤ buf.length) :
    ∃ buf', writeAt buf off bs = .ret buf' ∧ buf'.length = buf.length ∧
      buf'.take (off + bs.length) = buf.take off ++ bs := by
  refine ⟨buf.take off ++ bs ++ buf.drop (off + bs.length), by simp only [writeAt, h, if_true], ?_, ?_⟩
  · simp; omega
  · rw [List.take_append_of_le_length (by simp; omega), List.take_of_length_le (by simp; omega)]

theorem writeAt_panic {buf bs : Bytes} {off : Nat} (h : ¬ off + bs.length ≤ buf.length) :
    writeAt buf off bs = .panic := by simp only [writeAt, h, if_false]

theorem hexUpper_ne_nil (n : Nat) : hexUpper n ≠ [] := by
  rw [hexUpper_eq]; split <;> simp

theorem hexVal_hexDigit : ∀ d : Nat, d < 16 → Spec.hexVal (hexDigit d) = some d := by decide

theorem hexNum_hexUpper (n : Nat) : Spec.hexNum (hexUpper n) = some n := by
  induction n using Nat.strongRecOn with
  | ind n ih =>
    rw [hexUpper_eq]
    split
    · rename_i h; simp [Spec.hexNum, hexVal_hexDigit n h]
    · rename_i h
      have := ih (n / 16) (by omega)
      simp only [Spec.hexNum] at this ⊢
      rw [List.foldl_append, this]
      simp [hexVal_hexDigit (n % 16) (by omega)]
      omega

theorem hexDigit_zero : ∀ d : Nat, d < 16 → hexDigit d = 48 → d = 0 := by decide

theorem hexUpper_head (n : Nat) (h : (hexUpper n).head? = some 48) : hexUpper n = [48] := by
  have h0 : n = 0 := by
    induction n using Nat.strongRecOn with
    | ind n ih =>
      rw [hexUpper_eq] at h
      split at h
      · rename_i hn; exact hexDigit_zero n hn (by simpa using h)
      · rename_i hn
        have hne := hexUpper_ne_nil (n / 16)
        rw [List.head?_append, Option.or_of_isSome (by simpa using hne)] at h
        have := ih (n / 16) (by omega) h
        omega
  subst h0
  rfl

theorem hexUpper_length_mono {m n : Nat} (h : m ≤ n) :
    (hexUpper m).length ≤ (hexUpper n).length := by
  induction n using Nat.strongRecOn generalizing m with
  | ind n ih =>
    rw [hexUpper_eq m, hexUpper_eq n]
    split <;> split
    · simp
    · simp
    · omega
    · have := @ih (n / 16) (by omega) (m / 16) (by omega)
      simpa using this

end Tophat
