import Verif.Spec.Head
import Verif.Proofs.Http
/-! Helper lemmas: the lines of a response head. -/

namespace Tophat
open Spec

theorem lines_ne_nil (bs : Bytes) : lines bs ≠ [] := by
  fun_induction lines bs <;> simp

theorem lines_cons_of_ne {b : UInt8} (hb : b ≠ 13) (rest : Bytes) :
    lines (b :: rest) = (b :: (lines rest).headD []) :: (lines rest).tail := by
  rw [lines]
  · cases h : lines rest with
    | nil => exact absurd h (lines_ne_nil rest)
    | cons l ls => rfl
  · intro _ h; exact absurd h hb

theorem lines_append (l rest : Bytes) (h : (13 : UInt8) ∉ l) : lines (l ++ 13 :: 10 :: rest) = l :: lines rest := by
  induction l with
  | nil => simp [lines]
  | cons b l ih =>
    simp only [List.mem_cons, not_or] at h
    rw [List.cons_append, lines_cons_of_ne (fun e => h.1 e.symm), ih h.2]
    rfl

theorem lines_renderFields (fs : List (Bytes × Bytes)) (rest : Bytes)
    (h : ∀ f ∈ fs, (13 : UInt8) ∉ f.1 ∧ (13 : UInt8) ∉ f.2) :
    lines (renderFields fs ++ rest) = fs.map (fun f => f.1 ++ [58, 32] ++ f.2) ++ lines rest := by
  induction fs with
  | nil => simp [renderFields]
  | cons f fs ih =>
    have hf := h f (by simp)
    have ih := ih (fun g hg => h g (by simp [hg]))
    have : renderFields (f :: fs) ++ rest = (f.1 ++ [58, 32] ++ f.2) ++ 13 :: 10 :: (renderFields fs ++ rest) := by
      simp [renderFields]
    rw [this, lines_append _ _ (by simp [hf]), ih]
    rfl

theorem decimal_digit (n : Nat) : ∀ b ∈ decimal n, 48 ≤ b.toNat ∧ b.toNat ≤ 57 := by
  induction n using Nat.strongRecOn with
  | ind n ih =>
    rw [decimal_eq]
    have hd : ∀ k, k < 10 → 48 ≤ (UInt8.ofNat (48 + k)).toNat ∧ (UInt8.ofNat (48 + k)).toNat ≤ 57 := by
      intro k hk
      rw [UInt8.toNat_ofNat']
      omega
    split
    · intro b hb
      simp only [List.mem_singleton] at hb
      subst hb
      exact hd n (by omega)
    · intro b hb
      rcases List.mem_append.1 hb with hb | hb
      · exact ih (n / 10) (by omega) b hb
      · simp only [List.mem_singleton] at hb
        subst hb
        exact hd _ (Nat.mod_lt _ (by omega))

theorem decimal_not_mem {n : Nat} {b : UInt8} (hb : ¬ (48 ≤ b.toNat ∧ b.toNat ≤ 57)) : b ∉ decimal n :=
  fun h => hb (decimal_digit n b h)

theorem canonicalReason_no_cr (s : StatusCode) : ∀ r, canonicalReason s = some r → (13 : UInt8) ∉ r := by
  intro r hr
  unfold canonicalReason at hr
  split at hr <;> first | (cases hr; decide) | cases hr

theorem statusLine_no_cr (v : Version) (s : StatusCode) : (13 : UInt8) ∉ v.debug ++ [32] ++ statusDisplay s := by
  have h1 : (13 : UInt8) ∉ v.debug := by cases v <;> decide
  have h2 : (13 : UInt8) ∉ decimal s := decimal_not_mem (by decide)
  have h3 : (13 : UInt8) ∉ (canonicalReason s).getD (ascii "<unknown status code>") := by
    cases h : canonicalReason s with
    | none => simp only [Option.getD_none]; decide
    | some r => exact canonicalReason_no_cr s r h
  simp only [statusDisplay, List.mem_append, not_or]
  exact ⟨⟨h1, by decide⟩, ⟨h2, by decide⟩, h3⟩

theorem lines_renderResponseHead (v : Version) (s : StatusCode) (fs : List (Bytes × Bytes))
    (h : ∀ f ∈ fs, (13 : UInt8) ∉ f.1 ∧ (13 : UInt8) ∉ f.2) :
    lines (renderResponseHead v s fs) =
      (v.debug ++ [32] ++ statusDisplay s) :: fs.map (fun f => f.1 ++ [58, 32] ++ f.2) ++ [[], []] := by
  have : renderResponseHead v s fs =
      (v.debug ++ [32] ++ statusDisplay s) ++ 13 :: 10 :: (renderFields fs ++ [13, 10]) := by
    simp [renderResponseHead]
  rw [this, lines_append _ _ (statusLine_no_cr v s), lines_renderFields fs _ h]
  simp [lines]

theorem headerLines_renderResponseHead (v : Version) (s : StatusCode) (fs : List (Bytes × Bytes))
    (h : ∀ f ∈ fs, (13 : UInt8) ∉ f.1 ∧ (13 : UInt8) ∉ f.2) :
    headerLines (renderResponseHead v s fs) = fs.map (fun f => f.1 ++ [58, 32] ++ f.2) := by
  rw [headerLines, lines_renderResponseHead v s fs h]
  simp only [List.cons_append, List.tail_cons]
  rw [List.takeWhile_append_of_pos]
  · simp
  · intro l hl
    simp only [List.mem_map] at hl
    obtain ⟨f, _, rfl⟩ := hl
    simp

theorem isToken_ne {b : UInt8} (h : isTokenByte b = true) : b ≠ 13 ∧ b ≠ 10 ∧ b ≠ 58 ∧ b ≠ 32 ∧ b ≠ 9 := by
  refine ⟨?_, ?_, ?_, ?_, ?_⟩ <;> rintro rfl <;> revert h <;> decide

theorem headerName_token {n m : Bytes} (h : headerNameFromBytes n = some m) : n ≠ [] ∧ (∀ b ∈ n, isTokenByte b = true) ∧ m = lower n := by
  simp only [headerNameFromBytes] at h
  split at h
  · rename_i h1
    exact ⟨h1.1, by simpa using h1.2, by simpa using h.symm⟩
  · simp at h

theorem headerValue_byte {n m : Bytes} (h : headerValueFromBytes n = some m) : (∀ b ∈ n, headerValueByte b = true) ∧ m = n := by
  simp only [headerValueFromBytes] at h
  split at h
  · rename_i h1
    exact ⟨by simpa using h1, by simpa using h.symm⟩
  · simp at h

theorem fieldName_line {n v : Bytes} (h : (58 : UInt8) ∉ n) : fieldName (n ++ [58, 32] ++ v) = lower n := by
  unfold fieldName
  congr 1
  rw [List.append_assoc, List.takeWhile_append_of_pos]
  · simp
  · intro b hb
    simp only [ne_eq, decide_eq_true_eq]
    rintro rfl
    exact h hb

/-- Conditions on the application's headers under which every line of the head is what it says. -/
theorem sentFields_clean {hs : HeaderMap} {len : Option Nat} {now : Bytes} (hv : hs.Valid) (hn : (13 : UInt8) ∉ now) :
    ∀ f ∈ sentFields hs len now, ((13 : UInt8) ∉ f.1 ∧ (13 : UInt8) ∉ f.2) ∧ (58 : UInt8) ∉ f.1 ∧ lower f.1 = f.1 := by
  intro f hf
  simp only [sentFields, List.mem_append, List.mem_singleton] at hf
  rcases hf with ((rfl | hf) | hf) | hf
  · cases len with
    | none => simp only [framingField]; decide
    | some n => exact ⟨⟨by simp only [framingField]; decide, decimal_not_mem (by decide)⟩, by simp only [framingField]; decide⟩
  · split at hf
    · simp only [List.mem_singleton] at hf
      subst hf
      exact ⟨⟨by simp only []; decide, hn⟩, by simp only []; decide⟩
    · simp at hf
  · have hf := (List.mem_filter.1 hf).1
    obtain ⟨h1, h2, h3⟩ := headerName_token (hv.names f hf)
    obtain ⟨h4, h5⟩ := headerValue_byte (hv.values f hf)
    refine ⟨⟨fun h => (isToken_ne (h2 _ h)).1 rfl, fun h => ?_⟩, fun h => (isToken_ne (h2 _ h)).2.2.1 rfl, h3.symm⟩
    have := h4 _ h
    revert this
    decide
  · split at hf
    · simp only [List.mem_singleton] at hf
      subst hf
      decide
    · simp at hf

end Tophat
