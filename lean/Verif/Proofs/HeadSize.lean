import Verif.Props.Limits
/-! Helper lemmas: how long a head is. -/

set_option linter.unusedSectionVars false

namespace Tophat
open Spec

theorem renderFields_filter (p : Bytes × Bytes → Bool) (l : List (Bytes × Bytes)) : (renderFields (l.filter p)).length ≤ (renderFields l).length := by
  induction l with
  | nil => simp
  | cons f l ih =>
    rw [List.filter_cons]
    split <;> simp only [renderFields, List.flatMap_cons, List.length_append] at ih ⊢ <;> omega

theorem insert_size (m : HeaderMap) (k v : Bytes) :
    (m.insert k v).iter.length ≤ m.iter.length + 1 ∧ (renderFields (m.insert k v).iter).length ≤ (renderFields m.iter).length + (k.length + v.length + 4) := by
  induction m with
  | nil => simp [HeaderMap.insert, HeaderMap.iter, renderFields]; omega
  | cons e m ih =>
    obtain ⟨k', vs⟩ := e
    unfold HeaderMap.insert
    split
    · rename_i h
      subst h
      have one : (renderFields [(k', v)]).length = k'.length + v.length + 4 := by simp [renderFields]; omega
      simp only [HeaderMap.iter, List.flatMap_cons, renderFields_append, List.length_append, List.map_cons, List.map_nil, List.length_cons, List.length_nil, List.length_map, one]
      omega
    · simp only [HeaderMap.iter, List.flatMap_cons, renderFields_append, List.length_append, List.length_map] at ih ⊢
      omega

theorem decimal_length_le (k : Nat) : ∀ {n : Nat}, 0 < k → n < 10 ^ k → (decimal n).length ≤ k := by
  induction k with
  | zero => intro n h; omega
  | succ k ih =>
    intro n _ hn
    rw [decimal_eq]
    split
    · simp
    · rename_i h10
      rw [List.length_append]
      by_cases hk : k = 0
      · subst hk; omega
      · have := ih (n := n / 10) (by omega) (by rw [Nat.pow_succ] at hn; omega)
        simp; omega

theorem reason_length (s : StatusCode) : ((canonicalReason s).getD (ascii "<unknown status code>")).length ≤ 40 := by
  cases h : canonicalReason s with
  | none => decide
  | some r =>
    show r.length ≤ 40
    unfold canonicalReason at h
    split at h <;> first | (cases h; decide) | cases h

theorem sentFields_size (hs : HeaderMap) {n : Nat} (hn : n < 2 ^ 64) (now : Bytes) :
    (sentFields hs (some n) now).length ≤ hs.iter.length + 3 ∧ (renderFields (sentFields hs (some n) now)).length ≤ (renderFields hs.iter).length + now.length + 90 := by
  unfold sentFields
  simp only [renderFields_append, List.length_append]
  have h1 : (renderFields [framingField (some n)]).length ≤ 38 := by
    have := decimal_length_le 20 (n := n) (by decide) (by omega)
    simp only [framingField, renderFields, List.flatMap_cons, List.flatMap_nil, List.append_nil, List.length_append]
    have e : (ascii "content-length").length = 14 := by decide
    rw [e]; simp; omega
  have h2 : (if (hs.getAll (ascii "date")).isEmpty = true then [(ascii "date", now)] else []).length ≤ 1 ∧
      (renderFields (if (hs.getAll (ascii "date")).isEmpty = true then [(ascii "date", now)] else [])).length ≤ now.length + 8 := by
    split
    · have e : (ascii "date").length = 4 := by decide
      simp [renderFields, e]; omega
    · simp [renderFields]
  have h3 := renderFields_filter (fun f => decide (f.1 ≠ ascii "content-length" ∧ f.1 ≠ ascii "transfer-encoding")) hs.iter
  have h3' := List.length_filter_le (fun f : Bytes × Bytes => decide (f.1 ≠ ascii "content-length" ∧ f.1 ≠ ascii "transfer-encoding")) hs.iter
  have h4 : (if some n ≠ some 0 ∧ (hs.getAll (ascii "content-type")).isEmpty = true then [(ascii "content-type", ascii "application/octet-stream")] else []).length ≤ 1 ∧
      (renderFields (if some n ≠ some 0 ∧ (hs.getAll (ascii "content-type")).isEmpty = true then [(ascii "content-type", ascii "application/octet-stream")] else [])).length ≤ 40 := by
    split <;> decide
  simp only [List.length_cons, List.length_nil]
  omega

section
variable {σ : Type} [AsyncBufRead σ] [LawfulBufRead σ]

/-- A head is small if the header fields are. -/
theorem headOf_size {resp : InnerResponse σ} {n : Nat} (hl : resp.length = some n) (hn : n < 2 ^ 64) (hv : resp.version = .http11) (hs : 100 ≤ resp.status ∧ resp.status < 1000) (now : Bytes) :
    (headOf resp now).length ≤ (renderFields resp.headers.iter).length + now.length + 150 := by
  unfold headOf responseHead renderResponseHead statusDisplay
  rw [hl, hv]
  have h1 := (sentFields_size resp.headers hn now).2
  have h2 := reason_length resp.status
  have h3 := decimal_three hs.1 hs.2
  have h4 : Version.http11.debug.length = 8 := by decide
  simp only [List.length_append, h3, h4, List.length_cons, List.length_nil]
  omega

end

end Tophat
