import Verif.Model.Gateway
import Verif.Spec.Gateway
import Verif.Proofs.Cors
import Verif.Props.Relay
import Verif.Props.Recipient
import Verif.Props.ClientDecode
import Verif.Props.ClientEncode
/-!
# Proofs about passing on a response
-/

set_option linter.unusedSectionVars false
set_option synthInstance.maxSize 1000

namespace Tophat
open Spec

/-- What has come out of the parser can be held by a header map. -/
theorem valid_of_mapOf {m : HeaderMap} {fs : List (Bytes × Bytes)} (h : MapOf m fs) (hr : RawFields fs) : m.Valid := by
  have key : ∀ f ∈ m.iter, ∃ g ∈ fs, lower g.1 = f.1 ∧ g.2 = f.2 := by
    rintro ⟨k, v⟩ hf
    have h1 := mem_iter.1 hf
    rw [h.2 k] at h1
    obtain ⟨g, hg, e⟩ := List.mem_map.1 h1
    obtain ⟨h2, h3⟩ := List.mem_filter.1 hg
    exact ⟨g, h2, by simpa using h3, e⟩
  constructor
  · intro f hf
    obtain ⟨g, hg, e, _⟩ := key f hf
    obtain ⟨r1, r2, _⟩ := hr g hg
    rw [← e]
    exact headerName_idem (headerNameFromBytes_token r1 r2)
  · intro f hf
    obtain ⟨g, hg, _, e⟩ := key f hf
    rw [← e, headerValueFromBytes_value (hr g hg).2.2]

theorem trimmed_plain {v : Bytes} (h : ∀ b, v.head? = some b → b ≠ 32 ∧ b ≠ 9) : trimmed v = v := by
  unfold trimmed
  cases v with
  | nil => rfl
  | cons b r =>
    obtain ⟨h32, h9⟩ := h b rfl
    exact List.dropWhile_cons_of_neg (by simp [h32, h9])

theorem Spec.FieldSection.trimmed {l : Bytes} {fs : List (Bytes × Bytes)} (h : FieldSection l fs) : ∀ f ∈ fs, trimmed f.2 = f.2 := by
  induction h with
  | blank => intro f hf; simp at hf
  | field hl _ ih =>
    intro f hf
    rcases List.mem_cons.1 hf with rfl | hf
    · obtain ⟨ws, e, _, _, _, _, _, h4, _⟩ := hl
      exact trimmed_plain h4
    · exact ih f hf

theorem Spec.HasReply.trimmed {h : Bytes} {v c : Nat} {fs : List (Bytes × Bytes)} (a : HasReply h v c fs) : ∀ f ∈ fs, trimmed f.2 = f.2 := by
  obtain ⟨_, _, _, ⟨_, _, _, _, _, _, _, _, _, _, _, h⟩, _⟩ := a
  exact h.trimmed

theorem map_trimmed_valuesOf {fs : List (Bytes × Bytes)} (h : ∀ f ∈ fs, trimmed f.2 = f.2) (k : Bytes) : (valuesOf k fs).map trimmed = valuesOf k fs := by
  conv => rhs; rw [← List.map_id (valuesOf k fs)]
  apply List.map_congr_left
  intro v hv
  unfold valuesOf at hv
  obtain ⟨f, hf, rfl⟩ := List.mem_map.1 hv
  exact h f (List.mem_filter.1 hf).1

theorem raw_withDate {fs : List (Bytes × Bytes)} (hr : RawFields fs) {now : Bytes} (hn : ∀ b ∈ now, valueByte b) : RawFields (withDate fs now) := by
  intro f hf
  unfold withDate at hf
  rcases List.mem_append.1 hf with hf | hf
  · exact hr f hf
  · split at hf
    · simp only [List.mem_singleton] at hf
      subst hf
      refine ⟨show ascii "date" ≠ [] by decide, ?_, hn⟩
      have : ∀ b ∈ ascii "date", isTokenByte b = true := by decide
      exact fun b hb => (Httparse.isTokenByte_iff b).1 (this b hb)
    · simp at hf

/-- The fields of the response that is passed on. -/
theorem sameFields_seen {h : Bytes} {v c : Nat} {fs : List (Bytes × Bytes)} (hh : HasReply h v c fs) {now now' : Bytes} (hn : ∀ b ∈ now, valueByte b) {hs : HeaderMap}
    (hm : MapOf hs (withDate fs now)) (k : Nat) : SameFields (trimmed now) fs (seenFields hs (some k) now') := by
  have hv := valid_of_mapOf hm (raw_withDate hh.raw hn)
  have ht := map_trimmed_valuesOf hh.trimmed
  have hdate : (hs.getAll (ascii "date")).isEmpty = false := by
    rw [hm.values]
    unfold withDate
    split
    · rw [valuesOf_snoc, if_pos (show lower (ascii "date") = ascii "date" by decide)]; simp
    · rename_i h; rw [List.append_nil]; simpa using h
  have key : ∀ x, valuesOf x (seenFields hs (some k) now') = ((if ascii "content-length" = x then [decimal k] else []) ++
      (if x ≠ ascii "content-length" ∧ x ≠ ascii "transfer-encoding" then valuesOf x (withDate fs now) else []) ++
      (if (some k ≠ some 0 ∧ (hs.getAll (ascii "content-type")).isEmpty) ∧ ascii "content-type" = x then [ascii "application/octet-stream"] else [])).map trimmed := by
    intro x
    rw [valuesOf_seen, valuesOf_sent hv, hdate, hm.values]
    simp only [framingField, Bool.false_eq_true, false_and, if_false, List.append_nil]
    congr
  constructor
  · intro x hx
    simp only [adjusted, List.mem_cons, List.not_mem_nil, or_false, not_or] at hx
    obtain ⟨h1, h2, h3, h4⟩ := hx
    rw [key, if_neg (fun e => h1 e.symm), if_pos ⟨h1, h2⟩, if_neg (fun e => h4 e.2.symm), valuesOf_withDate _ _ _ h3]
    simpa using ht x
  · rw [key, if_neg (by decide), if_pos (by decide), if_neg (fun e => absurd e.2 (by decide))]
    unfold withDate
    split
    · rename_i h
      rw [valuesOf_snoc, if_pos (show lower (ascii "date") = ascii "date" by decide), h]
      exact .inr ⟨rfl, by simp⟩
    · rw [List.append_nil, List.nil_append, List.append_nil, ht]
      exact .inl rfl
  · rw [key, if_neg (by decide), if_pos (by decide), valuesOf_withDate _ _ _ (by decide)]
    have e : hs.getAll (ascii "content-type") = valuesOf (ascii "content-type") fs := by rw [hm.values, valuesOf_withDate _ _ _ (by decide)]
    rw [e]
    by_cases h : valuesOf (ascii "content-type") fs = []
    · rw [h]
      split
      · exact .inr ⟨rfl, by decide⟩
      · exact .inl rfl
    · rw [if_neg (by intro x; exact h (by simpa using x.1.2))]
      simp only [List.nil_append, List.append_nil, ht]
      exact .inl rfl

end Tophat
