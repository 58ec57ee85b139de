import Verif.Spec.Framing
import Verif.Proofs.Judge
import Verif.Proofs.BodyGrammar
/-!
# Where a request ends, and where the server thinks it does
-/

namespace Tophat
open Spec

theorem commaParts_none {v : Bytes} (h : (44 : UInt8) ∉ v) : commaParts v = [v] := by
  induction v with
  | nil => rfl
  | cons b r ih =>
    simp only [List.mem_cons, not_or] at h
    unfold commaParts
    rw [if_neg (fun e => h.1 e.symm), ih h.2]

theorem trimmed_none {v : Bytes} (h : ∀ b ∈ v, b ≠ 32 ∧ b ≠ 9) : trimmed v = v := by
  unfold trimmed
  cases v with
  | nil => rfl
  | cons b r =>
    have := h b (by simp)
    rw [List.dropWhile_cons_of_neg (by simp [this.1, this.2])]

theorem stripped_none {v : Bytes} (h : ∀ b ∈ v, b ≠ 32 ∧ b ≠ 9) : stripped v = v := by
  unfold stripped
  rw [trimmed_none h, trimmed_none (fun b hb => h b (List.mem_reverse.1 hb)), List.reverse_reverse]

/-- A field value without commas and blanks is its only element. -/
theorem elements_plain {name : Bytes} {fs : List (Bytes × Bytes)} (h : ∀ v ∈ valuesOf name fs, v ≠ [] ∧ ∀ b ∈ v, b ≠ 44 ∧ b ≠ 32 ∧ b ≠ 9) :
    elements name fs = valuesOf name fs := by
  unfold elements
  generalize valuesOf name fs = vs at h
  induction vs with
  | nil => rfl
  | cons v vs ih =>
    obtain ⟨h1, h2⟩ := h v (by simp)
    simp only [List.flatMap_cons, List.map_append, List.filter_append]
    rw [ih (fun w hw => h w (List.mem_cons_of_mem _ hw)), commaParts_none (fun hm => (h2 _ hm).1 rfl)]
    simp only [List.map_cons, List.map_nil, stripped_none (fun b hb => (h2 b hb).2)]
    cases v with
    | nil => exact absurd rfl h1
    | cons b r => rfl

theorem mem_valuesOf {name v : Bytes} {fs : List (Bytes × Bytes)} (h : v ∈ valuesOf name fs) : ∃ f ∈ fs, lower f.1 = name ∧ f.2 = v := by
  unfold valuesOf at h
  obtain ⟨f, hf, rfl⟩ := List.mem_map.1 h
  rw [List.mem_filter] at hf
  exact ⟨f, hf.1, by simpa using hf.2, rfl⟩

theorem codings_known {fs : List (Bytes × Bytes)} (hg : ∀ f ∈ fs, GoodField f) {v : Bytes} (hv : v ∈ valuesOf (ascii "transfer-encoding") fs) : KnownCoding v := by
  obtain ⟨f, hf, h1, rfl⟩ := mem_valuesOf hv
  exact Classical.byContradiction fun hk => (hg f hf).2 ⟨h1, hk⟩

theorem lengths_known {fs : List (Bytes × Bytes)} (hg : ∀ f ∈ fs, GoodField f) {v : Bytes} (hv : v ∈ valuesOf (ascii "content-length") fs) : ∃ n, IsLength v n := by
  obtain ⟨f, hf, h1, rfl⟩ := mem_valuesOf hv
  exact Classical.byContradiction fun hk => (hg f hf).1 ⟨h1, fun n hn => hk ⟨n, hn⟩⟩

theorem knownCoding_plain {v : Bytes} (h : KnownCoding v) : v ≠ [] ∧ ∀ b ∈ v, b ≠ 44 ∧ b ≠ 32 ∧ b ≠ 9 := by
  have key : ∀ w : Bytes, (w.all fun b => decide (b ≠ 44 ∧ b ≠ 32 ∧ b ≠ 9)) = true → lower v = w → ∀ b ∈ v, b ≠ 44 ∧ b ≠ 32 ∧ b ≠ 9 := by
    intro w hw e b hb
    have hm : lowerByte b ∈ w := by rw [← e]; exact List.mem_map.2 ⟨b, hb, rfl⟩
    have := of_decide_eq_true (List.all_eq_true.1 hw _ hm)
    refine ⟨?_, ?_, ?_⟩
    · rintro rfl; exact this.1 (by decide)
    · rintro rfl; exact this.2.1 (by decide)
    · rintro rfl; exact this.2.2 (by decide)
  refine ⟨?_, h.elim (key _ (by decide)) (key _ (by decide))⟩
  rintro rfl
  rcases h with h | h <;> exact absurd h (by decide)

theorem isLength_plain {v : Bytes} {n : Nat} (h : IsLength v n) : v ≠ [] ∧ ∀ b ∈ v, b ≠ 44 ∧ b ≠ 32 ∧ b ≠ 9 := by
  obtain ⟨ds, h1, h2, h3, -, -⟩ := h
  have key : ∀ b ∈ ds, b ≠ 44 ∧ b ≠ 32 ∧ b ≠ 9 := by
    intro b hb
    have := h3 b hb
    refine ⟨?_, ?_, ?_⟩ <;> (rintro rfl; revert this; decide)
  rcases h1 with rfl | rfl
  · exact ⟨h2, key⟩
  · refine ⟨by simp, fun b hb => ?_⟩
    rcases List.mem_cons.1 hb with rfl | hb
    · decide
    · exact key b hb

theorem codings_elements {fs : List (Bytes × Bytes)} (hg : ∀ f ∈ fs, GoodField f) :
    elements (ascii "transfer-encoding") fs = valuesOf (ascii "transfer-encoding") fs :=
  elements_plain fun _ hv => knownCoding_plain (codings_known hg hv)

theorem lengths_elements {fs : List (Bytes × Bytes)} (hg : ∀ f ∈ fs, GoodField f) :
    elements (ascii "content-length") fs = valuesOf (ascii "content-length") fs :=
  elements_plain fun _ hv => (lengths_known hg hv).elim fun _ h => isLength_plain h

/-- A decimal number and a length that are the same text are the same number. -/
theorem decimal_isLength {v : Bytes} {n k : Nat} (h : Decimal v n) (hk : IsLength v k) : k = n := by
  obtain ⟨ds, rfl | rfl, _, _, rfl, _⟩ := hk
  · exact h.2.2
  · exact absurd (h.2.1 43 (by simp)).1 (by decide)

/-- Where the specification says what the framing is, the server thinks the same. -/
theorem framing_bodyLength {fs : List (Bytes × Bytes)} (hg : ∀ f ∈ fs, GoodField f) {len len' : Option Nat} (h : Framing fs len) (hb : BodyLength fs len') : len' = len := by
  cases h with
  | chunked h1 h2 =>
    rw [codings_elements hg] at h1
    unfold BodyLength at hb
    rw [h1] at hb
    dsimp only at hb
    rwa [if_pos h2] at hb
  | length h1 h2 h3 =>
    rw [lengths_elements hg] at h2 h3
    unfold BodyLength at hb
    rw [h1] at hb
    dsimp only [List.getLast?_nil] at hb
    unfold BodyLength.Plain at hb
    cases hv : (valuesOf (ascii "content-length") fs).getLast? with
    | none => exact absurd (List.getLast?_eq_none_iff.1 hv) h2
    | some v =>
      rw [hv] at hb
      obtain ⟨k, hk, rfl⟩ := hb
      rw [decimal_isLength (h3 v (List.mem_of_getLast? hv)) hk]
  | nothing h1 h2 =>
    unfold BodyLength BodyLength.Plain at hb
    rw [h1, h2] at hb
    exact hb

/-- The cases in which the server serves a request although the specification does not say where it ends. -/
theorem framing_missing {fs : List (Bytes × Bytes)} (hg : ∀ f ∈ fs, GoodField f) : (∀ len, ¬ Framing fs len) ↔
    (∃ c, (valuesOf (ascii "transfer-encoding") fs).getLast? = some c ∧ lower c = ascii "identity") ∨
    (valuesOf (ascii "transfer-encoding") fs = [] ∧ ((∃ v ∈ valuesOf (ascii "content-length") fs, v.head? = some 43) ∨
      ∃ v ∈ valuesOf (ascii "content-length") fs, ∃ w ∈ valuesOf (ascii "content-length") fs, decNum v ≠ decNum w)) := by
  constructor
  · intro h
    cases ht : (valuesOf (ascii "transfer-encoding") fs).getLast? with
    | some c =>
      rcases codings_known hg (List.mem_of_getLast? ht) with hc | hc
      · exact absurd (.chunked (by rw [codings_elements hg]; exact ht) hc) (h none)
      · exact .inl ⟨c, rfl, hc⟩
    | none =>
      have ht' := List.getLast?_eq_none_iff.1 ht
      refine .inr ⟨ht', ?_⟩
      refine Classical.byContradiction fun hn => ?_
      simp only [not_or, not_exists, not_and] at hn
      obtain ⟨h1, h2⟩ := hn
      cases hv : valuesOf (ascii "content-length") fs with
      | nil => exact h _ (.nothing ht' hv)
      | cons v vs =>
        refine h (some (decNum v)) (.length ht' (by rw [lengths_elements hg, hv]; simp) fun w hw => ?_)
        rw [lengths_elements hg] at hw
        have e : decNum w = decNum v := Classical.byContradiction fun hne => h2 w hw v (by rw [hv]; simp) hne
        obtain ⟨k, ds, h3 | rfl, h4, h5, _, _⟩ := lengths_known hg hw
        · subst h3; exact ⟨h4, h5, e⟩
        · exact absurd rfl (h1 _ hw)
  · intro h len hl
    rcases h with ⟨c, h1, h2⟩ | ⟨h1, h2⟩
    · cases hl with
      | chunked g1 g2 =>
        rw [codings_elements hg, h1] at g1
        injection g1 with g1
        subst g1
        rw [h2] at g2
        exact absurd g2 (by decide)
      | length g1 _ _ => rw [g1] at h1; cases h1
      | nothing g1 _ => rw [g1] at h1; cases h1
    · cases hl with
      | chunked g1 _ => rw [codings_elements hg, h1] at g1; cases g1
      | length _ _ g3 =>
        rw [lengths_elements hg] at g3
        rcases h2 with ⟨v, hv, h3⟩ | ⟨v, hv, w, hw, h3⟩
        · have := g3 v hv
          cases v with
          | nil => cases h3
          | cons b r =>
            simp only [List.head?_cons, Option.some.injEq] at h3
            subst h3
            exact absurd (this.2.1 43 (by simp)).1 (by decide)
        · exact h3 ((g3 v hv).2.2.trans (g3 w hw).2.2.symm)
      | nothing _ g2 =>
        rcases h2 with ⟨v, hv, _⟩ | ⟨v, hv, _⟩ <;> (rw [g2] at hv; cases hv)

/-- A request head at the beginning of a stream is determined by the stream. -/
theorem requestHead_unique {h h' r r' m t m' t' : Bytes} {v v' : Nat} {fs fs' : List (Bytes × Bytes)} (a : RequestHead h m t v fs) (b : RequestHead h' m' t' v' fs')
    (e : h ++ r = h' ++ r') : h = h' ∧ r = r' ∧ m = m' ∧ t = t' ∧ v = v' ∧ fs = fs' := by
  have h1 := (Httparse.parseRequest_ok (fs.length + fs'.length) _ r m t v fs).2 ⟨h, rfl, a, by omega⟩
  have h2 := (Httparse.parseRequest_ok (fs.length + fs'.length) _ r' m' t' v' fs').2 ⟨h', rfl, b, by omega⟩
  rw [e, h2] at h1
  injection h1 with h1 h3
  injection h3 with h3 h4 h5 h6
  subst h1 h3 h4 h5 h6
  exact ⟨List.append_cancel_right e, rfl, rfl, rfl, rfl, rfl⟩

/-- If a request head ends with CRLF CRLF, then the server sees the same head. -/
theorem firstHead_of_requestHead {s h h' r m t m' t' : Bytes} {v v' : Nat} {fs fs' : List (Bytes × Bytes)} (hs : s = h ++ r) (a : RequestHead h m t v fs) (hb : EndsBlank h)
    (hf : FirstHead s h') (b : HasHead h' m' t' v' fs') : h' = h ∧ m' = m ∧ t' = t ∧ v' = v ∧ fs' = fs := by
  obtain ⟨hd, junk, rfl, b1, _⟩ := b
  obtain ⟨q, hq⟩ := hf.1
  obtain ⟨e1, e2, e3, e4, e5, e6⟩ := requestHead_unique (r := junk ++ q) (r' := r) b1 a (by rw [← hs, ← hq]; simp)
  subst e1 e3 e4 e5 e6
  have := hf.2.2 hd (List.prefix_append _ _) hb
  exact ⟨this.symm, rfl, rfl, rfl, rfl⟩

end Tophat
