import Verif.Proofs.ClientDecode
import Verif.Proofs.HeadLines
import Verif.Spec.Client
/-! Helper lemmas: heads that tophat writes are heads that tophat reads. -/

namespace Tophat
open Spec

/-! ## The first empty line -/

/-- Lines, each followed by CRLF. -/
def joinLines (ls : List Bytes) : Bytes := ls.flatMap (· ++ [13, 10])

theorem noReply_line {buf x : Bytes} (hb : NoReply buf) (hx : x ≠ []) (h10 : (10 : UInt8) ∉ x) : NoReply (buf ++ (x ++ [13, 10])) := by
  have e : x ++ [13, 10] = (x ++ [13]) ++ [10] := by simp
  rw [e]
  refine hb.line (by simp [h10]) ?_
  obtain ⟨y, c, rfl⟩ : ∃ y c, x = y ++ [c] := ⟨x.dropLast, x.getLast hx, (List.dropLast_concat_getLast hx).symm⟩
  have hc : c ≠ 10 := by rintro rfl; exact h10 (by simp)
  rintro (⟨q, h⟩ | ⟨q, h⟩)
  · have h1 : (buf ++ y) ++ [c, 13, 10] = (q ++ [13]) ++ [10, 13, 10] := by simpa using h
    have := List.append_inj_right' h1 rfl
    simp at this
    exact hc this
  · have h1 : (buf ++ y ++ [c]) ++ [13, 10] = q ++ [10, 10] := by simpa using h
    have := List.append_inj_right' h1 rfl
    simp at this

theorem noReply_lines {ls : List Bytes} (h : ∀ l ∈ ls, l ≠ [] ∧ (10 : UInt8) ∉ l) {buf : Bytes} (hb : NoReply buf) : NoReply (buf ++ joinLines ls) := by
  induction ls generalizing buf with
  | nil => simpa [joinLines] using hb
  | cons l ls ih =>
    have hl := h l (by simp)
    have := ih (fun l hl => h l (by simp [hl])) (noReply_line hb hl.1 hl.2)
    simpa [joinLines] using this

theorem joinLines_ends {ls : List Bytes} (h : ls ≠ []) : ∃ q, joinLines ls = q ++ [13, 10] := by
  refine ⟨joinLines ls.dropLast ++ ls.getLast h, ?_⟩
  conv => lhs; rw [← List.dropLast_concat_getLast h]
  simp [joinLines]

theorem firstReply_lines {ls : List Bytes} (hne : ls ≠ []) (h : ∀ l ∈ ls, l ≠ [] ∧ (10 : UInt8) ∉ l) (rest : Bytes) :
    FirstReply (joinLines ls ++ [13, 10] ++ rest) (joinLines ls ++ [13, 10]) := by
  refine ⟨List.prefix_append _ _, ?_, ?_⟩
  · obtain ⟨q, hq⟩ := joinLines_ends hne
    exact .inl ⟨q, by rw [hq]; simp⟩
  · intro p hp he
    have hn : NoReply (joinLines ls) := by simpa using noReply_lines h noReply_nil
    exact reply_prefix_line (q := [13]) (by decide) hn hp he

theorem firstHead_lines {ls : List Bytes} (hne : ls ≠ []) (h : ∀ l ∈ ls, l ≠ [] ∧ (10 : UInt8) ∉ l) (rest : Bytes) :
    FirstHead (joinLines ls ++ [13, 10] ++ rest) (joinLines ls ++ [13, 10]) := by
  obtain ⟨h1, _, h3⟩ := firstReply_lines hne h rest
  refine ⟨h1, ?_, fun p hp he => h3 p hp (.inl he)⟩
  obtain ⟨q, hq⟩ := joinLines_ends hne
  exact ⟨q, by rw [hq]; simp⟩

/-! ## Header fields -/

/-- A field that arrives as it is sent: a token as name, and a value of permitted bytes that does not begin with a blank. -/
def Spec.PlainField (f : Bytes × Bytes) : Prop :=
  f.1 ≠ [] ∧ (∀ b ∈ f.1, tokenByte b) ∧ (∀ b ∈ f.2, valueByte b) ∧ ∀ b, f.2.head? = some b → b ≠ 32 ∧ b ≠ 9

theorem fieldSection_render {fs : List (Bytes × Bytes)} (h : ∀ f ∈ fs, PlainField f) : FieldSection (renderFields fs ++ [13, 10]) fs := by
  induction fs with
  | nil => exact .blank (.inl rfl)
  | cons f fs ih =>
    obtain ⟨h1, h2, h3, h4⟩ := h f (by simp)
    have e : renderFields (f :: fs) ++ [13, 10] = (f.1 ++ 58 :: ([32] ++ (f.2 ++ [13, 10]))) ++ (renderFields fs ++ [13, 10]) := by simp [renderFields]
    rw [e]
    exact .field ⟨[32], [13, 10], rfl, h1, h2, by simp, h3, h4, .inl rfl⟩ (ih fun f hf => h f (by simp [hf]))

theorem renderFields_lines (fs : List (Bytes × Bytes)) : renderFields fs = joinLines (fs.map fun f => f.1 ++ [58, 32] ++ f.2) := by
  induction fs with
  | nil => rfl
  | cons f fs ih =>
    have e : renderFields (f :: fs) = (f.1 ++ [58, 32] ++ f.2) ++ [13, 10] ++ renderFields fs := by simp [renderFields]
    rw [e, ih]
    simp [joinLines]

theorem tokenByte_ne_lf {b : UInt8} (h : tokenByte b) : b ≠ 10 := by rintro rfl; revert h; unfold tokenByte; decide
theorem valueByte_ne_lf {b : UInt8} (h : valueByte b) : b ≠ 10 := by rintro rfl; revert h; unfold valueByte; decide

theorem Spec.PlainField.line {f : Bytes × Bytes} (h : PlainField f) : f.1 ++ [58, 32] ++ f.2 ≠ [] ∧ (10 : UInt8) ∉ f.1 ++ [58, 32] ++ f.2 := by
  refine ⟨by simp, ?_⟩
  simp only [List.mem_append, not_or]
  exact ⟨⟨fun hm => tokenByte_ne_lf (h.2.1 _ hm) rfl, by decide⟩, fun hm => valueByte_ne_lf (h.2.2.1 _ hm) rfl⟩

theorem valueByte_of {b : UInt8} (h : headerValueByte b = true) : valueByte b := by
  simp only [headerValueByte, Bool.or_eq_true, Bool.and_eq_true, decide_eq_true_eq, beq_iff_eq, bne_iff_ne] at h
  unfold valueByte
  rcases h with h | h
  · exact .inr h
  · exact .inl h

/-! ## Numbers -/

theorem decNum_append (a : Bytes) (b : UInt8) : decNum (a ++ [b]) = 10 * decNum a + (b.toNat - 48) := by simp [decNum]

theorem decNum_decimal (n : Nat) : decNum (decimal n) = n := by
  induction n using Nat.strongRecOn with
  | ind n ih =>
    rw [decimal_eq]
    split
    · simp only [decNum, List.foldl_cons, List.foldl_nil]
      rw [UInt8.toNat_ofNat']
      omega
    · rw [decNum_append, ih (n / 10) (by omega), UInt8.toNat_ofNat']
      omega

theorem decimal_ne_nil (n : Nat) : decimal n ≠ [] := by
  rw [decimal_eq]; split <;> simp

theorem decimal_three {n : Nat} (h1 : 100 ≤ n) (h2 : n < 1000) : (decimal n).length = 3 := by
  rw [decimal_eq, if_neg (by omega), decimal_eq, if_neg (by omega), decimal_eq, if_pos (by omega)]
  rfl

theorem isLength_decimal {n : Nat} (h : n < 2 ^ 64) : IsLength (decimal n) n :=
  ⟨decimal n, .inl rfl, decimal_ne_nil n, decimal_digit n, decNum_decimal n, h⟩

/-! ## The response head -/

theorem reason_valueBytes (s : StatusCode) : ∀ b ∈ (canonicalReason s).getD (ascii "<unknown status code>"), valueByte b := by
  have key : ∀ r, canonicalReason s = some r → (r.all fun b => headerValueByte b) = true := by
    intro r hr
    unfold canonicalReason at hr
    split at hr <;> first | (cases hr; decide) | cases hr
  intro b hb
  cases h : canonicalReason s with
  | none =>
    rw [h] at hb
    have : ((ascii "<unknown status code>").all fun b => headerValueByte b) = true := by decide
    exact valueByte_of (List.all_eq_true.1 this b hb)
  | some r =>
    rw [h] at hb
    exact valueByte_of (List.all_eq_true.1 (key r h) b hb)

theorem responseHead_lines (s : StatusCode) (fs : List (Bytes × Bytes)) :
    renderResponseHead .http11 s fs = joinLines ((Version.http11.debug ++ [32] ++ statusDisplay s) :: fs.map fun f => f.1 ++ [58, 32] ++ f.2) ++ [13, 10] := by
  unfold renderResponseHead
  rw [renderFields_lines]
  simp [joinLines]

theorem firstReply_render {s : StatusCode} {fs : List (Bytes × Bytes)} (h : ∀ f ∈ fs, PlainField f) (rest : Bytes) :
    FirstReply (renderResponseHead .http11 s fs ++ rest) (renderResponseHead .http11 s fs) := by
  rw [responseHead_lines]
  refine firstReply_lines (by simp) ?_ rest
  intro l hl
  rcases List.mem_cons.1 hl with rfl | hl
  · refine ⟨by simp, ?_⟩
    simp only [statusDisplay, List.mem_append, not_or]
    exact ⟨⟨by decide, by decide⟩, ⟨decimal_not_mem (by decide), by decide⟩, fun hm => valueByte_ne_lf (reason_valueBytes s _ hm) rfl⟩
  · obtain ⟨f, hf, rfl⟩ := List.mem_map.1 hl
    exact (h f hf).line

theorem hasReply_render {s : StatusCode} {fs : List (Bytes × Bytes)} (h1 : 100 ≤ s) (h2 : s < 1000) (h : ∀ f ∈ fs, PlainField f) (hn : fs.length ≤ 128) :
    HasReply (renderResponseHead .http11 s fs) 1 s fs := by
  refine ⟨_, [], (List.append_nil _).symm, ⟨[], decimal s, 32 :: ((canonicalReason s).getD (ascii "<unknown status code>") ++ [13, 10]),
    renderFields fs ++ [13, 10], ?_, .nil, by omega, decimal_three h1 h2, decimal_digit s, decNum_decimal s, .inr ⟨_, _, rfl, reason_valueBytes s, .inl rfl⟩, fieldSection_render h⟩, hn⟩
  have e : Version.http11.debug = ascii "HTTP/1." ++ [UInt8.ofNat (48 + 1)] := by decide
  unfold renderResponseHead statusDisplay
  rw [e]
  simp

/-! ## The fields of a response -/

theorem sentFields_plain {hs : HeaderMap} {len : Option Nat} {now : Bytes} (hv : hs.Valid) (hb : ∀ f ∈ hs.iter, ∀ b, f.2.head? = some b → b ≠ 32 ∧ b ≠ 9)
    (hn : (∀ b ∈ now, valueByte b) ∧ ∀ b, now.head? = some b → b ≠ 32 ∧ b ≠ 9) : ∀ f ∈ sentFields hs len now, PlainField f := by
  have tok : ∀ n : Bytes, n ≠ [] ∧ (n.all fun b => isTokenByte b) = true → n ≠ [] ∧ ∀ b ∈ n, tokenByte b :=
    fun n h => ⟨h.1, fun b hb => (Httparse.isTokenByte_iff b).1 (List.all_eq_true.1 h.2 b hb)⟩
  have val : ∀ n : Bytes, (n.all fun b => headerValueByte b && b != 32 && b != 9) = true → (∀ b ∈ n, valueByte b) ∧ ∀ b, n.head? = some b → b ≠ 32 ∧ b ≠ 9 := by
    intro n h
    have h' := List.all_eq_true.1 h
    simp only [Bool.and_eq_true, bne_iff_ne] at h'
    refine ⟨fun b hb => valueByte_of (h' b hb).1.1, fun b hb => ?_⟩
    have := h' b (List.mem_of_mem_head? hb)
    exact ⟨this.1.2, this.2⟩
  have mk : ∀ n v : Bytes, (n ≠ [] ∧ (n.all fun b => isTokenByte b) = true) → ((∀ b ∈ v, valueByte b) ∧ ∀ b, v.head? = some b → b ≠ 32 ∧ b ≠ 9) → PlainField (n, v) :=
    fun n v h1 h2 => ⟨(tok n h1).1, (tok n h1).2, h2.1, h2.2⟩
  intro f hf
  simp only [sentFields, List.mem_append, List.mem_singleton] at hf
  rcases hf with ((rfl | hf) | hf) | hf
  · cases len with
    | none => exact mk _ _ (by decide) (val _ (by decide))
    | some n =>
      refine mk _ _ (by decide) (val _ (List.all_eq_true.2 fun b hb => ?_))
      obtain ⟨d1, d2⟩ := decimal_digit n b hb
      have h32 : b ≠ 32 := by rintro rfl; revert d1; decide
      have h9 : b ≠ 9 := by rintro rfl; revert d1; decide
      have h127 : b.toNat ≠ 127 := by omega
      have : 32 ≤ b.toNat := by omega
      simp [headerValueByte, h32, h9, h127, this]
  · split at hf
    · simp only [List.mem_singleton] at hf
      subst hf
      exact mk _ _ (by decide) hn
    · simp at hf
  · have hf := (List.mem_filter.1 hf).1
    obtain ⟨h1, h2, h3⟩ := headerName_token (hv.names f hf)
    obtain ⟨h4, h5⟩ := headerValue_byte (hv.values f hf)
    exact ⟨h1, fun b hb => (Httparse.isTokenByte_iff b).1 (h2 b hb), fun b hb => valueByte_of (h4 b hb), hb f hf⟩
  · split at hf
    · simp only [List.mem_singleton] at hf
      subst hf
      exact mk _ _ (by decide) (val _ (by decide))
    · simp at hf

end Tophat

namespace Tophat
open Spec

theorem valuesOf_append (k : Bytes) (a b : List (Bytes × Bytes)) : valuesOf k (a ++ b) = valuesOf k a ++ valuesOf k b := by
  simp [valuesOf]

theorem valuesOf_one (k n v : Bytes) : valuesOf k [(n, v)] = if lower n = k then [v] else [] := by
  simp only [valuesOf, List.filter_cons, List.filter_nil, beq_iff_eq]
  split <;> simp

theorem valuesOf_iter {hs : HeaderMap} (hv : hs.Valid) (k : Bytes) : valuesOf k hs.iter = hs.getAll k := by
  unfold valuesOf HeaderMap.getAll
  congr 1
  apply List.filter_congr
  intro f hf
  have := (headerName_token (hv.names f hf)).2.2
  rw [← this]

theorem valuesOf_filter (k : Bytes) (p : Bytes → Bool) (l : List (Bytes × Bytes)) (hl : ∀ f ∈ l, lower f.1 = f.1) :
    valuesOf k (l.filter fun f => p f.1) = if p k then valuesOf k l else [] := by
  induction l with
  | nil => simp [valuesOf]
  | cons f l ih =>
    have ih := ih fun g hg => hl g (by simp [hg])
    have e : lower f.1 = f.1 := hl f (by simp)
    have cons : ∀ (f : Bytes × Bytes) l, valuesOf k (f :: l) = (if lower f.1 = k then [f.2] else []) ++ valuesOf k l :=
      fun f l => by rw [← valuesOf_one k f.1 f.2]; exact valuesOf_append k [f] l
    rw [List.filter_cons, cons]
    by_cases hk : f.1 = k
    · subst hk
      split
      · rename_i hp; rw [cons, ih, if_pos hp, if_pos e]
      · rename_i hp; rw [ih, if_neg hp]
    · have hk' : ¬ lower f.1 = k := by rw [e]; exact hk
      split
      · rw [cons, ih, if_neg hk']; simp
      · rw [ih]; simp

/-- The values of a name among the fields of a response. -/
theorem valuesOf_sent {hs : HeaderMap} (hv : hs.Valid) (len : Option Nat) (now k : Bytes) :
    valuesOf k (sentFields hs len now) = (if (framingField len).1 = k then [(framingField len).2] else []) ++
      (if (hs.getAll (ascii "date")).isEmpty ∧ ascii "date" = k then [now] else []) ++
      (if k ≠ ascii "content-length" ∧ k ≠ ascii "transfer-encoding" then hs.getAll k else []) ++
      (if (len ≠ some 0 ∧ (hs.getAll (ascii "content-type")).isEmpty) ∧ ascii "content-type" = k then [ascii "application/octet-stream"] else []) := by
  unfold sentFields
  simp only [valuesOf_append]
  have e1 : valuesOf k [framingField len] = if (framingField len).1 = k then [(framingField len).2] else [] := by
    have : lower (framingField len).1 = (framingField len).1 := by cases len <;> (simp only [framingField]; decide)
    rw [show framingField len = ((framingField len).1, (framingField len).2) from rfl, valuesOf_one, this]
  have e2 : valuesOf k (if (hs.getAll (ascii "date")).isEmpty = true then [(ascii "date", now)] else []) =
      if (hs.getAll (ascii "date")).isEmpty ∧ ascii "date" = k then [now] else [] := by
    have : lower (ascii "date") = ascii "date" := by decide
    by_cases h : (hs.getAll (ascii "date")).isEmpty = true
    · rw [if_pos h, valuesOf_one, this]; simp [h]
    · rw [if_neg h]; simp [h, valuesOf]
  have e4 : valuesOf k (if len ≠ some 0 ∧ (hs.getAll (ascii "content-type")).isEmpty = true then [(ascii "content-type", ascii "application/octet-stream")] else []) =
      if (len ≠ some 0 ∧ (hs.getAll (ascii "content-type")).isEmpty) ∧ ascii "content-type" = k then [ascii "application/octet-stream"] else [] := by
    have : lower (ascii "content-type") = ascii "content-type" := by decide
    by_cases h : len ≠ some 0 ∧ (hs.getAll (ascii "content-type")).isEmpty = true
    · rw [if_pos h, valuesOf_one, this]; simp [h]
    · rw [if_neg h]; simp only [h, false_and, if_false]; rfl
  have e3 : valuesOf k (hs.iter.filter fun f => f.1 ≠ ascii "content-length" ∧ f.1 ≠ ascii "transfer-encoding") =
      if k ≠ ascii "content-length" ∧ k ≠ ascii "transfer-encoding" then hs.getAll k else [] := by
    have := valuesOf_filter k (fun n => decide (n ≠ ascii "content-length" ∧ n ≠ ascii "transfer-encoding")) hs.iter
      (fun f hf => (headerName_token (hv.names f hf)).2.2.symm)
    rw [this, valuesOf_iter hv]
    simp only [decide_eq_true_eq]
  rw [e1, e2, e3, e4]

end Tophat

namespace Tophat
open Spec

/-! ## The request head -/

theorem targetByte_ne_lf {b : UInt8} (h : targetByte b) : b ≠ 10 := by rintro rfl; revert h; unfold targetByte; decide

theorem renderRequest_lines (m t : Bytes) (fs : List (Bytes × Bytes)) :
    renderRequest m t fs = joinLines ((m ++ 32 :: (t ++ ascii " HTTP/1.1")) :: fs.map fun f => f.1 ++ [58, 32] ++ f.2) ++ [13, 10] := by
  unfold renderRequest
  rw [renderFields_lines]
  have e1 : ascii " HTTP/1.1\r\n" = ascii " HTTP/1.1" ++ [13, 10] := by decide
  have e2 : ascii "\r\n" = [13, 10] := by decide
  have e3 : ascii " " = [32] := by decide
  rw [e1, e2, e3]
  simp [joinLines]

theorem firstHead_render {m t : Bytes} {fs : List (Bytes × Bytes)} (hm : ∀ b ∈ m, tokenByte b) (ht : ∀ b ∈ t, targetByte b) (h : ∀ f ∈ fs, PlainField f) (rest : Bytes) :
    FirstHead (renderRequest m t fs ++ rest) (renderRequest m t fs) := by
  rw [renderRequest_lines]
  refine firstHead_lines (by simp) ?_ rest
  intro l hl
  rcases List.mem_cons.1 hl with rfl | hl
  · refine ⟨by simp, ?_⟩
    simp only [List.mem_append, List.mem_cons, not_or]
    exact ⟨fun h => tokenByte_ne_lf (hm _ h) rfl, by decide, fun h => targetByte_ne_lf (ht _ h) rfl, by decide⟩
  · obtain ⟨f, hf, rfl⟩ := List.mem_map.1 hl
    exact (h f hf).line

theorem hasHead_render {m t : Bytes} {fs : List (Bytes × Bytes)} (hm : ∀ b ∈ m, tokenByte b) (ht : ∀ b ∈ t, targetByte b) (h : ∀ f ∈ fs, PlainField f) (hn : fs.length ≤ 16) :
    HasHead (renderRequest m t fs) m t 1 fs := by
  refine ⟨_, [], (List.append_nil _).symm, ⟨[], [13, 10], renderFields fs ++ [13, 10], ?_, .nil, hm, ht, by omega, .inl rfl, fieldSection_render h⟩, hn⟩
  unfold renderRequest
  have e1 : ascii " HTTP/1.1\r\n" = 32 :: (ascii "HTTP/1." ++ (UInt8.ofNat (48 + 1) :: [13, 10])) := by decide
  have e2 : ascii "\r\n" = [13, 10] := by decide
  have e3 : ascii " " = [32] := by decide
  rw [e1, e2, e3]
  simp

end Tophat
