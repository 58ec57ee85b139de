import Verif.Spec.Cors
import Verif.Proofs.Http
/-!
# Proofs about CORS
-/

namespace Tophat
open HeaderMap

/-! ## Lists in header values -/

theorem intercalate_cons₂ {α : Type} (sep x y : List α) (l : List (List α)) : List.intercalate sep (x :: y :: l) = x ++ sep ++ List.intercalate sep (y :: l) := by
  simp [List.intercalate, List.intersperse]

theorem joinCsv_eq (l : List Bytes) : joinCsv l = List.intercalate (ascii ", ") l := by
  induction l with
  | nil => rfl
  | cons x l ih =>
    cases l with
    | nil => simp [joinCsv, List.intercalate]
    | cons y l => rw [joinCsv, ih, intercalate_cons₂]; rfl

theorem splitComma_elem (e : Bytes) (he : 44 ∉ e) (cur rest : Bytes) : splitComma cur (e ++ 44 :: rest) = (cur ++ e) :: splitComma [] rest := by
  induction e generalizing cur with
  | nil => simp [splitComma]
  | cons b e ih =>
    have hb : b ≠ 44 := by rintro rfl; simp at he
    rw [List.cons_append, splitComma, if_neg hb, ih (by intro h; exact he (by simp [h]))]
    simp

theorem splitComma_last (e : Bytes) (he : 44 ∉ e) (cur : Bytes) : splitComma cur e = [cur ++ e] := by
  induction e generalizing cur with
  | nil => simp [splitComma]
  | cons b e ih =>
    have hb : b ≠ 44 := by rintro rfl; simp at he
    rw [splitComma, if_neg hb, ih (by intro h; exact he (by simp [h]))]
    simp

theorem splitComma_ne (cur s : Bytes) : splitComma cur s ≠ [] := by
  induction s generalizing cur with
  | nil => simp [splitComma]
  | cons b s ih =>
    unfold splitComma
    split
    · simp
    · exact ih _

theorem splitComma_spec (cur s : Bytes) (hc : 44 ∉ cur) : (∀ e ∈ splitComma cur s, 44 ∉ e) ∧ cur ++ s = List.intercalate (ascii ",") (splitComma cur s) := by
  induction s generalizing cur with
  | nil => simp [splitComma, hc, List.intercalate]
  | cons b s ih =>
    unfold splitComma
    split
    · rename_i hb
      subst hb
      obtain ⟨h1, h2⟩ := ih [] (by simp)
      constructor
      · intro e he
        rcases List.mem_cons.1 he with rfl | he
        · exact hc
        · exact h1 e he
      · cases hs : splitComma [] s with
        | nil => exact (splitComma_ne _ _ hs).elim
        | cons y l =>
          rw [intercalate_cons₂, ← hs, ← h2]
          simp [ascii]
    · rename_i hb
      obtain ⟨h1, h2⟩ := ih (cur ++ [b]) (by simp [hc, Ne.symm hb])
      exact ⟨h1, by rw [← h2]; simp⟩

theorem commaSeparated_iff {t : Bytes} {es : List Bytes} : CommaSeparated t es ↔ es = splitComma [] t := by
  constructor
  · rintro ⟨h1, h2, rfl⟩
    induction es with
    | nil => exact (h1 rfl).elim
    | cons e es ih =>
      cases es with
      | nil =>
        have : List.intercalate (ascii ",") [e] = e := by simp [List.intercalate]
        rw [this, splitComma_last e (h2 e (by simp))]
        rfl
      | cons y l =>
        have i := ih (by simp) fun e he => h2 e (by simp [he])
        rw [intercalate_cons₂]
        have : e ++ ascii "," ++ List.intercalate (ascii ",") (y :: l) = e ++ 44 :: List.intercalate (ascii ",") (y :: l) := by simp [ascii]
        rw [this, splitComma_elem e (h2 e (by simp)), ← i]
        rfl
  · rintro rfl
    obtain ⟨h1, h2⟩ := splitComma_spec [] t (by simp)
    exact ⟨splitComma_ne _ _, h1, h2⟩

theorem splitComma_mem (cur s : Bytes) : ∀ b ∈ cur ++ s, b = 44 ∨ ∃ e ∈ splitComma cur s, b ∈ e := by
  induction s generalizing cur with
  | nil => intro b hb; exact .inr ⟨cur, by simp [splitComma], by simpa using hb⟩
  | cons c s ih =>
    intro b hb
    unfold splitComma
    split
    · rename_i hc
      rcases List.mem_append.1 hb with hb | hb
      · exact .inr ⟨cur, by simp, hb⟩
      · rcases List.mem_cons.1 hb with rfl | hb
        · exact .inl hc
        · rcases ih [] b (by simpa using hb) with h | ⟨e, he, hbe⟩
          · exact .inl h
          · exact .inr ⟨e, by simp [he], hbe⟩
    · exact ih (cur ++ [c]) b (by simpa using hb)

theorem token_printable {b : UInt8} (h : isTokenByte b = true) : ((32 ≤ b.toNat && b.toNat < 127) || b.toNat == 9) = true := by
  unfold isTokenByte at h
  simp only [Bool.or_eq_true, Bool.and_eq_true, decide_eq_true_eq, beq_iff_eq] at h ⊢
  omega

theorem token_of_lower {b : UInt8} (h : isTokenByte (lowerByte b) = true) : isTokenByte b = true := by
  unfold lowerByte at h
  split at h
  · rename_i hb
    unfold isTokenByte
    simp only [Bool.or_eq_true, Bool.and_eq_true, decide_eq_true_eq, beq_iff_eq]
    omega
  · exact h

theorem headerName_of_lower {h x : Bytes} (hn : headerNameFromBytes (lower h) = some x) : headerNameFromBytes h = some (lower h) := by
  unfold headerNameFromBytes at hn ⊢
  split at hn
  · rename_i hc
    obtain ⟨h1, h2⟩ := hc
    rw [if_pos]
    refine ⟨by rintro rfl; exact h1 rfl, ?_⟩
    rw [List.all_eq_true] at h2 ⊢
    intro b hb
    exact token_of_lower (h2 _ (List.mem_map.2 ⟨b, hb, rfl⟩))
  · cases hn

theorem headerName_tokens {h x : Bytes} (hn : headerNameFromBytes h = some x) : x = lower h ∧ ∀ b ∈ h, isTokenByte b = true := by
  unfold headerNameFromBytes at hn
  split at hn
  · rename_i hc
    injection hn with hn
    exact ⟨hn.symm, by simpa [List.all_eq_true] using hc.2⟩
  · cases hn

/-! ## The checks -/

theorem isHeaderAllowed_iff {c : Cors} (hc : c.Ok) {h : Bytes} : c.isHeaderAllowed h = true ↔ lower h ∈ c.allowedHeadersSet := by
  unfold Cors.isHeaderAllowed
  constructor
  · intro h1
    split at h1
    · rename_i x hx
      rw [← (headerName_tokens hx).1]
      simpa using h1
    · cases h1
  · intro h1
    rw [headerName_of_lower (hc.headers _ h1)]
    simpa using h1

theorem isMethodAllowed_iff {c : Cors} (hc : c.Ok) {m : Bytes} : c.isMethodAllowed m = true ↔ m ∈ c.methodsSet := by
  unfold Cors.isMethodAllowed toMethod
  constructor
  · intro h
    split at h
    · rename_i x hx
      split at hx
      · injection hx with hx; subst hx; simpa using h
      · cases hx
    · cases h
  · intro h
    rw [if_pos (hc.methods _ h)]
    simpa using h

theorem isOriginAllowed_iff {c : Cors} {o : Bytes} : c.isOriginAllowed o = true ↔ c.AllowsOrigin o := by
  unfold Cors.isOriginAllowed Cors.AllowsOrigin
  split
  · rename_i l hl; simp [hl]
  · rename_i hl; simp [hl]

theorem headersAllowed_iff (c : Cors) (l : List Bytes) : c.headersAllowed l = true ↔ ∀ h ∈ l, c.isHeaderAllowed h = true := by
  induction l with
  | nil => simp [Cors.headersAllowed]
  | cons h l ih =>
    unfold Cors.headersAllowed
    split
    · rename_i hh; rw [ih]; simp [hh]
    · rename_i hh; simp [hh]

theorem requestHeadersAllowed_iff {c : Cors} (hc : c.Ok) {hs : HeaderMap} : c.requestHeadersAllowed hs = true ↔
    ∀ v, (hs.getAll (ascii "access-control-request-headers")).head? = some v → ∃ es, CommaSeparated v es ∧ ∀ e ∈ es, lower e ∈ c.allowedHeadersSet := by
  unfold Cors.requestHeadersAllowed
  show (match (hs.getAll (ascii "access-control-request-headers")).head? with | none => true | some v => _) = true ↔ _
  cases hg : (hs.getAll (ascii "access-control-request-headers")).head? with
  | none => simp
  | some v =>
    simp only [Option.some.injEq, forall_eq']
    constructor
    · intro h
      split at h
      · cases h
      · rename_i s hs'
        have : s = v := by
          unfold toStr at hs'
          split at hs'
          · injection hs' with hs'; exact hs'.symm
          · cases hs'
        subst this
        rw [headersAllowed_iff] at h
        exact ⟨_, commaSeparated_iff.2 rfl, fun e he => (isHeaderAllowed_iff hc).1 (h e he)⟩
    · rintro ⟨es, h1, h2⟩
      have h1 := commaSeparated_iff.1 h1
      subst h1
      have hp : toStr v = some v := by
        unfold toStr
        rw [if_pos]
        rw [List.all_eq_true]
        intro b hb
        rcases splitComma_mem [] v b (by simpa using hb) with rfl | ⟨e, he, hbe⟩
        · rfl
        · exact token_printable ((headerName_tokens (headerName_of_lower (hc.headers _ (h2 e he)))).2 b hbe)
      rw [hp]
      dsimp only
      rw [headersAllowed_iff]
      exact fun e he => (isHeaderAllowed_iff hc).2 (h2 e he)

theorem grants_iff {c : Cors} (hc : c.Ok) {hs : HeaderMap} {o : Bytes} :
    c.Grants hs o ↔ c.isOriginAllowed o = true ∧ c.requestMethodAllowed hs = true ∧ c.requestHeadersAllowed hs = true := by
  have hm : c.requestMethodAllowed hs = true ↔ ∃ m, (hs.getAll (ascii "access-control-request-method")).head? = some m ∧ m ∈ c.methodsSet := by
    unfold Cors.requestMethodAllowed
    show (match (hs.getAll (ascii "access-control-request-method")).head? with | some m => _ | none => false) = true ↔ _
    cases hg : (hs.getAll (ascii "access-control-request-method")).head? with
    | none => simp
    | some v => simp [isMethodAllowed_iff hc]
  constructor
  · rintro ⟨h1, h2, h3⟩
    exact ⟨isOriginAllowed_iff.2 h1, hm.2 h2, (requestHeadersAllowed_iff hc).2 h3⟩
  · rintro ⟨h1, h2, h3⟩
    exact ⟨isOriginAllowed_iff.1 h1, hm.1 h2, (requestHeadersAllowed_iff hc).1 h3⟩

/-! ## The headers -/

theorem common_fields (c : Cors) (o : Bytes) {m : HeaderMap} (hm : m.WF) : ((c.appendCommonHeaders m).insert H.acAllowOrigin o).WF ∧
    ∀ k, ((c.appendCommonHeaders m).insert H.acAllowOrigin o).getAll k = ((c.simpleField o k).map fun v => [v]).getD (m.getAll k) := by
  have key : (c.appendCommonHeaders m).WF ∧ ∀ k, (c.appendCommonHeaders m).getAll k =
      if k = H.acExposeHeaders ∧ c.exposedHeaders ≠ none then c.exposedHeaders.toList
      else if k = H.acAllowCredentials ∧ c.credentials = true then [ascii "true"] else m.getAll k := by
    unfold Cors.appendCommonHeaders
    have h1 : (if c.credentials = true then m.insert H.acAllowCredentials (ascii "true") else m).WF := by
      split
      · exact hm.insert _ _
      · exact hm
    have h2 : ∀ k, (if c.credentials = true then m.insert H.acAllowCredentials (ascii "true") else m).getAll k =
        if k = H.acAllowCredentials ∧ c.credentials = true then [ascii "true"] else m.getAll k := by
      intro k
      by_cases hcr : c.credentials = true
      · simp only [hcr, if_true, and_true, getAll_insert hm.nodup]
      · simp [hcr]
    cases he : c.exposedHeaders with
    | none => exact ⟨h1, fun k => by simp [h2]⟩
    | some v =>
      refine ⟨h1.insert _ _, fun k => ?_⟩
      dsimp only
      rw [getAll_insert h1.nodup, h2]
      simp
  obtain ⟨k1, k2⟩ := key
  refine ⟨k1.insert _ _, fun k => ?_⟩
  rw [getAll_insert k1.nodup, k2]
  have e1 : H.acAllowOrigin = ascii "access-control-allow-origin" := rfl
  have e2 : H.acAllowCredentials = ascii "access-control-allow-credentials" := rfl
  have e3 : H.acExposeHeaders = ascii "access-control-expose-headers" := rfl
  unfold Cors.simpleField
  rw [e1, e2, e3]
  have d1 : ascii "access-control-expose-headers" ≠ ascii "access-control-allow-credentials" := by decide
  by_cases a1 : k = ascii "access-control-allow-origin"
  · simp [a1]
  · by_cases a2 : k = ascii "access-control-allow-credentials"
    · subst a2
      by_cases a3 : c.credentials = true
      · simp [a1, a3, Ne.symm d1]
      · simp [a1, a3, Ne.symm d1]
    · by_cases a3 : k = ascii "access-control-expose-headers"
      · subst a3
        cases c.exposedHeaders <;> simp [a1, d1]
      · simp [a1, a2, a3]

theorem preflight_fields (c : Cors) (o : Bytes) : ((c.appendPreflightHeaders []).insert H.acAllowOrigin o).WF ∧
    ∀ k, ((c.appendPreflightHeaders []).insert H.acAllowOrigin o).getAll k = (c.preflightField o k).toList := by
  have hc := common_fields c o wf_nil
  -- the same without the origin
  have hw : (c.appendCommonHeaders []).WF := by
    unfold Cors.appendCommonHeaders
    split
    · split
      · exact (wf_nil.insert _ _).insert _ _
      · exact wf_nil.insert _ _
    · split
      · exact wf_nil.insert _ _
      · exact wf_nil
  have hw1 := hw.insert H.acAllowHeaders c.allowedHeaders
  have hw2 := hw1.insert H.acAllowMethods c.methods
  have hw3 : (c.appendPreflightHeaders []).WF := by
    unfold Cors.appendPreflightHeaders
    dsimp only
    split
    · exact hw2.insert _ _
    · exact hw2
  refine ⟨hw3.insert _ _, fun k => ?_⟩
  have hk := hc.2 k
  rw [getAll_insert hw.nodup] at hk
  rw [getAll_insert hw3.nodup]
  have e1 : H.acAllowOrigin = ascii "access-control-allow-origin" := rfl
  have e4 : H.acAllowHeaders = ascii "access-control-allow-headers" := rfl
  have e5 : H.acAllowMethods = ascii "access-control-allow-methods" := rfl
  have e6 : H.acMaxAge = ascii "access-control-max-age" := rfl
  have hg : (c.appendPreflightHeaders []).getAll k = if k = H.acMaxAge ∧ c.maxAge ≠ none then (c.maxAge.map decimal).toList
      else if k = H.acAllowMethods then [c.methods] else if k = H.acAllowHeaders then [c.allowedHeaders] else (c.appendCommonHeaders []).getAll k := by
    unfold Cors.appendPreflightHeaders
    dsimp only
    cases hm : c.maxAge with
    | none => simp [getAll_insert hw1.nodup, getAll_insert hw.nodup]
    | some n => simp [getAll_insert hw2.nodup, getAll_insert hw1.nodup, getAll_insert hw.nodup]
  rw [hg]
  unfold Cors.preflightField
  rw [e1] at hk ⊢
  rw [e4, e5, e6]
  by_cases a1 : k = ascii "access-control-allow-origin"
  · subst a1
    have d1 : ascii "access-control-allow-origin" ≠ ascii "access-control-allow-methods" := by decide
    have d2 : ascii "access-control-allow-origin" ≠ ascii "access-control-allow-headers" := by decide
    have d3 : ascii "access-control-allow-origin" ≠ ascii "access-control-max-age" := by decide
    simp [d1, d2, d3, Cors.simpleField]
  · rw [if_neg a1] at hk ⊢
    have nil : HeaderMap.getAll [] k = [] := rfl
    rw [nil] at hk
    have hk' : (c.appendCommonHeaders []).getAll k = (c.simpleField o k).toList := by
      rw [hk]; cases c.simpleField o k <;> rfl
    rw [hk']
    by_cases a2 : k = ascii "access-control-allow-methods"
    · subst a2
      have d3 : ascii "access-control-allow-methods" ≠ ascii "access-control-max-age" := by decide
      simp [d3]
    · by_cases a3 : k = ascii "access-control-allow-headers"
      · subst a3
        have d3 : ascii "access-control-allow-headers" ≠ ascii "access-control-max-age" := by decide
        simp [d3, a2]
      · by_cases a4 : k = ascii "access-control-max-age"
        · subst a4
          have d4 : c.simpleField o (ascii "access-control-max-age") = none := by
            unfold Cors.simpleField
            have d1 : ascii "access-control-max-age" ≠ ascii "access-control-allow-origin" := by decide
            have d2 : ascii "access-control-max-age" ≠ ascii "access-control-allow-credentials" := by decide
            have d3 : ascii "access-control-max-age" ≠ ascii "access-control-expose-headers" := by decide
            simp [d1, d2, d3]
          cases c.maxAge <;> simp [a2, a3, d4]
        · simp [a2, a3, a4]

/-! ## The builder -/

theorem setInsert_mem (s : List Bytes) (x y : Bytes) : y ∈ setInsert s x ↔ y ∈ s ∨ y = x := by
  unfold setInsert
  split
  · rename_i h
    constructor
    · exact .inl
    · rintro (h' | rfl)
      · exact h'
      · exact h
  · simp

theorem setInsert_nodup {s : List Bytes} (hs : s.Nodup) (x : Bytes) : (setInsert s x).Nodup := by
  unfold setInsert
  split
  · exact hs
  · rename_i h
    rw [List.nodup_append]
    exact ⟨hs, by simp, by intro a ha b hb e; simp only [List.mem_singleton] at hb; subst hb; subst e; exact h ha⟩

theorem setExtend_mem (xs : List Bytes) : ∀ (s : List Bytes) (y : Bytes), y ∈ setExtend s xs ↔ y ∈ s ∨ y ∈ xs := by
  unfold setExtend
  induction xs with
  | nil => intro s y; simp
  | cons x xs ih => intro s y; rw [List.foldl_cons, ih, setInsert_mem, List.mem_cons, or_assoc]

theorem setExtend_nodup (xs : List Bytes) : ∀ {s : List Bytes}, s.Nodup → (setExtend s xs).Nodup := by
  unfold setExtend
  induction xs with
  | nil => intro s hs; exact hs
  | cons x xs ih => intro s hs; rw [List.foldl_cons]; exact ih (setInsert_nodup hs x)

theorem convertAll_ret {f : Bytes → Option Bytes} : ∀ {xs ys : List Bytes}, convertAll f xs = .ret ys →
    (∀ x ∈ xs, f x ≠ none) ∧ ∀ y, y ∈ ys ↔ ∃ x ∈ xs, f x = some y
  | [], ys, h => by injection h with h; subst h; simp
  | x :: xs, ys, h => by
    unfold convertAll at h
    cases hx : f x with
    | none => rw [hx] at h; cases h
    | some y0 =>
      rw [hx] at h
      obtain ⟨zs, h1, h2⟩ := Run.bind_eq_ret.1 h
      injection h2 with h2
      subst h2
      obtain ⟨i1, i2⟩ := convertAll_ret h1
      constructor
      · intro z hz
        rcases List.mem_cons.1 hz with rfl | hz
        · rw [hx]; simp
        · exact i1 z hz
      · intro y
        simp only [List.mem_cons, i2, exists_eq_or_imp, hx, Option.some.injEq]
        constructor
        · rintro (rfl | h)
          · exact .inl rfl
          · exact .inr h
        · rintro (rfl | h)
          · exact .inl rfl
          · exact .inr h

theorem convertAll_cases {f : Bytes → Option Bytes} : ∀ xs : List Bytes, (∃ ys, convertAll f xs = .ret ys) ∨ (convertAll f xs = .panic ∧ ∃ x ∈ xs, f x = none)
  | [] => .inl ⟨_, rfl⟩
  | x :: xs => by
    unfold convertAll
    cases hx : f x with
    | none => exact .inr ⟨rfl, x, by simp, hx⟩
    | some y =>
      dsimp only
      rcases convertAll_cases (f := f) xs with ⟨ys, h⟩ | ⟨h, z, hz, hf⟩
      · exact .inl ⟨y :: ys, by rw [h]; rfl⟩
      · exact .inr ⟨by rw [h]; rfl, z, by simp [hz], hf⟩

theorem toMethod_some {m x : Bytes} : toMethod m = some x ↔ methodOk m = true ∧ x = m := by
  unfold toMethod
  split
  · rename_i h; simp [h, eq_comm]
  · rename_i h; simp [h]

theorem toMethod_none {m : Bytes} : toMethod m = none ↔ ¬ methodOk m = true := by
  unfold toMethod; split <;> simp_all

theorem headerName_some {h x : Bytes} (hn : headerNameFromBytes h ≠ none) : headerNameFromBytes h = some x ↔ lower h = x := by
  cases hh : headerNameFromBytes h with
  | none => exact (hn hh).elim
  | some y => rw [(headerName_tokens hh).1]; simp

theorem headerName_idem {h x : Bytes} (hn : headerNameFromBytes h = some x) : headerNameFromBytes x = some x := by
  unfold headerNameFromBytes at hn
  split at hn
  · rename_i hc
    injection hn with hn
    subst hn
    obtain ⟨h1, h2⟩ := hc
    have ll : lower (lower h) = lower h := by
      unfold lower
      rw [List.map_map]
      apply List.map_congr_left
      intro b _
      show lowerByte (lowerByte b) = lowerByte b
      unfold lowerByte
      split
      · rename_i hb
        have : (b + 32).toNat = b.toNat + 32 := by
          rw [UInt8.toNat_add]; simp; omega
        rw [if_neg (by omega)]
      · rfl
    unfold headerNameFromBytes
    rw [if_pos, ll]
    refine ⟨by intro h; apply h1; unfold lower at h; exact List.map_eq_nil_iff.1 h, ?_⟩
    rw [List.all_eq_true] at h2 ⊢
    intro b hb
    obtain ⟨a, ha, rfl⟩ := List.mem_map.1 hb
    have := h2 a ha
    unfold lowerByte
    split
    · rename_i hr
      have e : (a + 32).toNat = a.toNat + 32 := by rw [UInt8.toNat_add]; simp; omega
      unfold isTokenByte
      simp only [Bool.or_eq_true, Bool.and_eq_true, decide_eq_true_eq, beq_iff_eq]
      omega
    · exact this
  · cases hn

/-- What one call does. -/
structure StepBuilt (originOf : Bytes → Option Bytes) (op : CorsOp) (b b' : CorsBuilder) : Prop where
  legal : op.Legal originOf
  methods : ∀ m, m ∈ b'.methods ↔ m ∈ b.methods ∨ op.AllowsMethod m
  headers : ∀ h, h ∈ b'.allowedHeaders ↔ h ∈ b.allowedHeaders ∨ op.AllowsHeader h
  exposed : ∀ h, h ∈ b'.exposedHeaders ↔ h ∈ b.exposedHeaders ∨ op.Exposes h
  credentials : b'.credentials = op.credentials?.getD b.credentials
  maxAge : b'.maxAge = op.maxAge?.or b.maxAge
  anyOrigin : op = .allowAnyOrigin → b'.origins = none
  keepsOrigins : op ≠ .allowAnyOrigin → ¬ op.Restricts → b'.origins = b.origins
  origins : op.Restricts → ∃ l, b'.origins = some l ∧ ∀ o, o ∈ l ↔ o ∈ b.origins.getD [] ∨ op.AllowsOrigin originOf o
  nodup : b.methods.Nodup ∧ b.allowedHeaders.Nodup ∧ b.exposedHeaders.Nodup → b'.methods.Nodup ∧ b'.allowedHeaders.Nodup ∧ b'.exposedHeaders.Nodup

theorem apply_ret {originOf : Bytes → Option Bytes} {op : CorsOp} {b b' : CorsBuilder} (h : b.apply originOf op = .ret b') : StepBuilt originOf op b b' := by
  cases op with
  | allowCredentials a => injection h with h; subst h; constructor <;> simp [CorsOp.Legal, CorsOp.AllowsMethod, CorsOp.AllowsHeader, CorsOp.Exposes, CorsOp.credentials?, CorsOp.maxAge?, CorsOp.Restricts]
  | maxAge a => injection h with h; subst h; constructor <;> simp [CorsOp.Legal, CorsOp.AllowsMethod, CorsOp.AllowsHeader, CorsOp.Exposes, CorsOp.credentials?, CorsOp.maxAge?, CorsOp.Restricts]
  | allowAnyOrigin => injection h with h; subst h; constructor <;> simp [CorsOp.Legal, CorsOp.AllowsMethod, CorsOp.AllowsHeader, CorsOp.Exposes, CorsOp.credentials?, CorsOp.maxAge?, CorsOp.Restricts]
  | allowMethod m =>
    unfold CorsBuilder.apply CorsBuilder.allowMethod at h
    dsimp only at h
    split at h
    · cases h
    · rename_i x hx
      obtain ⟨h1, rfl⟩ := toMethod_some.1 hx
      injection h with h; subst h
      constructor <;> simp [CorsOp.Legal, CorsOp.AllowsMethod, CorsOp.AllowsHeader, CorsOp.Exposes, CorsOp.credentials?, CorsOp.maxAge?, CorsOp.Restricts, setInsert_mem, h1, eq_comm]
      intro a b c; exact ⟨setInsert_nodup a _, b, c⟩
  | allowHeader m =>
    unfold CorsBuilder.apply CorsBuilder.allowHeader at h
    dsimp only at h
    split at h
    · cases h
    · rename_i x hx
      have h1 := (headerName_tokens hx).1
      injection h with h; subst h
      constructor <;> simp [CorsOp.Legal, CorsOp.AllowsMethod, CorsOp.AllowsHeader, CorsOp.Exposes, CorsOp.credentials?, CorsOp.maxAge?, CorsOp.Restricts, setInsert_mem, h1, eq_comm, hx]
      intro a b c; exact ⟨a, setInsert_nodup b _, c⟩
  | exposeHeader m =>
    unfold CorsBuilder.apply CorsBuilder.exposeHeader at h
    dsimp only at h
    split at h
    · cases h
    · rename_i x hx
      have h1 := (headerName_tokens hx).1
      injection h with h; subst h
      constructor <;> simp [CorsOp.Legal, CorsOp.AllowsMethod, CorsOp.AllowsHeader, CorsOp.Exposes, CorsOp.credentials?, CorsOp.maxAge?, CorsOp.Restricts, setInsert_mem, h1, eq_comm, hx]
      intro a b c; exact ⟨a, b, setInsert_nodup c _⟩
  | allowMethods ms =>
    obtain ⟨ys, h1, h2⟩ := Run.bind_eq_ret.1 h
    injection h2 with h2; subst h2
    obtain ⟨k1, k2⟩ := convertAll_ret h1
    have k1' : ∀ m ∈ ms, methodOk m = true := fun m hm => Decidable.byContradiction fun hn => k1 m hm (toMethod_none.2 hn)
    have k2' : ∀ m, m ∈ ys ↔ m ∈ ms := by
      intro m
      rw [k2]
      constructor
      · rintro ⟨x, hx, hy⟩; rw [(toMethod_some.1 hy).2]; exact hx
      · intro hm; exact ⟨m, hm, toMethod_some.2 ⟨k1' m hm, rfl⟩⟩
    constructor <;> simp [CorsOp.Legal, CorsOp.AllowsMethod, CorsOp.AllowsHeader, CorsOp.Exposes, CorsOp.credentials?, CorsOp.maxAge?, CorsOp.Restricts, setExtend_mem, k2']
    · exact k1'
    · intro a b c; exact ⟨setExtend_nodup _ a, b, c⟩
  | allowHeaders hs =>
    obtain ⟨ys, h1, h2⟩ := Run.bind_eq_ret.1 h
    injection h2 with h2; subst h2
    obtain ⟨k1, k2⟩ := convertAll_ret h1
    have k2' : ∀ m, m ∈ ys ↔ ∃ h' ∈ hs, lower h' = m := by
      intro m
      rw [k2]
      exact ⟨fun ⟨x, hx, hy⟩ => ⟨x, hx, (headerName_some (k1 x hx)).1 hy⟩, fun ⟨x, hx, hy⟩ => ⟨x, hx, (headerName_some (k1 x hx)).2 hy⟩⟩
    constructor <;> simp [CorsOp.Legal, CorsOp.AllowsMethod, CorsOp.AllowsHeader, CorsOp.Exposes, CorsOp.credentials?, CorsOp.maxAge?, CorsOp.Restricts, setExtend_mem, k2']
    · exact k1
    · intro a b c; exact ⟨a, setExtend_nodup _ b, c⟩
  | exposeHeaders hs =>
    obtain ⟨ys, h1, h2⟩ := Run.bind_eq_ret.1 h
    injection h2 with h2; subst h2
    obtain ⟨k1, k2⟩ := convertAll_ret h1
    have k2' : ∀ m, m ∈ ys ↔ ∃ h' ∈ hs, lower h' = m := by
      intro m
      rw [k2]
      exact ⟨fun ⟨x, hx, hy⟩ => ⟨x, hx, (headerName_some (k1 x hx)).1 hy⟩, fun ⟨x, hx, hy⟩ => ⟨x, hx, (headerName_some (k1 x hx)).2 hy⟩⟩
    constructor <;> simp [CorsOp.Legal, CorsOp.AllowsMethod, CorsOp.AllowsHeader, CorsOp.Exposes, CorsOp.credentials?, CorsOp.maxAge?, CorsOp.Restricts, setExtend_mem, k2']
    · exact k1
    · intro a b c; exact ⟨a, b, setExtend_nodup _ c⟩
  | allowOrigin o =>
    obtain ⟨ys, h1, h2⟩ := Run.bind_eq_ret.1 h
    injection h2 with h2; subst h2
    obtain ⟨k1, k2⟩ := convertAll_ret h1
    constructor <;> simp [CorsOp.Legal, CorsOp.AllowsMethod, CorsOp.AllowsHeader, CorsOp.Exposes, CorsOp.credentials?, CorsOp.maxAge?, CorsOp.Restricts, CorsOp.AllowsOrigin, setExtend_mem, k2]
    · exact k1 o (by simp)
  | allowOrigins os =>
    obtain ⟨ys, h1, h2⟩ := Run.bind_eq_ret.1 h
    injection h2 with h2; subst h2
    obtain ⟨k1, k2⟩ := convertAll_ret h1
    constructor <;> simp [CorsOp.Legal, CorsOp.AllowsMethod, CorsOp.AllowsHeader, CorsOp.Exposes, CorsOp.credentials?, CorsOp.maxAge?, CorsOp.Restricts, CorsOp.AllowsOrigin, setExtend_mem, k2]
    · exact k1

theorem apply_cases (originOf : Bytes → Option Bytes) (op : CorsOp) (b : CorsBuilder) :
    (∃ b', b.apply originOf op = .ret b') ∨ (b.apply originOf op = .panic ∧ ¬ op.Legal originOf) := by
  cases op with
  | allowCredentials a => exact .inl ⟨_, rfl⟩
  | maxAge a => exact .inl ⟨_, rfl⟩
  | allowAnyOrigin => exact .inl ⟨_, rfl⟩
  | allowMethod m =>
    unfold CorsBuilder.apply CorsBuilder.allowMethod
    dsimp only
    split
    · rename_i h; exact .inr ⟨rfl, toMethod_none.1 h⟩
    · exact .inl ⟨_, rfl⟩
  | allowHeader m =>
    unfold CorsBuilder.apply CorsBuilder.allowHeader
    dsimp only
    split
    · rename_i h; exact .inr ⟨rfl, fun hl => hl h⟩
    · exact .inl ⟨_, rfl⟩
  | exposeHeader m =>
    unfold CorsBuilder.apply CorsBuilder.exposeHeader
    dsimp only
    split
    · rename_i h; exact .inr ⟨rfl, fun hl => hl h⟩
    · exact .inl ⟨_, rfl⟩
  | allowMethods ms =>
    rcases convertAll_cases (f := toMethod) ms with ⟨ys, h⟩ | ⟨h, x, hx, hn⟩
    · exact .inl ⟨_, by unfold CorsBuilder.apply CorsBuilder.allowMethods; dsimp only; rw [h]; rfl⟩
    · exact .inr ⟨by unfold CorsBuilder.apply CorsBuilder.allowMethods; dsimp only; rw [h]; rfl, fun hl => toMethod_none.1 hn (hl x hx)⟩
  | allowHeaders ms =>
    rcases convertAll_cases (f := headerNameFromBytes) ms with ⟨ys, h⟩ | ⟨h, x, hx, hn⟩
    · exact .inl ⟨_, by unfold CorsBuilder.apply CorsBuilder.allowHeaders; dsimp only; rw [h]; rfl⟩
    · exact .inr ⟨by unfold CorsBuilder.apply CorsBuilder.allowHeaders; dsimp only; rw [h]; rfl, fun hl => hl x hx hn⟩
  | exposeHeaders ms =>
    rcases convertAll_cases (f := headerNameFromBytes) ms with ⟨ys, h⟩ | ⟨h, x, hx, hn⟩
    · exact .inl ⟨_, by unfold CorsBuilder.apply CorsBuilder.exposeHeaders; dsimp only; rw [h]; rfl⟩
    · exact .inr ⟨by unfold CorsBuilder.apply CorsBuilder.exposeHeaders; dsimp only; rw [h]; rfl, fun hl => hl x hx hn⟩
  | allowOrigin o =>
    rcases convertAll_cases (f := originOf) [o] with ⟨ys, h⟩ | ⟨h, x, hx, hn⟩
    · exact .inl ⟨_, by unfold CorsBuilder.apply CorsBuilder.allowOrigins; dsimp only; rw [h]; rfl⟩
    · refine .inr ⟨by unfold CorsBuilder.apply CorsBuilder.allowOrigins; dsimp only; rw [h]; rfl, fun hl => ?_⟩
      simp only [List.mem_singleton] at hx; subst hx; exact hl hn
  | allowOrigins os =>
    rcases convertAll_cases (f := originOf) os with ⟨ys, h⟩ | ⟨h, x, hx, hn⟩
    · exact .inl ⟨_, by unfold CorsBuilder.apply CorsBuilder.allowOrigins; dsimp only; rw [h]; rfl⟩
    · exact .inr ⟨by unfold CorsBuilder.apply CorsBuilder.allowOrigins; dsimp only; rw [h]; rfl, fun hl => hl x hx hn⟩

theorem lastSaid_cons {α : Type} (f : CorsOp → Option α) (op : CorsOp) (ops : List CorsOp) : lastSaid f (op :: ops) = (lastSaid f ops).or (f op) := by
  unfold lastSaid
  rw [List.filterMap_cons]
  cases f op with
  | none => cases (List.filterMap f ops).getLast? <;> rfl
  | some a =>
    dsimp only
    rw [List.getLast?_cons]
    cases (List.filterMap f ops).getLast? <;> rfl

theorem applyAll_built {originOf : Bytes → Option Bytes} : ∀ {ops : List CorsOp} {b b' : CorsBuilder}, b.applyAll originOf ops = .ret b' →
    (∀ op ∈ ops, op.Legal originOf) ∧
    (∀ m, m ∈ b'.methods ↔ m ∈ b.methods ∨ ∃ op ∈ ops, op.AllowsMethod m) ∧
    (∀ m, m ∈ b'.allowedHeaders ↔ m ∈ b.allowedHeaders ∨ ∃ op ∈ ops, op.AllowsHeader m) ∧
    (∀ m, m ∈ b'.exposedHeaders ↔ m ∈ b.exposedHeaders ∨ ∃ op ∈ ops, op.Exposes m) ∧
    b'.credentials = (lastSaid CorsOp.credentials? ops).getD b.credentials ∧
    b'.maxAge = (lastSaid CorsOp.maxAge? ops).or b.maxAge ∧
    (b.methods.Nodup ∧ b.allowedHeaders.Nodup ∧ b.exposedHeaders.Nodup → b'.methods.Nodup ∧ b'.allowedHeaders.Nodup ∧ b'.exposedHeaders.Nodup)
  | [], b, b', h => by injection h with h; subst h; simp [lastSaid]
  | op :: ops, b, b', h => by
    obtain ⟨b1, h1, h2⟩ := Run.bind_eq_ret.1 h
    have s := apply_ret h1
    obtain ⟨i0, i1, i2, i3, i4, i5, i6⟩ := applyAll_built h2
    refine ⟨?_, ?_, ?_, ?_, ?_, ?_, ?_⟩
    · intro o ho
      rcases List.mem_cons.1 ho with rfl | ho
      · exact s.legal
      · exact i0 o ho
    · intro m; rw [i1, s.methods, or_assoc]; simp
    · intro m; rw [i2, s.headers, or_assoc]; simp
    · intro m; rw [i3, s.exposed, or_assoc]; simp
    · rw [i4, s.credentials, lastSaid_cons]
      cases lastSaid CorsOp.credentials? ops <;> simp
    · rw [i5, s.maxAge, lastSaid_cons, Option.or_assoc]
    · intro hb; exact i6 (s.nodup hb)

theorem applyAll_origins {originOf : Bytes → Option Bytes} : ∀ {ops : List CorsOp} {b b' : CorsBuilder}, b.applyAll originOf ops = .ret b' →
    .allowAnyOrigin ∉ ops →
    ((∀ op ∈ ops, ¬ op.Restricts) → b'.origins = b.origins) ∧
    ((∃ op ∈ ops, op.Restricts) → ∃ l, b'.origins = some l ∧ ∀ o, o ∈ l ↔ o ∈ b.origins.getD [] ∨ ∃ op ∈ ops, op.AllowsOrigin originOf o)
  | [], b, b', h, _ => by injection h with h; subst h; simp
  | op :: ops, b, b', h, hn => by
    obtain ⟨b1, h1, h2⟩ := Run.bind_eq_ret.1 h
    have s := apply_ret h1
    obtain ⟨i1, i2⟩ := applyAll_origins h2 (fun h => hn (by simp [h]))
    have hop : op ≠ .allowAnyOrigin := by rintro rfl; exact hn (by simp)
    have noAllow : ∀ op : CorsOp, ¬ op.Restricts → ∀ o, ¬ op.AllowsOrigin originOf o := by
      intro op hr o ha
      cases op <;> simp_all [CorsOp.Restricts, CorsOp.AllowsOrigin]
    constructor
    · intro hall
      rw [i1 fun o ho => hall o (by simp [ho]), s.keepsOrigins hop (hall op (by simp))]
    · intro _
      by_cases hr : ∃ o ∈ ops, o.Restricts
      · obtain ⟨l, hl, hm⟩ := i2 hr
        refine ⟨l, hl, fun o => ?_⟩
        rw [hm]
        by_cases ho : op.Restricts
        · obtain ⟨l1, hl1, hm1⟩ := s.origins ho
          rw [hl1, Option.getD_some, hm1, or_assoc]; simp
        · rw [s.keepsOrigins hop ho]
          simp [noAllow op ho o]
      · have hr' : ∀ o ∈ ops, ¬ o.Restricts := fun o ho hx => hr ⟨o, ho, hx⟩
        have ho : op.Restricts := by
          rename_i hex
          obtain ⟨o, ho, hx⟩ := hex
          rcases List.mem_cons.1 ho with rfl | ho
          · exact hx
          · exact (hr' o ho hx).elim
        obtain ⟨l1, hl1, hm1⟩ := s.origins ho
        refine ⟨l1, by rw [i1 hr', hl1], fun o => ?_⟩
        rw [hm1]
        simp only [List.mem_cons, exists_eq_or_imp]
        constructor
        · rintro (h | h)
          · exact .inl h
          · exact .inr (.inl h)
        · rintro (h | h | ⟨x, hx, h⟩)
          · exact .inl h
          · exact .inr h
          · exact (noAllow x (hr' x hx) o h).elim

theorem applyAll_append {originOf : Bytes → Option Bytes} : ∀ (l1 : List CorsOp) {l2 : List CorsOp} {b b' : CorsBuilder}, b.applyAll originOf (l1 ++ l2) = .ret b' →
    ∃ b1, b.applyAll originOf l1 = .ret b1 ∧ b1.applyAll originOf l2 = .ret b'
  | [], _, b, _, h => ⟨b, rfl, h⟩
  | op :: l1, _, b, _, h => by
    obtain ⟨b0, h1, h2⟩ := Run.bind_eq_ret.1 h
    obtain ⟨b1, h3, h4⟩ := applyAll_append l1 h2
    exact ⟨b1, by unfold CorsBuilder.applyAll; rw [h1]; exact h3, h4⟩

theorem applyAll_cases {originOf : Bytes → Option Bytes} : ∀ (ops : List CorsOp) (b : CorsBuilder),
    (∃ b', b.applyAll originOf ops = .ret b') ∨ (b.applyAll originOf ops = .panic ∧ ∃ op ∈ ops, ¬ op.Legal originOf)
  | [], b => .inl ⟨b, rfl⟩
  | op :: ops, b => by
    unfold CorsBuilder.applyAll
    rcases apply_cases originOf op b with ⟨b', h⟩ | ⟨h, hl⟩
    · rw [h]
      rcases applyAll_cases ops b' with ⟨b2, h2⟩ | ⟨h2, o, ho, hl⟩
      · exact .inl ⟨b2, h2⟩
      · exact .inr ⟨h2, o, by simp [ho], hl⟩
    · exact .inr ⟨by rw [h]; rfl, op, by simp, hl⟩

end Tophat
