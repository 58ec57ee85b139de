import Verif.Proofs.ServerDecode
import Verif.Spec.Request
import Verif.Spec.Fields
import Verif.Proofs.Http
/-! The server's treatment of a head agrees with the specification `Judged`. -/

set_option linter.unusedSectionVars false

namespace Tophat
open Spec Httparse

/-! ## Header fields -/

theorem valuesOf_snoc (name : Bytes) (fs : List (Bytes × Bytes)) (f : Bytes × Bytes) :
    valuesOf name (fs ++ [f]) = valuesOf name fs ++ (if lower f.1 = name then [f.2] else []) := by
  unfold valuesOf
  by_cases h : lower f.1 = name <;> simp [h]

theorem Spec.MapOf.snoc {m : HeaderMap} {fs : List (Bytes × Bytes)} (h : MapOf m fs) (f : Bytes × Bytes) :
    MapOf (m.append (lower f.1) f.2) (fs ++ [f]) := by
  refine ⟨h.1.append _ _, ?_⟩
  intro k
  rw [HeaderMap.getAll_append h.1.nodup, h.2 k]
  by_cases hk : lower f.1 = k
  · simp [hk]
  · simp [hk]
    intro h; exact absurd h.symm hk

theorem Spec.MapOf.values {m : HeaderMap} {fs : List (Bytes × Bytes)} (h : MapOf m fs) (k : Bytes) :
    m.getAll k = valuesOf k fs := h.2 k

/-- What the loop over the header fields knows after the fields `fs`. -/
structure AccOk (fs : List (Bytes × Bytes)) (acc : HeadAcc) : Prop where
  good : ∀ f ∈ fs, GoodField f
  headers : MapOf acc.headers fs
  length : acc.contentLength = (valuesOf H.contentLength fs).getLast?.bind parseUsize
  host : acc.hasHost = !(valuesOf H.host fs).isEmpty
  coding : acc.isTe = !(valuesOf H.transferEncoding fs).isEmpty
  chunked : acc.isChunked = true ↔ ∃ c, (valuesOf H.transferEncoding fs).getLast? = some c ∧ lower c = ascii "chunked"

theorem accOk_nil : AccOk [] ⟨[], none, false, false, false⟩ where
  good := by simp
  headers := ⟨HeaderMap.wf_nil, by simp⟩
  length := rfl
  host := rfl
  coding := rfl
  chunked := by simp [valuesOf]

theorem headerNameFromBytes_token {n : Bytes} (h1 : n ≠ []) (h2 : ∀ b ∈ n, tokenByte b) :
    headerNameFromBytes n = some (lower n) := by
  unfold headerNameFromBytes
  have : n.all isTokenByte = true := List.all_eq_true.2 fun b hb => (isTokenByte_iff b).2 (h2 b hb)
  simp [this, h1]

theorem headerValueFromBytes_value {v : Bytes} (h : ∀ b ∈ v, valueByte b) : headerValueFromBytes v = some v := by
  unfold headerValueFromBytes
  have : v.all headerValueByte = true := by
    refine List.all_eq_true.2 fun b hb => ?_
    have := h b hb
    unfold valueByte at this
    unfold headerValueByte
    simp; omega
  simp [this]

theorem parseUsize_none {v : Bytes} (h : parseUsize v = none) : ∀ n, ¬ IsLength v n := by
  intro n hn
  rw [(parseUsize_some v n).2 hn] at h; cases h

/-- One field: it is bad, or accounted for. -/
theorem specialHeader_spec {fs : List (Bytes × Bytes)} {acc : HeadAcc} (h : AccOk fs acc) (n v : Bytes) (h1 : n ≠ [])
    (h2 : ∀ b ∈ n, tokenByte b) (h3 : ∀ b ∈ v, valueByte b) :
    (BadLength (n, v) ∧ specialHeader acc n v = .fail .httpInvalidContentLength) ∨
    (BadCoding (n, v) ∧ specialHeader acc n v = .fail .httpUnsupportedTransferEncoding) ∨
    ∃ acc1 acc', specialHeader acc n v = .ok acc1 ∧ appendHeader acc1 n v = .ok acc' ∧ AccOk (fs ++ [(n, v)]) acc' := by
  have happ : ∀ acc1 : HeadAcc, appendHeader acc1 n v = .ok { acc1 with headers := acc1.headers.append (lower n) v } := by
    intro acc1
    unfold appendHeader
    rw [headerNameFromBytes_token h1 h2, headerValueFromBytes_value h3]
  have hcl : H.contentLength = ascii "content-length" := rfl
  have hte : H.transferEncoding = ascii "transfer-encoding" := rfl
  unfold specialHeader
  by_cases c1 : lower n = H.contentLength
  · rw [if_pos c1]
    have n2 : lower n ≠ H.transferEncoding := by rw [c1]; decide
    have n3 : lower n ≠ H.host := by rw [c1]; decide
    cases hp : parseUsize v with
    | none => exact .inl ⟨⟨c1, parseUsize_none hp⟩, rfl⟩
    | some k =>
      refine .inr (.inr ⟨_, _, rfl, happ _, ?_⟩)
      refine ⟨?_, h.headers.snoc (n, v), ?_, ?_, ?_, ?_⟩
      · intro f hf
        rcases List.mem_append.1 hf with hf | hf
        · exact h.good f hf
        · simp at hf; subst hf
          exact ⟨fun hb => hb.2 k ((parseUsize_some v k).1 hp), fun hb => n2 hb.1⟩
      · simp [valuesOf_snoc, c1, hp]
      · simp [valuesOf_snoc, n3, h.host]
      · simp [valuesOf_snoc, n2, h.coding]
      · simp only [valuesOf_snoc, n2, if_false, List.append_nil]; exact h.chunked
  · rw [if_neg c1]
    by_cases c2 : lower n = H.transferEncoding
    · rw [if_pos c2]
      have n3 : lower n ≠ H.host := by rw [c2]; decide
      by_cases c4 : lower v = ascii "chunked" ∨ lower v = ascii "identity"
      · rw [if_pos c4]
        refine .inr (.inr ⟨_, _, rfl, happ _, ?_⟩)
        refine ⟨?_, h.headers.snoc (n, v), ?_, ?_, ?_, ?_⟩
        · intro f hf
          rcases List.mem_append.1 hf with hf | hf
          · exact h.good f hf
          · simp at hf; subst hf
            exact ⟨fun hb => c1 hb.1, fun hb => hb.2 c4⟩
        · simp [valuesOf_snoc, c1, h.length]
        · simp [valuesOf_snoc, n3, h.host]
        · simp [valuesOf_snoc, c2]
        · simp [valuesOf_snoc, c2]
      · rw [if_neg c4]
        exact .inr (.inl ⟨⟨c2, c4⟩, rfl⟩)
    · rw [if_neg c2]
      have good : ∀ f ∈ fs ++ [(n, v)], GoodField f := by
        intro f hf
        rcases List.mem_append.1 hf with hf | hf
        · exact h.good f hf
        · simp at hf; subst hf
          exact ⟨fun hb => c1 hb.1, fun hb => c2 hb.1⟩
      by_cases c3 : lower n = H.host
      · rw [if_pos c3]
        refine .inr (.inr ⟨_, _, rfl, happ _, good, h.headers.snoc (n, v), ?_, ?_, ?_, ?_⟩)
        · simp [valuesOf_snoc, c1, h.length]
        · simp [valuesOf_snoc, c3]
        · simp [valuesOf_snoc, c2, h.coding]
        · simp only [valuesOf_snoc, c2, if_false, List.append_nil]; exact h.chunked
      · rw [if_neg c3]
        refine .inr (.inr ⟨_, _, rfl, happ _, good, h.headers.snoc (n, v), ?_, ?_, ?_, ?_⟩)
        · simp [valuesOf_snoc, c1, h.length]
        · simp [valuesOf_snoc, c3, h.host]
        · simp [valuesOf_snoc, c2, h.coding]
        · simp only [valuesOf_snoc, c2, if_false, List.append_nil]; exact h.chunked

/-- Fields as they come out of the parser. -/
def RawFields (fs : List (Bytes × Bytes)) : Prop :=
  ∀ f ∈ fs, f.1 ≠ [] ∧ (∀ b ∈ f.1, tokenByte b) ∧ ∀ b ∈ f.2, valueByte b

theorem Spec.FieldSection.raw {l : Bytes} {fs : List (Bytes × Bytes)} (h : FieldSection l fs) : RawFields fs := by
  induction h with
  | blank => intro f hf; simp at hf
  | field hl _ ih =>
    intro f hf
    rcases List.mem_cons.1 hf with rfl | hf
    · obtain ⟨ws, e, _, h1, h2, _, h3, _, _⟩ := hl
      exact ⟨h1, h2, h3⟩
    · exact ih f hf

/-- The loop over the header fields. -/
theorem headerLoop_spec (pre fs : List (Bytes × Bytes)) (acc : HeadAcc) (h : AccOk pre acc) (hr : RawFields fs) :
    (∃ a f b, fs = a ++ f :: b ∧ (∀ g ∈ pre ++ a, GoodField g) ∧
      ((BadLength f ∧ headerLoop acc fs = .fail .httpInvalidContentLength) ∨
       (BadCoding f ∧ headerLoop acc fs = .fail .httpUnsupportedTransferEncoding))) ∨
    ∃ acc', headerLoop acc fs = .ok acc' ∧ AccOk (pre ++ fs) acc' := by
  induction fs generalizing pre acc with
  | nil => exact .inr ⟨acc, rfl, by simpa using h⟩
  | cons f fs ih =>
    obtain ⟨n, v⟩ := f
    obtain ⟨r1, r2, r3⟩ := hr (n, v) List.mem_cons_self
    rcases specialHeader_spec h n v r1 r2 r3 with ⟨b, hs⟩ | ⟨b, hs⟩ | ⟨acc1, acc2, hs1, hs2, hok⟩
    · refine .inl ⟨[], (n, v), fs, rfl, by simpa using h.good, .inl ⟨b, ?_⟩⟩
      simp [headerLoop, hs]
    · refine .inl ⟨[], (n, v), fs, rfl, by simpa using h.good, .inr ⟨b, ?_⟩⟩
      simp [headerLoop, hs]
    · have he : headerLoop acc ((n, v) :: fs) = headerLoop acc2 fs := by simp [headerLoop, hs1, hs2]
      rw [he]
      rcases ih _ _ hok (fun f hf => hr f (List.mem_cons_of_mem _ hf)) with ⟨a, f, b, h1, h2, h3⟩ | ⟨acc', h1, h2⟩
      · exact .inl ⟨(n, v) :: a, f, b, by simp [h1], by simpa using h2, h3⟩
      · exact .inr ⟨acc', h1, by simpa using h2⟩

/-! ## The head -/

theorem hasHead_iff (h m t : Bytes) (v : Nat) (fs : List (Bytes × Bytes)) :
    HasHead h m t v fs ↔ ∃ rest, parseRequest 16 h = .ok rest ⟨m, t, v, fs⟩ := by
  constructor
  · rintro ⟨hd, junk, h1, h2, h3⟩
    exact ⟨junk, (parseRequest_ok _ _ _ _ _ _ _).2 ⟨hd, h1, h2, h3⟩⟩
  · rintro ⟨rest, h1⟩
    obtain ⟨hd, h2, h3, h4⟩ := (parseRequest_ok _ _ _ _ _ _ _).1 h1
    exact ⟨hd, rest, h2, h3, h4⟩

/-- A head can be read in one way only. -/
theorem Spec.HasHead.unique {h m t m' t' : Bytes} {v v' : Nat} {fs fs' : List (Bytes × Bytes)} (a : HasHead h m t v fs) (b : HasHead h m' t' v' fs') :
    m = m' ∧ t = t' ∧ v = v' ∧ fs = fs' := by
  obtain ⟨r, h1⟩ := (hasHead_iff _ _ _ _ _).1 a
  obtain ⟨r', h2⟩ := (hasHead_iff _ _ _ _ _).1 b
  rw [h1] at h2
  injection h2 with _ h2
  injection h2 with h2 h3 h4 h5
  exact ⟨h2, h3, h4, h5⟩

theorem Spec.HasHead.raw {h m t : Bytes} {v : Nat} {fs : List (Bytes × Bytes)} (a : HasHead h m t v fs) :
    (∀ b ∈ m, tokenByte b) ∧ RawFields fs := by
  obtain ⟨_, _, _, ⟨_, _, _, _, _, h3, _, _, _, h⟩, _⟩ := a
  exact ⟨h3, h.raw⟩

theorem methodOk_iff {h m t : Bytes} {v : Nat} {fs : List (Bytes × Bytes)} (a : HasHead h m t v fs) : methodOk m = true ↔ m ≠ [] := by
  have : m.all isTokenByte = true := List.all_eq_true.2 fun b hb => (isTokenByte_iff b).2 (a.raw.1 b hb)
  unfold methodOk
  simp [this]

/-- What each failure of `parseHead` leads to. -/
def failVerdict : DecodeFail → Verdict
  | .httpUnsupportedTransferEncoding => .giveUp
  | .http10NotSupported => .refuse false 505
  | _ => .refuse false 400

/-- Failures of `parseHead` are not connection failures. -/
theorem parseHead_spec (uriOk : Bytes → Bool) (h : Bytes) :
    (∃ f, parseHead h = .fail f ∧ Judged uriOk h (failVerdict f) ∧ ∀ e, f ≠ .connectionLost e) ∨
    ∃ p fs, parseHead h = .ok p ∧ HasHead h p.method p.path 1 fs ∧ p.method ≠ [] ∧ AccOk fs p.acc := by
  unfold parseHead
  cases hp : parseRequest 16 h with
  | err e =>
    refine .inl ⟨_, rfl, .malformed ?_, by simp⟩
    intro m t v fs hh
    obtain ⟨r, h1⟩ := (hasHead_iff _ _ _ _ _).1 hh
    rw [hp] at h1; cases h1
  | part =>
    refine .inl ⟨_, rfl, .malformed ?_, by simp⟩
    intro m t v fs hh
    obtain ⟨r, h1⟩ := (hasHead_iff _ _ _ _ _).1 hh
    rw [hp] at h1; cases h1
  | ok rest req =>
    obtain ⟨m, t, v, fs⟩ := req
    have hh : HasHead h m t v fs := (hasHead_iff _ _ _ _ _).2 ⟨rest, hp⟩
    dsimp only
    by_cases hm : m = []
    · have : ¬ methodOk m = true := by rw [methodOk_iff hh]; simp [hm]
      rw [if_neg this]
      subst hm
      exact .inl ⟨_, rfl, .noMethod hh, by simp⟩
    · rw [if_pos ((methodOk_iff hh).2 hm)]
      by_cases hv : v = 1
      · rw [if_pos hv]
        subst hv
        rcases headerLoop_spec [] fs _ accOk_nil hh.raw.2 with ⟨a, f, b, h1, h2, h3⟩ | ⟨acc', h1, h2⟩
        · subst h1
          rcases h3 with ⟨h3, h4⟩ | ⟨h3, h4⟩
          · rw [h4]; exact .inl ⟨_, rfl, .length hh hm (by simpa using h2) h3, by simp⟩
          · rw [h4]; exact .inl ⟨_, rfl, .coding hh hm (by simpa using h2) h3, by simp⟩
        · rw [h1]
          exact .inr ⟨_, fs, rfl, hh, hm, by simpa using h2⟩
      · rw [if_neg hv]
        exact .inl ⟨_, rfl, .version hh hm hv, by simp⟩

theorem interimBytes_eq {p : Parsed} {fs : List (Bytes × Bytes)} (h : AccOk fs p.acc) :
    interimBytes p = if Expects fs then expectResponse else [] := by
  unfold interimBytes Expects HeaderMap.get
  rw [h.headers.values]
  have : H.expect = ascii "expect" := rfl
  rw [this]
  by_cases hx : (valuesOf (ascii "expect") fs).head? = some (ascii "100-continue") <;> simp [hx]

/-- What comes after the header loop. -/
theorem finishDecode_spec {ρ : Type} (uriOk : Bytes → Bool) (pool : Pool) (r : BufRd ρ) {h : Bytes} {p : Parsed} {fs : List (Bytes × Bytes)}
    (h2 : HasHead h p.method p.path 1 fs) (h3 : p.method ≠ []) (h4 : AccOk fs p.acc) :
    (∃ f, finishDecode uriOk pool r p = .fail f r.inner ∧ Judged uriOk h (.refuse (Expects fs) 400) ∧
      failResponse f = some (plainResponse 400) ∧ failError f = none) ∨
    ∃ len body, finishDecode uriOk pool r p = .request ⟨⟨p.method, p.path, p.acc.headers⟩, body, len⟩ ∧
      Judged uriOk h (.serve (Expects fs) p.method p.path fs len) ∧
      ((∃ n, len = some n ∧ body = .fixed ⟨r, n⟩) ∨ (len = none ∧ body = .chunked (BufRd.new (ChunkedDecoder.new r pool)))) := by
  have hte : H.transferEncoding = ascii "transfer-encoding" := rfl
  have hcl : H.contentLength = ascii "content-length" := rfl
  have hho : H.host = ascii "host" := rfl
  have e1 := h4.host
  have e2 := h4.coding
  have e3 := h4.chunked
  have e4 := h4.length
  rw [hho] at e1; rw [hte] at e2 e3; rw [hcl] at e4
  unfold finishDecode
  by_cases c1 : valuesOf (ascii "host") fs = []
  · rw [c1] at e1
    rw [if_neg (by rw [e1]; simp)]
    exact .inl ⟨_, rfl, .noHost h2 h3 h4.good c1, rfl, rfl⟩
  · rw [if_pos (by rw [e1]; simpa using c1)]
    by_cases c2 : uriOk p.path = true
    · simp only [c2, if_true]
      by_cases c3 : ∃ c, (valuesOf (ascii "transfer-encoding") fs).getLast? = some c ∧ lower c = ascii "chunked"
      · obtain ⟨c, g1, g2⟩ := c3
        have hne : valuesOf (ascii "transfer-encoding") fs ≠ [] := by intro h; rw [h] at g1; simp at g1
        have ht : (p.acc.isTe && p.acc.isChunked) = true := by
          rw [e3.2 ⟨c, g1, g2⟩, e2]; simpa using hne
        rw [if_pos ht]
        refine .inr ⟨none, _, rfl, .serve h2 h3 h4.good c1 c2 ?_, .inr ⟨rfl, rfl⟩⟩
        unfold BodyLength
        rw [g1]
        simp only [g2, if_true]
      · have ht : ¬ (p.acc.isTe && p.acc.isChunked) = true := by
          intro h
          simp only [Bool.and_eq_true] at h
          exact c3 (e3.1 h.2)
        rw [if_neg ht]
        refine .inr ⟨_, _, rfl, .serve h2 h3 h4.good c1 c2 ?_, .inl ⟨_, rfl, rfl⟩⟩
        have hplain : BodyLength.Plain fs (some (p.acc.contentLength.getD 0)) := by
          unfold BodyLength.Plain
          cases hl : (valuesOf (ascii "content-length") fs).getLast? with
          | none => rw [hl] at e4; rw [e4]; rfl
          | some v =>
            rw [hl] at e4
            dsimp only [Option.bind] at e4
            have hv : v ∈ valuesOf (ascii "content-length") fs := List.mem_of_getLast? hl
            unfold valuesOf at hv
            obtain ⟨f, hf, rfl⟩ := List.mem_map.1 hv
            simp at hf
            have hg := (h4.good f hf.1).1
            have : ∃ n, IsLength f.2 n := by
              apply Classical.byContradiction
              intro hno
              exact hg ⟨hf.2, fun n hn => hno ⟨n, hn⟩⟩
            obtain ⟨n, hn⟩ := this
            refine ⟨n, hn, ?_⟩
            rw [e4, (parseUsize_some _ _).2 hn]; rfl
        unfold BodyLength
        cases hl : (valuesOf (ascii "transfer-encoding") fs).getLast? with
        | none => exact hplain
        | some c =>
          dsimp only
          rw [if_neg (fun h => c3 ⟨c, hl, h⟩)]
          exact hplain
    · have c2' : uriOk p.path = false := by simpa using c2
      simp only [c2', Bool.false_eq_true, if_false]
      exact .inl ⟨_, rfl, .badTarget h2 h3 h4.good c1 c2', rfl, rfl⟩

/-! ## Verdicts are unique -/

theorem Spec.IsLength.unique {v : Bytes} {n n' : Nat} (a : IsLength v n) (b : IsLength v n') : n = n' := by
  have h1 := (parseUsize_some v n).2 a
  have h2 := (parseUsize_some v n').2 b
  rw [h1] at h2; injection h2

theorem Spec.BodyLength.unique {fs : List (Bytes × Bytes)} {l l' : Option Nat} (a : BodyLength fs l) (b : BodyLength fs l') : l = l' := by
  have plain : ∀ {l l' : Option Nat}, BodyLength.Plain fs l → BodyLength.Plain fs l' → l = l' := by
    intro l l' a b
    unfold BodyLength.Plain at a b
    cases h : (valuesOf (ascii "content-length") fs).getLast? with
    | none => rw [h] at a b; dsimp only at a b; rw [a, b]
    | some v =>
      rw [h] at a b
      obtain ⟨n, a1, rfl⟩ := a
      obtain ⟨n', b1, rfl⟩ := b
      rw [a1.unique b1]
  unfold BodyLength at a b
  cases h : (valuesOf (ascii "transfer-encoding") fs).getLast? with
  | none => rw [h] at a b; exact plain a b
  | some c =>
    rw [h] at a b
    dsimp only at a b
    split at a
    · rename_i hc; rw [if_pos hc] at b; rw [a, b]
    · rename_i hc; rw [if_neg hc] at b; exact plain a b

theorem bad_exclusive {f : Bytes × Bytes} (a : BadLength f) (b : BadCoding f) : False := by
  have := a.1.symm.trans b.1
  revert this; decide

theorem first_bad {a b a' b' : List (Bytes × Bytes)} {f f' : Bytes × Bytes} (h : a ++ f :: b = a' ++ f' :: b')
    (ha : ∀ g ∈ a, GoodField g) (ha' : ∀ g ∈ a', GoodField g) (hf : ¬ GoodField f) (hf' : ¬ GoodField f') : f = f' := by
  rcases List.append_eq_append_iff.1 h with ⟨c, h1, h2⟩ | ⟨c, h1, h2⟩
  · cases c with
    | nil => simp at h2; exact h2.1
    | cons x c => simp at h2; exact absurd (ha' f (by rw [h1]; simp [h2.1])) hf
  · cases c with
    | nil => simp at h2; exact h2.1.symm
    | cons x c => simp at h2; exact absurd (ha f' (by rw [h1]; simp [h2.1])) hf'

/-- A head gets one verdict. -/
theorem Spec.Judged.unique {uriOk : Bytes → Bool} {h : Bytes} {v v' : Verdict} (a : Judged uriOk h v) (b : Judged uriOk h v') : v = v' := by
  have key : ∀ {v v' : Verdict}, Judged uriOk h v → Judged uriOk h v' →
      ∀ {m t k fs}, HasHead h m t k fs → v = v' := by
    intro v v' a b m t k fs hh
    have gl : ∀ {f}, BadLength f → ¬ GoodField f := fun hb hg => hg.1 hb
    have gc : ∀ {f}, BadCoding f → ¬ GoodField f := fun hb hg => hg.2 hb
    have mid : ∀ {l : List (Bytes × Bytes)} {f r}, f ∈ l ++ f :: r := by intro l f r; simp
    cases a with
    | malformed a => exact absurd hh (a _ _ _ _)
    | noMethod a =>
      cases b with
      | malformed b => exact absurd hh (b _ _ _ _)
      | noMethod b => rfl
      | version b b1 => exact absurd (a.unique b).1.symm b1
      | length b b1 => exact absurd (a.unique b).1.symm b1
      | coding b b1 => exact absurd (a.unique b).1.symm b1
      | noHost b b1 => exact absurd (a.unique b).1.symm b1
      | badTarget b b1 => exact absurd (a.unique b).1.symm b1
      | serve b b1 => exact absurd (a.unique b).1.symm b1
    | version a a1 a2 =>
      cases b with
      | malformed b => exact absurd hh (b _ _ _ _)
      | noMethod b => exact absurd (a.unique b).1 a1
      | version b b1 => rfl
      | length b b1 => exact absurd (a.unique b).2.2.1 a2
      | coding b b1 => exact absurd (a.unique b).2.2.1 a2
      | noHost b b1 => exact absurd (a.unique b).2.2.1 a2
      | badTarget b b1 => exact absurd (a.unique b).2.2.1 a2
      | serve b b1 => exact absurd (a.unique b).2.2.1 a2
    | length a a1 a2 a3 =>
      cases b with
      | malformed b => exact absurd hh (b _ _ _ _)
      | noMethod b => exact absurd (a.unique b).1 a1
      | version b b1 b2 => exact absurd (a.unique b).2.2.1.symm b2
      | length b b1 => rfl
      | coding b b1 b2 b3 =>
        have := first_bad (a.unique b).2.2.2 a2 b2 (gl a3) (gc b3)
        subst this; exact absurd b3 (fun h => bad_exclusive a3 h)
      | noHost b b1 b2 => exact absurd (b2 _ ((a.unique b).2.2.2 ▸ mid)) (gl a3)
      | badTarget b b1 b2 => exact absurd (b2 _ ((a.unique b).2.2.2 ▸ mid)) (gl a3)
      | serve b b1 b2 => exact absurd (b2 _ ((a.unique b).2.2.2 ▸ mid)) (gl a3)
    | coding a a1 a2 a3 =>
      cases b with
      | malformed b => exact absurd hh (b _ _ _ _)
      | noMethod b => exact absurd (a.unique b).1 a1
      | version b b1 b2 => exact absurd (a.unique b).2.2.1.symm b2
      | length b b1 b2 b3 =>
        have := first_bad (a.unique b).2.2.2 a2 b2 (gc a3) (gl b3)
        subst this; exact absurd a3 (fun h => bad_exclusive b3 h)
      | coding b b1 => rfl
      | noHost b b1 b2 => exact absurd (b2 _ ((a.unique b).2.2.2 ▸ mid)) (gc a3)
      | badTarget b b1 b2 => exact absurd (b2 _ ((a.unique b).2.2.2 ▸ mid)) (gc a3)
      | serve b b1 b2 => exact absurd (b2 _ ((a.unique b).2.2.2 ▸ mid)) (gc a3)
    | noHost a a1 a2 a3 =>
      cases b with
      | malformed b => exact absurd hh (b _ _ _ _)
      | noMethod b => exact absurd (a.unique b).1 a1
      | version b b1 b2 => exact absurd (a.unique b).2.2.1.symm b2
      | length b b1 b2 b3 => exact absurd (a2 _ ((a.unique b).2.2.2.symm ▸ mid)) (gl b3)
      | coding b b1 b2 b3 => exact absurd (a2 _ ((a.unique b).2.2.2.symm ▸ mid)) (gc b3)
      | noHost b b1 b2 b3 => rw [(a.unique b).2.2.2]
      | badTarget b b1 b2 b3 => rw [(a.unique b).2.2.2] at a3; exact absurd a3 b3
      | serve b b1 b2 b3 => rw [(a.unique b).2.2.2] at a3; exact absurd a3 b3
    | badTarget a a1 a2 a3 a4 =>
      cases b with
      | malformed b => exact absurd hh (b _ _ _ _)
      | noMethod b => exact absurd (a.unique b).1 a1
      | version b b1 b2 => exact absurd (a.unique b).2.2.1.symm b2
      | length b b1 b2 b3 => exact absurd (a2 _ ((a.unique b).2.2.2.symm ▸ mid)) (gl b3)
      | coding b b1 b2 b3 => exact absurd (a2 _ ((a.unique b).2.2.2.symm ▸ mid)) (gc b3)
      | noHost b b1 b2 b3 => rw [(a.unique b).2.2.2] at a3; exact absurd b3 a3
      | badTarget b b1 b2 b3 => rw [(a.unique b).2.2.2]
      | serve b b1 b2 b3 b4 => rw [(a.unique b).2.1, b4] at a4; cases a4
    | serve a a1 a2 a3 a4 a5 =>
      cases b with
      | malformed b => exact absurd hh (b _ _ _ _)
      | noMethod b => exact absurd (a.unique b).1 a1
      | version b b1 b2 => exact absurd (a.unique b).2.2.1.symm b2
      | length b b1 b2 b3 => exact absurd (a2 _ ((a.unique b).2.2.2.symm ▸ mid)) (gl b3)
      | coding b b1 b2 b3 => exact absurd (a2 _ ((a.unique b).2.2.2.symm ▸ mid)) (gc b3)
      | noHost b b1 b2 b3 => rw [(a.unique b).2.2.2] at a3; exact absurd b3 a3
      | badTarget b b1 b2 b3 b4 => rw [(a.unique b).2.1, b4] at a4; cases a4
      | serve b b1 b2 b3 b4 b5 =>
        obtain ⟨rfl, rfl, _, rfl⟩ := a.unique b
        rw [a5.unique b5]
  cases a with
  | malformed a =>
    cases b with
    | malformed b => rfl
    | noMethod b => exact absurd b (a _ _ _ _)
    | version b => exact absurd b (a _ _ _ _)
    | length b => exact absurd b (a _ _ _ _)
    | coding b => exact absurd b (a _ _ _ _)
    | noHost b => exact absurd b (a _ _ _ _)
    | badTarget b => exact absurd b (a _ _ _ _)
    | serve b => exact absurd b (a _ _ _ _)
  | noMethod a => exact key (.noMethod a) b a
  | version a a1 a2 => exact key (.version a a1 a2) b a
  | length a a1 a2 a3 => exact key (.length a a1 a2 a3) b a
  | coding a a1 a2 a3 => exact key (.coding a a1 a2 a3) b a
  | noHost a a1 a2 a3 => exact key (.noHost a a1 a2 a3) b a
  | badTarget a a1 a2 a3 a4 => exact key (.badTarget a a1 a2 a3 a4) b a
  | serve a a1 a2 a3 a4 a5 => exact key (.serve a a1 a2 a3 a4 a5) b a

/-- Every head gets a verdict. -/
theorem Spec.Judged.total (uriOk : Bytes → Bool) (h : Bytes) : ∃ v, Judged uriOk h v := by
  rcases parseHead_spec uriOk h with ⟨f, _, h2, _⟩ | ⟨p, fs, _, h2, h3, h4⟩
  · exact ⟨_, h2⟩
  · rcases finishDecode_spec uriOk ⟨fun _ => [], id, 0⟩ (BufRd.new ([] : Script)) h2 h3 h4 with ⟨_, _, h5, _⟩ | ⟨_, _, _, h5, _⟩
    · exact ⟨_, h5⟩
    · exact ⟨_, h5⟩

/-! ## The whole of `decode` -/

section
variable {ρ : Type} [AsyncRead ρ] [LawfulRead ρ]

/-- How the body of an accepted request stands: all that follows the head, in the framing announced. -/
inductive BodyAt (pool : Pool) (s : Bytes) (e : Option IoErr) (m : Nat) : Option Nat → ReqBody ρ → Prop
  | fixed {r n} : rem r = s → fin r = e → meas r ≤ m → BodyAt pool s e m (some n) (.fixed ⟨r, n⟩)
  | chunked {r} : rem r = s → fin r = e → meas r ≤ m → BodyAt pool s e m none (.chunked (BufRd.new (ChunkedDecoder.new r pool)))

/-- The interim response, or nothing. -/
def interimOf (b : Bool) : Bytes := if b then expectResponse else []

/-- How `decode` ends, by the specification. -/
inductive Decided (uriOk : Bytes → Bool) (pool : Pool) (s : Bytes) (e : Option IoErr) (m : Nat) (w0 w : Writer) : DecRes ρ → Prop
  /-- The peer has closed. -/
  | none {io} : NoHead s → e = none → w = w0 → rem io = [] → fin io = e → meas io ≤ m →
      Decided uriOk pool s e m w0 w (.none io)
  /-- Reading failed before the end of the head. -/
  | lost {x io} : NoHead s → e = some x → w = w0 → Decided uriOk pool s e m w0 w (.fail (.connectionLost x) io)
  /-- Writing the interim response failed. -/
  | cut {h v x y c used} {r : BufRd ρ} : FirstHead s h → Judged uriOk h v →
      ((∃ st, v = .refuse true st) ∨ ∃ m t fs len, v = .serve true m t fs len) → expectResponse = x ++ y → w.got = w0.got ++ x →
      w0.script = used ++ w.script → ¬ w0.Reliable → s = h ++ rem r → fin r = e → meas r ≤ m →
      Decided uriOk pool s e m w0 w (.fail (.connectionLost c) r.inner)
  /-- The request is refused. -/
  | refuse {h i st f used} {r : BufRd ρ} : FirstHead s h → Judged uriOk h (.refuse i st) →
      failResponse f = some (plainResponse st) → failError f = none →
      w.got = w0.got ++ interimOf i → w0.script = used ++ w.script → s = h ++ rem r → fin r = e → meas r ≤ m →
      Decided uriOk pool s e m w0 w (.fail f r.inner)
  /-- The transfer encoding is not known. -/
  | giveUp {h} {r : BufRd ρ} : FirstHead s h → Judged uriOk h .giveUp → w = w0 → s = h ++ rem r → fin r = e → meas r ≤ m →
      Decided uriOk pool s e m w0 w (.fail .httpUnsupportedTransferEncoding r.inner)
  /-- The request is accepted. -/
  | serve {h i m' t fs len hm used} {body : ReqBody ρ} : FirstHead s h → Judged uriOk h (.serve i m' t fs len) → MapOf hm fs → (∃ p, parseHead h = .ok p ∧ p.acc.headers = hm) →
      w.got = w0.got ++ interimOf i → w0.script = used ++ w.script →
      BodyAt pool (s.drop h.length) e m len body →
      Decided uriOk pool s e m w0 w (.request ⟨⟨m', t, hm⟩, body, len⟩)

theorem DecOut.decided {uriOk : Bytes → Bool} {pool : Pool} {s : Bytes} {e : Option IoErr} {m : Nat} {w0 w : Writer} {res : DecRes ρ}
    (h : DecOut uriOk pool s e m w0 w res) : Decided uriOk pool s e m w0 w res := by
  cases h with
  | none a b c d f g => exact .none a b c d f g
  | lost a b c => exact .lost a b c
  | bad a b c d f g =>
    rename_i h fl r
    rcases parseHead_spec uriOk h with ⟨f', h1, h2, h3⟩ | ⟨p, fs, h1, _⟩
    · rw [b] at h1; injection h1 with h1; subst h1
      cases fl with
      | connectionLost x => exact absurd rfl (h3 x)
      | httpUnsupportedTransferEncoding => exact .giveUp a h2 c d f g
      | _ => exact .refuse (used := []) a h2 rfl rfl (by simp [c, interimOf]) (by simp [c]) d f g
    · rw [b] at h1; cases h1
  | cut a b c y0 d f g k i j =>
    rename_i h p x y cc used r
    rcases parseHead_spec uriOk h with ⟨f', h1, h2, h3⟩ | ⟨p', fs, h1, h2, h3, h4⟩
    · rw [b] at h1; cases h1
    · rw [b] at h1; injection h1 with h1; subst h1
      rw [interimBytes_eq h4] at c
      have hx : Expects fs = true := by
        by_cases hx : Expects fs = true
        · exact hx
        · rw [if_neg hx] at c
          have := List.append_eq_nil_iff.1 c.symm
          exact absurd this.2 y0
      rw [if_pos hx] at c
      rcases finishDecode_spec uriOk pool r h2 h3 h4 with ⟨fl, _, k2, _, _⟩ | ⟨len, body, _, k2, _⟩
      · rw [hx] at k2; exact .cut a k2 (.inl ⟨_, rfl⟩) c d f g k i j
      · rw [hx] at k2; exact .cut a k2 (.inr ⟨_, _, _, _, rfl⟩) c d f g k i j
  | done a b c d f g k =>
    rename_i h p used r
    rcases parseHead_spec uriOk h with ⟨f', h1, h2, h3⟩ | ⟨p', fs, h1, h2, h3, h4⟩
    · rw [b] at h1; cases h1
    · rw [b] at h1; injection h1 with h1; subst h1
      rw [interimBytes_eq h4] at g
      rcases finishDecode_spec uriOk pool r h2 h3 h4 with ⟨fl, k1, k2, k3, k4⟩ | ⟨len, body, k1, k2, k3⟩
      · rw [k1]
        exact .refuse a k2 k3 k4 g k c d f
      · rw [k1]
        refine .serve a k2 h4.headers ⟨p, b, rfl⟩ g k ?_
        have : s.drop h.length = rem r := by rw [c]; simp
        rw [this]
        rcases k3 with ⟨n, rfl, rfl⟩ | ⟨rfl, rfl⟩
        · exact .fixed rfl d f
        · exact .chunked rfl d f

end

end Tophat
