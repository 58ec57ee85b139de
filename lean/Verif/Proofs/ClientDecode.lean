import Verif.Proofs.ChunkedReqBody
import Verif.Spec.Reply
import Verif.Model.Client
/-! Reading the head of a response. -/

set_option linter.unusedSectionVars false

namespace Tophat.Httparse
open Tophat.Spec

theorem space_ok (e : PErr) (bs rest : Bytes) : space e bs = .ok rest () ↔ bs = 32 :: rest := by
  cases bs with
  | nil => simp [space]
  | cons b r =>
    simp only [space]
    by_cases h : b = 32
    · rw [if_pos h]; simp [h]
    · rw [if_neg h]; simp [h]

theorem digit_ok (bs rest : Bytes) (n : Nat) : digit bs = .ok rest n ↔ ∃ b, bs = b :: rest ∧ 48 ≤ b.toNat ∧ b.toNat ≤ 57 ∧ n = b.toNat - 48 := by
  cases bs with
  | nil => simp [digit]
  | cons b r =>
    simp only [digit]
    by_cases h : 48 ≤ b.toNat ∧ b.toNat ≤ 57
    · rw [if_pos h]
      simp only [PRes.ok.injEq, List.cons.injEq]
      constructor
      · rintro ⟨rfl, rfl⟩; exact ⟨b, ⟨rfl, rfl⟩, h.1, h.2, rfl⟩
      · rintro ⟨c, ⟨rfl, rfl⟩, -, -, rfl⟩; exact ⟨rfl, rfl⟩
    · rw [if_neg h]
      simp only [reduceCtorEq, List.cons.injEq, false_iff]
      rintro ⟨c, ⟨rfl, -⟩, h1, h2, -⟩; exact h ⟨h1, h2⟩

theorem parseCode_ok (bs rest : Bytes) (n : Nat) :
    parseCode bs = .ok rest n ↔ ∃ ds, bs = ds ++ rest ∧ ds.length = 3 ∧ (∀ b ∈ ds, 48 ≤ b.toNat ∧ b.toNat ≤ 57) ∧ decNum ds = n := by
  unfold parseCode
  simp only [andThen_ok, digit_ok]
  constructor
  · rintro ⟨r1, a, ⟨x, rfl, x1, x2, rfl⟩, r2, b, ⟨y, rfl, y1, y2, rfl⟩, r3, c, ⟨z, rfl, z1, z2, rfl⟩, h⟩
    injection h with h1 h2
    subst h1 h2
    refine ⟨[x, y, z], rfl, rfl, ?_, ?_⟩
    · intro b hb
      simp only [List.mem_cons, List.not_mem_nil, or_false] at hb
      rcases hb with rfl | rfl | rfl
      · exact ⟨x1, x2⟩
      · exact ⟨y1, y2⟩
      · exact ⟨z1, z2⟩
    · simp only [decNum, List.foldl_cons, List.foldl_nil]; omega
  · rintro ⟨ds, rfl, hl, hd, rfl⟩
    obtain ⟨x, y, z, rfl⟩ : ∃ x y z, ds = [x, y, z] := by
      match ds, hl with
      | [x, y, z], _ => exact ⟨x, y, z, rfl⟩
    have hx := hd x (by simp)
    have hy := hd y (by simp)
    have hz := hd z (by simp)
    refine ⟨_, _, ⟨x, rfl, hx.1, hx.2, rfl⟩, _, _, ⟨y, rfl, hy.1, hy.2, rfl⟩, _, _, ⟨z, rfl, hz.1, hz.2, rfl⟩, ?_⟩
    have : 100 * (x.toNat - 48) + 10 * (y.toNat - 48) + (z.toNat - 48) = decNum [x, y, z] := by
      simp only [decNum, List.foldl_cons, List.foldl_nil]; omega
    rw [this]
    rfl

theorem takeReason_ok (bs rest : Bytes) : takeReason bs = .ok rest () ↔ ∃ t e, bs = t ++ (e ++ rest) ∧ (∀ b ∈ t, valueByte b) ∧ Eol e := by
  induction bs with
  | nil =>
    simp only [takeReason, reduceCtorEq, false_iff]
    rintro ⟨t, e, h, -, rfl | rfl⟩ <;> simp at h
  | cons b r ih =>
    have hv13 : ¬ valueByte 13 := by unfold valueByte; decide
    have hv10 : ¬ valueByte 10 := by unfold valueByte; decide
    by_cases h1 : b = 13
    · subst h1
      have : takeReason (13 :: r) = expectLf .status () r := by simp [takeReason]
      rw [this, cr_case]
      constructor
      · rintro ⟨rfl, -⟩; exact ⟨[], [13, 10], rfl, by simp, .inl rfl⟩
      · rintro ⟨t, e, h, ht, he⟩
        cases t with
        | nil => rcases he with rfl | rfl <;> simp at h; exact ⟨h, rfl⟩
        | cons c t => simp at h; exact absurd (h.1 ▸ ht c (by simp)) hv13
    · by_cases h2 : b = 10
      · subst h2
        have : takeReason (10 :: r) = .ok r () := by simp [takeReason]
        rw [this]
        constructor
        · intro h; injection h with e1; exact ⟨[], [10], by simp [e1], by simp, .inr rfl⟩
        · rintro ⟨t, e, h, ht, he⟩
          cases t with
          | nil => rcases he with rfl | rfl <;> simp at h; simp [h]
          | cons c t => simp at h; exact absurd (h.1 ▸ ht c (by simp)) hv10
      · by_cases h3 : b.toNat = 9 ∨ (32 ≤ b.toNat ∧ b.toNat ≠ 127)
        · have : takeReason (b :: r) = takeReason r := by simp only [takeReason]; rw [if_neg h1, if_neg h2, if_pos h3]
          rw [this, ih]
          constructor
          · rintro ⟨t, e, rfl, ht, he⟩
            refine ⟨b :: t, e, rfl, ?_, he⟩
            intro c hc
            rcases List.mem_cons.1 hc with rfl | hc
            · exact h3
            · exact ht c hc
          · rintro ⟨t, e, h, ht, he⟩
            cases t with
            | nil =>
              rcases he with rfl | rfl <;> simp at h
              · exact absurd h.1 h1
              · exact absurd h.1 h2
            | cons c t =>
              simp at h
              exact ⟨t, e, h.2, fun x hx => ht x (List.mem_cons_of_mem _ hx), he⟩
        · have : takeReason (b :: r) = .err .status := by simp only [takeReason]; rw [if_neg h1, if_neg h2, if_neg h3]
          rw [this]
          constructor
          · intro h; cases h
          · rintro ⟨t, e, h, ht, he⟩
            cases t with
            | nil =>
              rcases he with rfl | rfl <;> simp at h
              · exact absurd h.1 h1
              · exact absurd h.1 h2
            | cons c t =>
              simp at h
              exact absurd (h.1 ▸ ht c (by simp)) h3

theorem afterCode_ok (bs rest : Bytes) : afterCode bs = .ok rest () ↔ ∃ r, bs = r ++ rest ∧ Reason r := by
  unfold Reason
  cases bs with
  | nil =>
    simp only [afterCode, reduceCtorEq, false_iff]
    rintro ⟨r, h, (rfl | rfl) | ⟨t, e, rfl, -⟩⟩ <;> simp at h
  | cons b r =>
    by_cases h1 : b = 32
    · subst h1
      have : afterCode (32 :: r) = takeReason r := by simp [afterCode]
      rw [this, takeReason_ok]
      constructor
      · rintro ⟨t, e, rfl, ht, he⟩; exact ⟨32 :: (t ++ e), by simp, .inr ⟨t, e, rfl, ht, he⟩⟩
      · rintro ⟨x, h, (rfl | rfl) | ⟨t, e, rfl, ht, he⟩⟩
        · simp at h
        · simp at h
        · simp at h; exact ⟨t, e, h, ht, he⟩
    · have hn : afterCode (b :: r) = .ok rest () ↔ ∃ e, Eol e ∧ b :: r = e ++ rest := by
        by_cases h2 : b = 13
        · subst h2
          have : afterCode (13 :: r) = expectLf .status () r := by simp [afterCode]
          rw [this, cr_case]
          constructor
          · rintro ⟨rfl, -⟩; exact ⟨[13, 10], .inl rfl, rfl⟩
          · rintro ⟨e, rfl | rfl, h⟩ <;> simp at h; exact ⟨h, rfl⟩
        · by_cases h3 : b = 10
          · subst h3
            have : afterCode (10 :: r) = .ok r () := by simp [afterCode]
            rw [this]
            constructor
            · intro h; injection h with e1; exact ⟨[10], .inr rfl, by simp [e1]⟩
            · rintro ⟨e, rfl | rfl, h⟩ <;> simp at h; simp [h]
          · have : afterCode (b :: r) = .err .status := by simp only [afterCode]; rw [if_neg h1, if_neg h2, if_neg h3]
            rw [this]
            constructor
            · intro h; cases h
            · rintro ⟨e, rfl | rfl, h⟩ <;> simp at h
              · exact absurd h.1 h2
              · exact absurd h.1 h3
      rw [hn]
      constructor
      · rintro ⟨e, he, h⟩; exact ⟨e, h, .inl he⟩
      · rintro ⟨x, h, he | ⟨t, e, rfl, -⟩⟩
        · exact ⟨x, he, h⟩
        · simp at h; exact absurd h.1 h1

/-- The response parser accepts exactly the response heads of the specification, up to `slots` fields, and leaves what follows them. -/
theorem parseResponse_ok (slots : Nat) (bs rest : Bytes) (v code : Nat) (fs : List (Bytes × Bytes)) :
    parseResponse slots bs = .ok rest ⟨v, code, fs⟩ ↔ ∃ h, bs = h ++ rest ∧ ReplyHead h v code fs ∧ fs.length ≤ slots := by
  unfold parseResponse
  simp only [andThen_ok]
  constructor
  · rintro ⟨r1, _, h1, r2, v', h2, r3, _, h3, r4, c', h4, r5, _, h5, r6, hs, h6, h7⟩
    injection h7 with e1 e2
    injection e2 with e2 e3 e4
    subst e1 e2 e3 e4
    obtain ⟨bl, b, r, rfl, g1, -, -, -⟩ := (skipEmptyLines_ok _ _).1 h1
    obtain ⟨g2, rfl⟩ := (parseVersion_ok _ _ _).1 h2
    have g3 := (space_ok _ _ _).1 h3
    subst g3
    obtain ⟨ds, rfl, g4, g4', g4''⟩ := (parseCode_ok _ _ _).1 h4
    obtain ⟨e, rfl, g5⟩ := (afterCode_ok _ _).1 h5
    obtain ⟨l, rfl, g6, g6'⟩ := (parseHeaders_ok _ _ _ _).1 h6
    exact ⟨_, by simp, ⟨bl, ds, e, l, rfl, g1, g2, g4, g4', g4'', g5, g6⟩, g6'⟩
  · rintro ⟨h, rfl, ⟨bl, ds, e, sec, rfl, g1, g2, g4, g4', g4'', g5, g6⟩, g7⟩
    refine ⟨ascii "HTTP/1." ++ (UInt8.ofNat (48 + v) :: 32 :: (ds ++ (e ++ (sec ++ rest)))), (), (skipEmptyLines_ok _ _).2 ⟨bl, 72, _, by simp, g1, rfl, by decide, by decide⟩,
      32 :: (ds ++ (e ++ (sec ++ rest))), v, (parseVersion_ok _ _ _).2 ⟨g2, rfl⟩,
      ds ++ (e ++ (sec ++ rest)), (), (space_ok _ _ _).2 rfl, e ++ (sec ++ rest), code, (parseCode_ok _ _ _).2 ⟨ds, rfl, g4, g4', g4''⟩,
      sec ++ rest, (), (afterCode_ok _ _).2 ⟨e, rfl, g5⟩, rest, fs, (parseHeaders_ok _ _ _ _).2 ⟨sec, rfl, g6, g7⟩, rfl⟩

end Tophat.Httparse

namespace Tophat
open Spec Httparse

theorem hasReply_iff (h : Bytes) (v code : Nat) (fs : List (Bytes × Bytes)) :
    HasReply h v code fs ↔ ∃ rest, parseResponse 128 h = .ok rest ⟨v, code, fs⟩ := by
  constructor
  · rintro ⟨hd, junk, h1, h2, h3⟩
    exact ⟨junk, (parseResponse_ok _ _ _ _ _ _).2 ⟨hd, h1, h2, h3⟩⟩
  · rintro ⟨rest, h1⟩
    obtain ⟨hd, h2, h3, h4⟩ := (parseResponse_ok _ _ _ _ _ _).1 h1
    exact ⟨hd, rest, h2, h3, h4⟩

/-- A head can be read in one way only. -/
theorem Spec.HasReply.unique {h : Bytes} {v v' c c' : Nat} {fs fs' : List (Bytes × Bytes)} (a : HasReply h v c fs) (b : HasReply h v' c' fs') :
    v = v' ∧ c = c' ∧ fs = fs' := by
  obtain ⟨r, h1⟩ := (hasReply_iff _ _ _ _).1 a
  obtain ⟨r', h2⟩ := (hasReply_iff _ _ _ _).1 b
  rw [h1] at h2
  injection h2 with _ h2
  injection h2 with h2 h3 h4
  exact ⟨h2, h3, h4⟩

theorem Spec.HasReply.raw {h : Bytes} {v c : Nat} {fs : List (Bytes × Bytes)} (a : HasReply h v c fs) : RawFields fs := by
  obtain ⟨_, _, _, ⟨_, _, _, _, _, _, _, _, _, _, _, h⟩, _⟩ := a
  exact h.raw

theorem clientLoop_spec (pre fs : List (Bytes × Bytes)) (m : HeaderMap) (h : MapOf m pre) (hr : RawFields fs) :
    ∃ m', ClientDecode.headerLoop m fs = .ok m' ∧ MapOf m' (pre ++ fs) := by
  induction fs generalizing pre m with
  | nil => exact ⟨m, rfl, by simpa using h⟩
  | cons f fs ih =>
    obtain ⟨n, v⟩ := f
    obtain ⟨r1, r2, r3⟩ := hr (n, v) List.mem_cons_self
    obtain ⟨m', h1, h2⟩ := ih (pre ++ [(n, v)]) _ (h.snoc (n, v)) (fun f hf => hr f (List.mem_cons_of_mem _ hf))
    refine ⟨m', ?_, by simpa using h2⟩
    simp only [ClientDecode.headerLoop, headerValueFromBytes_value r3, headerNameFromBytes_token r1 r2]
    exact h1

theorem clientParseHead_spec (h : Bytes) :
    (∃ e, ClientDecode.parseHead h = .err e ∧ ReplyTo h .reject) ∨
    ∃ code m fs, ClientDecode.parseHead h = .ok (code, m) ∧ HasReply h 1 code fs ∧ MapOf m fs := by
  unfold ClientDecode.parseHead
  have e128 : ClientDecode.maxHeaders = 128 := rfl
  rw [e128]
  cases hp : parseResponse 128 h with
  | err e =>
    refine .inl ⟨_, rfl, .malformed ?_⟩
    intro v c fs hh
    obtain ⟨r, h1⟩ := (hasReply_iff _ _ _ _).1 hh
    rw [hp] at h1; cases h1
  | part =>
    refine .inl ⟨_, rfl, .malformed ?_⟩
    intro v c fs hh
    obtain ⟨r, h1⟩ := (hasReply_iff _ _ _ _).1 hh
    rw [hp] at h1; cases h1
  | ok rest res =>
    obtain ⟨v, c, fs⟩ := res
    have hh : HasReply h v c fs := (hasReply_iff _ _ _ _).2 ⟨rest, hp⟩
    dsimp only
    by_cases hv : v = 1
    · rw [if_pos hv]
      subst hv
      obtain ⟨m, h1, h2⟩ := clientLoop_spec [] fs [] ⟨HeaderMap.wf_nil, by simp⟩ hh.raw
      rw [h1]
      exact .inr ⟨c, m, fs, rfl, hh, by simpa using h2⟩
    · rw [if_neg hv]
      exact .inl ⟨_, rfl, .version hh hv⟩

/-! ## Lines -/

theorem clientEndsHead_iff (buf : Bytes) : ClientDecode.endsHead buf = true ↔ EndsReply buf := by
  unfold ClientDecode.endsHead EndsReply
  have hc : crlf ++ crlf = [13, 10, 13, 10] := rfl
  rw [Bool.or_eq_true, decide_eq_true_eq, decide_eq_true_eq, hc]
  constructor
  · rintro (⟨h1, h2⟩ | ⟨h1, h2⟩)
    · exact .inl ⟨buf.take (buf.length - 4), by rw [← h2]; simp⟩
    · exact .inr ⟨buf.take (buf.length - 2), by rw [← h2]; simp⟩
  · rintro (⟨q, rfl⟩ | ⟨q, rfl⟩)
    · left; simp
    · right; simp

theorem Spec.EndsReply.last {p : Bytes} (h : EndsReply p) : ∃ q, p = q ++ [10] := by
  rcases h with ⟨q, rfl⟩ | ⟨q, rfl⟩
  · exact ⟨q ++ [13, 10, 13], by simp⟩
  · exact ⟨q ++ [10], by simp⟩

theorem reply_prefix_line {buf q p : Bytes} (hq : (10 : UInt8) ∉ q) (hb : NoReply buf) (hp : p <+: buf ++ (q ++ [10]))
    (he : EndsReply p) : p = buf ++ (q ++ [10]) := by
  rcases prefix_append_cases hp with h | ⟨x, hx, h1, rfl⟩
  · exact absurd he (hb p h)
  · obtain ⟨y, hy⟩ := he.last
    rcases List.prefix_concat_iff.1 h1 with rfl | h2
    · rfl
    · exfalso
      obtain ⟨x', b, rfl⟩ : ∃ x' b, x = x' ++ [b] := ⟨_, _, (List.dropLast_concat_getLast hx).symm⟩
      rw [← List.append_assoc] at hy
      have := (List.append_inj' hy rfl).2
      simp at this
      subst this
      exact hq (h2.subset (by simp))

theorem Spec.NoReply.line {buf q : Bytes} (hq : (10 : UInt8) ∉ q) (hb : NoReply buf) (hn : ¬ EndsReply (buf ++ (q ++ [10]))) :
    NoReply (buf ++ (q ++ [10])) := by
  intro p hp he
  rw [reply_prefix_line hq hb hp he] at he
  exact hn he

theorem Spec.NoReply.append {buf q : Bytes} (hq : (10 : UInt8) ∉ q) (hb : NoReply buf) : NoReply (buf ++ q) := by
  intro p hp he
  rcases prefix_append_cases hp with h | ⟨x, hx, h1, rfl⟩
  · exact hb p h he
  · obtain ⟨y, hy⟩ := he.last
    obtain ⟨x', b, rfl⟩ : ∃ x' b, x = x' ++ [b] := ⟨_, _, (List.dropLast_concat_getLast hx).symm⟩
    rw [← List.append_assoc] at hy
    have := (List.append_inj' hy rfl).2
    simp at this
    subst this
    exact hq (h1.subset (by simp))

theorem noReply_nil : NoReply [] := by
  rintro p hp (⟨q, rfl⟩ | ⟨q, rfl⟩) <;> simp at hp

theorem Spec.FirstReply.unique {s h h' : Bytes} (a : FirstReply s h) (b : FirstReply s h') : h = h' := by
  rcases List.prefix_or_prefix_of_prefix a.1 b.1 with c | c
  · exact b.2.2 h c a.2.1
  · exact (a.2.2 h' c b.2.1).symm

theorem Spec.FirstReply.not_noReply {s h : Bytes} (a : FirstReply s h) : ¬ NoReply s := fun b => b h a.1 a.2.1

/-! ## Reading the head -/

section
variable {ρ : Type} [AsyncRead ρ] [LawfulRead ρ]

/-- What reading the head may give, for a connection that delivers `s` in total and ends with `e`; `bound` is what holds of the number of steps if it has not returned. -/
inductive ReplyOk (s : Bytes) (e : Option IoErr) (m : Nat) (bound : Prop) : ClientDecode.HeadRes ρ → Prop
  | running {a b} : NoReply (a ++ b) → a ++ b <+: s → a.length < 8192 → (10 : UInt8) ∉ b → bound → ReplyOk s e m bound (.running (a ++ b))
  | lost {x} : NoReply s → e = some x → ReplyOk s e m bound (.err (.decodeIo x))
  | empty : NoReply s → e = none → ReplyOk s e m bound (.err (.decode "Empty response"))
  | long {p} : p <+: s → 8192 ≤ p.length → (∀ h, FirstReply s h → 8192 ≤ h.length) → ReplyOk s e m bound (.err (.decode "Head byte length should be less than 8kb"))
  | head {r buf} : FirstReply s buf → s = buf ++ rem r → fin r = e → meas r ≤ m → buf.length < 8192 → ReplyOk s e m bound (.head r buf)

theorem ReplyOk.mono {s : Bytes} {e : Option IoErr} {m m' : Nat} {p p' : Prop} {h : ClientDecode.HeadRes ρ} (hm : m ≤ m') (hp : p → p') (a : ReplyOk s e m p h) :
    ReplyOk s e m' p' h := by
  cases a with
  | running a b c d f => exact .running a b c d (hp f)
  | lost a b => exact .lost a b
  | empty a b => exact .empty a b
  | long a b c => exact .long a b c
  | head a b c d f => exact .head a b c (by omega) f

theorem clientHeadGo_spec (fuel : Nat) (r : BufRd ρ) (a b : Bytes) (nread : Nat) (hb : NoReply (a ++ b)) (ha : a.length < 8192) (hno : (10 : UInt8) ∉ b) (hn : nread = b.length) :
    ∃ h, ClientDecode.headGo fuel r (a ++ b) nread = .ret h ∧
      ReplyOk (a ++ b ++ rem r) (fin r) (meas r) (fuel ≤ 2 * (rem r).length + meas r + (if nread = 0 then 0 else 1)) h := by
  induction fuel generalizing r a b nread with
  | zero => exact ⟨_, rfl, .running hb (List.prefix_append _ _) ha hno (by omega)⟩
  | succ fuel ih =>
    obtain ⟨r', p, hp, ho⟩ := LawfulBufRead.fill_ok r
    simp only [ClientDecode.headGo]
    rw [hp]
    simp only [Run.ret_bind]
    cases ho with
    | pending h1 h2 h3 =>
      dsimp only
      obtain ⟨h, k1, k2⟩ := ih r' a b nread hb ha hno hn
      rw [h1, h2] at k2
      exact ⟨h, k1, k2.mono (by omega) (by omega)⟩
    | err h1 h2 => exact ⟨_, rfl, .lost (by rw [h1]; simpa using hb) h2⟩
    | data h1 h2 h3 h4 h5 h6 =>
      rename_i bs
      dsimp only
      have emax : ClientDecode.maxHeadLength = 8192 := rfl
      cases hl : lineOf bs with
      | some line =>
        dsimp only
        obtain ⟨q, rest, g1, g2, g3⟩ := lineOf_some hl
        have hle : line.length ≤ bs.length := by rw [g1]; simp
        obtain ⟨c1, c2, c3⟩ := h6 _ hle
        have hrem : rem r = line ++ rem (consume r' line.length) := by
          obtain ⟨z, hz⟩ := h4
          rw [c1, ← hz, g1]; simp
        have hlen : 1 ≤ line.length := by rw [g2]; simp
        rw [emax]
        by_cases hlong : (a ++ b ++ line).length < 8192
        · rw [if_pos hlong]
          by_cases hend : ClientDecode.endsHead (a ++ b ++ line) = true
          · rw [if_pos hend]
            rw [clientEndsHead_iff] at hend
            refine ⟨_, rfl, .head ⟨⟨rem (consume r' line.length), by rw [hrem]; simp⟩, hend, ?_⟩ (by rw [hrem]; simp) c2 c3 hlong⟩
            intro p hp he
            rw [g2] at hp ⊢
            exact reply_prefix_line g3 hb hp he
          · rw [if_neg hend]
            rw [clientEndsHead_iff] at hend
            have hnb : NoReply (a ++ b ++ line) := by rw [g2] at hend ⊢; exact NoReply.line g3 hb hend
            obtain ⟨h, k1, k2⟩ := ih (consume r' line.length) (a ++ b ++ line) [] 0 (by simpa using hnb) hlong (by simp) rfl
            rw [List.append_nil] at k1 k2
            refine ⟨h, k1, ?_⟩
            rw [List.append_assoc, ← hrem, c2] at k2
            refine k2.mono c3 ?_
            intro hf
            rw [hrem, List.length_append]
            simp only [if_true] at hf
            omega
        · rw [if_neg hlong]
          refine ⟨_, rfl, .long (p := a ++ b ++ line) ⟨rem (consume r' line.length), by rw [hrem]; simp⟩ (by omega) ?_⟩
          intro h hh
          have hpre : a ++ b ++ line <+: a ++ b ++ rem r := ⟨rem (consume r' line.length), by rw [hrem]; simp⟩
          rcases List.prefix_or_prefix_of_prefix hh.1 hpre with c | c
          · rw [g2] at c hlong
            rw [reply_prefix_line g3 hb c hh.2.1]
            omega
          · have := c.length_le; omega
      | none =>
        dsimp only
        have hno' := lineOf_none hl
        by_cases hbs : bs = []
        · subst hbs
          obtain ⟨e1, e2⟩ := h5 rfl
          have hns : NoReply (a ++ b ++ rem r) := by rw [e1]; simpa using hb
          rw [if_pos rfl]
          by_cases hn0 : nread = 0
          · rw [if_pos hn0]
            exact ⟨_, rfl, .empty hns e2⟩
          · rw [if_neg hn0, emax]
            by_cases hlong : (a ++ b).length < 8192
            · rw [if_pos hlong]
              have hne : ¬ ClientDecode.endsHead (a ++ b) = true := by rw [clientEndsHead_iff]; exact hb _ (List.prefix_refl _)
              rw [if_neg hne]
              obtain ⟨h, k1, k2⟩ := ih r' (a ++ b) [] 0 (by simpa using hb) hlong (by simp) rfl
              rw [List.append_nil] at k1 k2
              refine ⟨h, k1, ?_⟩
              rw [h1, h2] at k2
              refine k2.mono h3 ?_
              intro hf
              rw [if_neg hn0]
              rw [if_pos rfl] at hf
              omega
            · rw [if_neg hlong]
              exact ⟨_, rfl, .long (p := a ++ b) (List.prefix_append _ _) (by omega) (fun h hh => absurd hh.2.1 (hns _ hh.1))⟩
        · rw [if_neg hbs]
          obtain ⟨c1, c2, c3⟩ := h6 _ (Nat.le_refl _)
          have hrem : rem r = bs ++ rem (consume r' bs.length) := by
            obtain ⟨z, hz⟩ := h4
            rw [c1, ← hz]; simp
          have hlen : 1 ≤ bs.length := List.length_pos_iff.2 hbs
          obtain ⟨h, k1, k2⟩ := ih (consume r' bs.length) a (b ++ bs) (nread + bs.length) (by rw [← List.append_assoc]; exact hb.append hno') ha
            (by rw [List.mem_append, not_or]; exact ⟨hno, hno'⟩) (by rw [hn, List.length_append])
          refine ⟨h, by rw [List.append_assoc]; exact k1, ?_⟩
          have e : a ++ (b ++ bs) ++ rem (consume r' bs.length) = a ++ b ++ rem r := by rw [hrem]; simp
          rw [e, c2] at k2
          refine k2.mono c3 ?_
          intro hf
          rw [hrem, List.length_append]
          rw [if_neg (by omega)] at hf
          split <;> omega

/-! ## The response -/

theorem addDate_spec {m : HeaderMap} {fs : List (Bytes × Bytes)} (h : MapOf m fs) (now : Bytes) :
    MapOf (ClientDecode.addDate m now) (withDate fs now) := by
  unfold ClientDecode.addDate withDate
  have hv : m.get H.date = (valuesOf (ascii "date") fs).head? := by
    show (m.getAll H.date).head? = _
    rw [h.values]; rfl
  rw [hv]
  cases hd : valuesOf (ascii "date") fs with
  | nil =>
    rw [if_pos rfl]
    refine ⟨h.1.insert _ _, fun k => ?_⟩
    show (m.insert H.date now).getAll k = _
    rw [HeaderMap.getAll_insert h.1.nodup]
    have hl : lower (ascii "date") = H.date := by decide
    rw [List.filter_append, List.map_append]
    by_cases hk : k = H.date
    · subst hk
      rw [if_pos rfl]
      have : (fs.filter fun f => lower f.1 == H.date).map (·.2) = [] := hd
      rw [this, List.nil_append]
      rfl
    · rw [if_neg hk, h.2 k]
      have : ¬ (lower (ascii "date") == k) = true := by
        rw [hl, beq_iff_eq]; exact fun h => hk h.symm
      simp [this]
  | cons v vs =>
    rw [if_neg (by simp), List.append_nil]
    exact h

theorem valuesOf_withDate (fs : List (Bytes × Bytes)) (now k : Bytes) (hk : k ≠ ascii "date") : valuesOf k (withDate fs now) = valuesOf k fs := by
  unfold withDate
  split
  · rw [valuesOf_snoc]
    have : ¬ lower (ascii "date") = k := by
      have : lower (ascii "date") = ascii "date" := by decide
      rw [this]; exact fun h => hk h.symm
    rw [if_neg this, List.append_nil]
  · rw [List.append_nil]

/-- The body of a response, on a connection that delivers `s` behind the head and ends with `e`. -/
inductive RespBodyAt (pool : Pool) (s : Bytes) (e : Option IoErr) (m : Nat) : Option Nat → ReplyBody ρ → Prop
  | empty : RespBodyAt pool s e m (some 0) .empty
  | stream {len b} : BodyAt pool s e m len b → RespBodyAt pool s e m len (.stream b)

/-- The response that is returned for a head with the given verdict. -/
inductive ResponseOk (now : Bytes) (pool : Pool) (s : Bytes) (e : Option IoErr) (m : Nat) : Reply → ClientResponse ρ → Prop
  | fixed {code fs n headers b} : MapOf headers (withDate fs now) → BodyAt pool s e m (some n) b →
      ResponseOk now pool s e m (.fixed code fs n) ⟨code, headers, .stream b, some n⟩
  | bare {code fs headers} : MapOf headers (withDate fs now) → ResponseOk now pool s e m (.bare code fs) ⟨code, headers, .empty, some 0⟩
  | chunked {b} : BodyAt pool s e m none b → ResponseOk now pool s e m .chunked ⟨200, [], .stream b, none⟩

theorem decNum_three {ds : Bytes} (h : ds.length = 3) (hd : ∀ b ∈ ds, 48 ≤ b.toNat ∧ b.toNat ≤ 57) : decNum ds < 1000 := by
  match ds, h with
  | [x, y, z], _ =>
    have hx := hd x (by simp)
    have hy := hd y (by simp)
    have hz := hd z (by simp)
    simp only [decNum, List.foldl_cons, List.foldl_nil]; omega

theorem Spec.HasReply.code {h : Bytes} {v c : Nat} {fs : List (Bytes × Bytes)} (a : HasReply h v c fs) : c < 1000 := by
  obtain ⟨_, _, _, ⟨_, ds, _, _, _, _, _, h1, h2, h3, _⟩, _⟩ := a
  rw [← h3]; exact decNum_three h1 h2

theorem setHead_spec {h : Bytes} {code : Nat} {fs : List (Bytes × Bytes)} (hh : HasReply h 1 code fs) (headers : HeaderMap) (body : ReplyBody ρ) (len : Option Nat) :
    (code < 100 ∧ ClientDecode.setHead code headers body len = .err .decodeErr) ∨
    (100 ≤ code ∧ ClientDecode.setHead code headers body len = .ok ⟨code, headers, body, len⟩) := by
  unfold ClientDecode.setHead statusFromU16
  have := hh.code
  by_cases hc : code < 100
  · left; refine ⟨hc, ?_⟩
    rw [if_neg (by omega)]
  · right; refine ⟨by omega, ?_⟩
    rw [if_pos (by omega)]

theorem clientFinish_spec (now : Bytes) (pool : Pool) (r : BufRd ρ) {h : Bytes} {code : Nat} {m : HeaderMap} {fs : List (Bytes × Bytes)} (hh : HasReply h 1 code fs) (hm : MapOf m fs) :
    (∃ e, ClientDecode.finish now pool r code m = .err e ∧ ReplyTo h .reject) ∨
    ∃ v res, ClientDecode.finish now pool r code m = .ok res ∧ ReplyTo h v ∧ ResponseOk now pool (rem r) (fin r) (meas r) v res := by
  have hmd := addDate_spec hm now
  unfold ClientDecode.finish
  dsimp only
  have hcl : (ClientDecode.addDate m now).get H.contentLength = (valuesOf (ascii "content-length") fs).head? := by
    show (HeaderMap.getAll _ _).head? = _
    rw [hmd.values, valuesOf_withDate _ _ _ (by decide)]; rfl
  have hte : (ClientDecode.addDate m now).get H.transferEncoding = (valuesOf (ascii "transfer-encoding") fs).head? := by
    show (HeaderMap.getAll _ _).head? = _
    rw [hmd.values, valuesOf_withDate _ _ _ (by decide)]; rfl
  rw [hcl, hte]
  have hnil : ∀ l : List Bytes, l.head? ≠ none ↔ l ≠ [] := by intro l; rw [ne_eq, List.head?_eq_none_iff]
  by_cases hamb : Ambiguous fs
  · rw [if_pos ⟨(hnil _).2 hamb.1, (hnil _).2 hamb.2⟩]; exact .inl ⟨_, rfl, .ambiguous hh hamb⟩
  · rw [if_neg (fun h => hamb ⟨(hnil _).1 h.1, (hnil _).1 h.2⟩)]
    by_cases hch : SaysChunked fs
    · have hch' : (valuesOf (ascii "transfer-encoding") fs).head? = some (ascii "chunked") := hch
      rw [if_pos hch']
      exact .inr ⟨.chunked, _, rfl, .chunked hh hamb hch, .chunked (.chunked rfl rfl (Nat.le_refl _))⟩
    · have hch' : ¬ (valuesOf (ascii "transfer-encoding") fs).head? = some (ascii "chunked") := hch
      rw [if_neg hch']
      cases hc : (valuesOf (ascii "content-length") fs).head? with
      | none =>
        dsimp only
        have hce := List.head?_eq_none_iff.1 hc
        rcases setHead_spec (ρ := ρ) hh (ClientDecode.addDate m now) .empty (some 0) with ⟨h1, h2⟩ | ⟨h1, h2⟩
        · rw [h2]; exact .inl ⟨_, rfl, .status hh hch h1⟩
        · rw [h2]; exact .inr ⟨.bare code fs, _, rfl, .bare hh hch hce h1, .bare hmd⟩
      | some v =>
        dsimp only
        cases hp : parseUsize v with
        | none => exact .inl ⟨_, rfl, .length hh hc (parseUsize_none hp)⟩
        | some n =>
          dsimp only
          have hn := (parseUsize_some v n).1 hp
          rcases setHead_spec hh (ClientDecode.addDate m now) (.stream (.fixed ⟨r, n⟩)) (some n) with ⟨h1, h2⟩ | ⟨h1, h2⟩
          · rw [h2]; exact .inl ⟨_, rfl, .status hh hch h1⟩
          · rw [h2]; exact .inr ⟨.fixed code fs n, _, rfl, .fixed hh hamb hc hn h1, .fixed hmd (.fixed rfl rfl (Nat.le_refl _))⟩

/-- What `decode` may give on a connection that delivers `s` and ends with `e`. -/
inductive DecodeOk (now : Bytes) (pool : Pool) (s : Bytes) (e : Option IoErr) (m : Nat) (bound : Prop) : ClientDecode.Res ρ → Prop
  | running {a b} : NoReply (a ++ b) → a ++ b <+: s → a.length < 8192 → (10 : UInt8) ∉ b → bound → DecodeOk now pool s e m bound (.running (a ++ b))
  | none {x} : NoReply s → DecodeOk now pool s e m bound (.done (.err x))
  | long {x p} : p <+: s → 8192 ≤ p.length → (∀ h, FirstReply s h → 8192 ≤ h.length) → DecodeOk now pool s e m bound (.done (.err x))
  | reject {x h} : FirstReply s h → h.length < 8192 → ReplyTo h .reject → DecodeOk now pool s e m bound (.done (.err x))
  | response {h v t res} : FirstReply s h → h.length < 8192 → ReplyTo h v → s = h ++ t → ResponseOk now pool t e m v res →
      DecodeOk now pool s e m bound (.done (.ok res))

theorem RespOk_mono {now : Bytes} {pool : Pool} {s : Bytes} {e : Option IoErr} {m m' : Nat} (h : m ≤ m') {v : Reply} {res : ClientResponse ρ} (a : ResponseOk now pool s e m v res) :
    ResponseOk now pool s e m' v res := by
  have hb : ∀ {len : Option Nat} {b : ReqBody ρ}, BodyAt pool s e m len b → BodyAt pool s e m' len b := by
    intro len b hb
    cases hb with
    | fixed a b c => exact .fixed a b (by omega)
    | chunked a b c => exact .chunked a b (by omega)
  cases a with
  | fixed a b => exact .fixed a (hb b)
  | bare a => exact .bare a
  | chunked a => exact .chunked (hb a)

theorem clientDecode_spec (now : Bytes) (pool : Pool) (fuel : Nat) (io : ρ) :
    ∃ d, ClientDecode.decode now pool fuel io = .ret d ∧ DecodeOk now pool (rem io) (fin io) (meas io) (fuel ≤ 2 * (rem io).length + meas io) d := by
  obtain ⟨h, h1, h2⟩ := clientHeadGo_spec fuel (BufRd.new io) [] [] 0 (by simpa using noReply_nil) (by decide) (by simp) rfl
  unfold ClientDecode.decode
  rw [List.append_nil] at h1 h2
  rw [h1]
  simp only [Run.ret_bind]
  have e1 : rem (BufRd.new io) = rem io := rfl
  have e2 : fin (BufRd.new io) = fin io := rfl
  have e3 : meas (BufRd.new io) = meas io := rfl
  rw [List.nil_append, e1, e2, e3, if_pos rfl, Nat.add_zero] at h2
  cases h2 with
  | running a b c d f => exact ⟨_, rfl, .running a b c d f⟩
  | lost a b => exact ⟨_, rfl, .none a⟩
  | empty a b => exact ⟨_, rfl, .none a⟩
  | long a b c => exact ⟨_, rfl, .long a b c⟩
  | head a b c d f =>
    rename_i r buf
    dsimp only
    rcases clientParseHead_spec buf with ⟨e, g1, g2⟩ | ⟨code, m, fs, g1, g2, g3⟩
    · rw [g1]; exact ⟨_, rfl, .reject a f g2⟩
    · rw [g1]
      dsimp only
      rcases clientFinish_spec now pool r g2 g3 with ⟨e, k1, k2⟩ | ⟨v, res, k1, k2, k3⟩
      · rw [k1]; exact ⟨_, rfl, .reject a f k2⟩
      · rw [k1]
        rw [c] at k3
        exact ⟨_, rfl, .response a f k2 b (RespOk_mono d k3)⟩

/-! ## Reading the body -/

theorem polls_stream {b : ReqBody ρ} {ks : List Nat} {x : ReplyBody ρ} {ps : List RPoll} (h : polls (ReplyBody.stream b) ks = .ret (x, ps)) :
    ∃ b', x = .stream b' ∧ polls b ks = .ret (b', ps) := by
  induction ks generalizing b ps with
  | nil =>
    simp only [polls, Run.ret.injEq, Prod.mk.injEq] at h
    obtain ⟨rfl, rfl⟩ := h
    exact ⟨b, rfl, rfl⟩
  | cons k ks ih =>
    simp only [polls] at h
    obtain ⟨⟨y, p⟩, h1, h2⟩ := Run.bind_eq_ret.1 h
    obtain ⟨⟨b1, q⟩, h3, h4⟩ := Run.bind_eq_ret.1 (show pollRead b k >>= ReplyBody.ofStream = .ret (y, p) from h1)
    simp only [ReplyBody.ofStream, Run.ret.injEq, Prod.mk.injEq] at h4
    obtain ⟨rfl, rfl⟩ := h4
    simp only [polls, h3, Run.ret_bind]
    dsimp only at h2
    cases q with
    | err e =>
      dsimp only at h2
      simp only [Run.ret.injEq, Prod.mk.injEq] at h2
      obtain ⟨rfl, rfl⟩ := h2
      exact ⟨b1, rfl, rfl⟩
    | pending =>
      dsimp only at h2
      obtain ⟨⟨z, ps'⟩, h5, h6⟩ := Run.bind_eq_ret.1 h2
      simp only [Run.ret.injEq, Prod.mk.injEq] at h6
      obtain ⟨rfl, rfl⟩ := h6
      obtain ⟨b2, rfl, h7⟩ := ih h5
      exact ⟨b2, rfl, by simp only [h7, Run.ret_bind]⟩
    | data bs =>
      dsimp only at h2
      obtain ⟨⟨z, ps'⟩, h5, h6⟩ := Run.bind_eq_ret.1 h2
      simp only [Run.ret.injEq, Prod.mk.injEq] at h6
      obtain ⟨rfl, rfl⟩ := h6
      obtain ⟨b2, rfl, h7⟩ := ih h5
      exact ⟨b2, rfl, by simp only [h7, Run.ret_bind]⟩

theorem polls_empty (ks : List Nat) : ∃ ps, polls (ReplyBody.empty : ReplyBody ρ) ks = .ret (.empty, ps) ∧ ∀ p ∈ ps, p = .data [] := by
  induction ks with
  | nil => exact ⟨[], rfl, by simp⟩
  | cons k ks ih =>
    obtain ⟨ps, h1, h2⟩ := ih
    refine ⟨.data [] :: ps, ?_, by simpa using h2⟩
    have : pollRead (ReplyBody.empty : ReplyBody ρ) k = .ret (.empty, .data []) := rfl
    simp only [polls, this, Run.ret_bind, h1]

end

end Tophat
