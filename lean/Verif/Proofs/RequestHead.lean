import Verif.Proofs.Httparse
import Verif.Spec.RequestHead
import Verif.Model.ServerDecode
/-! The parser of request heads accepts exactly the grammar of `Verif.Spec.RequestHead`. -/

namespace Tophat.Httparse
open Tophat.Spec

theorem andThen_ok {α β : Type} (p : PRes α) (f : Bytes → α → PRes β) (rest : Bytes) (b : β) :
    p.andThen f = .ok rest b ↔ ∃ r a, p = .ok r a ∧ f r a = .ok rest b := by
  cases p with
  | ok r a =>
    simp only [PRes.andThen]
    constructor
    · intro h; exact ⟨r, a, rfl, h⟩
    · rintro ⟨r', a', h1, h2⟩; injection h1 with e1 e2; rw [e1, e2]; exact h2
  | part => simp [PRes.andThen]
  | err e => simp [PRes.andThen]

theorem skipEmptyLines_ok (bs rest : Bytes) :
    skipEmptyLines bs = .ok rest () ↔
      ∃ bl b r, bs = bl ++ rest ∧ EmptyLines bl ∧ rest = b :: r ∧ b ≠ 13 ∧ b ≠ 10 := by
  constructor
  · intro h
    fun_induction skipEmptyLines bs with
    | case1 => cases h
    | case2 => cases h
    | case3 r ih =>
      obtain ⟨bl, b', r', h1, h2, h3⟩ := ih h
      exact ⟨[13, 10] ++ bl, b', r', by rw [h1]; rfl, .cons (.inl rfl) h2, h3⟩
    | case4 => cases h
    | case5 r _ ih =>
      obtain ⟨bl, b', r', h1, h2, h3⟩ := ih h
      exact ⟨[10] ++ bl, b', r', by rw [h1]; rfl, .cons (.inr rfl) h2, h3⟩
    | case6 b r h1 h2 =>
      injection h with e1 e2
      exact ⟨[], b, r, by simp [e1], .nil, e1.symm, h1, h2⟩
  · rintro ⟨bl, b, r, rfl, h2, h3, h4, h5⟩
    induction h2 with
    | nil =>
      subst h3
      rw [List.nil_append]
      unfold skipEmptyLines
      rw [if_neg h4, if_neg h5]
    | cons he _ ih =>
      rcases he with rfl | rfl
      · simpa [skipEmptyLines] using ih
      · rw [List.append_assoc, List.singleton_append]
        unfold skipEmptyLines
        exact ih

theorem takeWord_ok (p : UInt8 → Bool) (hp : p 32 = false) (acc bs rest w : Bytes) :
    takeWord p acc bs = .ok rest w ↔ ∃ t, bs = t ++ 32 :: rest ∧ (∀ b ∈ t, p b = true) ∧ w = acc ++ t := by
  induction bs generalizing acc with
  | nil => simp [takeWord]
  | cons b r ih =>
    by_cases h1 : b = 32
    · subst h1
      simp only [takeWord, if_true]
      constructor
      · intro h; injection h with e1 e2; exact ⟨[], by simp [e1], by simp, by simp [e2]⟩
      · rintro ⟨t, h1, h2, h3⟩
        cases t with
        | nil => simp at h1; simp [h1, h3]
        | cons c t => simp at h1 h2; rw [← h1.1, hp] at h2; simp at h2
    · by_cases h2 : p b
      · simp only [takeWord, h1, h2, if_true, if_false, ih]
        constructor
        · rintro ⟨t, h3, h4, h5⟩
          exact ⟨b :: t, by simp [h3], by simpa using ⟨h2, h4⟩, by simp [h5]⟩
        · rintro ⟨t, h3, h4, h5⟩
          cases t with
          | nil => simp at h3; exact absurd h3.1 h1
          | cons c t => simp at h3 h4; obtain ⟨rfl, h3⟩ := h3; exact ⟨t, h3, h4.2, by simp [h5]⟩
      · simp only [takeWord, h1, h2, if_false]
        constructor
        · intro h; simp at h
        · rintro ⟨t, h3, h4, h5⟩
          cases t with
          | nil => simp at h3; exact absurd h3.1 h1
          | cons c t => simp at h3 h4; obtain ⟨rfl, h3⟩ := h3; exact absurd h4.1 h2

theorem uriToken_iff (b : UInt8) : uriToken b = true ↔ targetByte b := by
  have h : ∀ n : Fin 256, uriToken (UInt8.ofNat n.val) = true ↔ targetByte (UInt8.ofNat n.val) := by
    unfold targetByte; decide +kernel
  have := h ⟨b.toNat, b.toNat_lt⟩
  simpa using this

theorem versionPart_not_ok (es bs rest : Bytes) (v : Nat) : versionPart es bs ≠ .ok rest v := by
  induction bs generalizing es with
  | nil => simp [versionPart]
  | cons b r ih =>
    cases es with
    | nil => simp [versionPart]
    | cons e es =>
      simp only [versionPart]
      split
      · exact ih es
      · simp

theorem parseVersion_ok (bs rest : Bytes) (v : Nat) :
    parseVersion bs = .ok rest v ↔ v ≤ 1 ∧ bs = ascii "HTTP/1." ++ UInt8.ofNat (48 + v) :: rest := by
  unfold parseVersion
  have h10 : ascii "HTTP/1.0" = ascii "HTTP/1." ++ [UInt8.ofNat (48 + 0)] := by decide
  have h11 : ascii "HTTP/1.1" = ascii "HTTP/1." ++ [UInt8.ofNat (48 + 1)] := by decide
  by_cases hl : 8 ≤ bs.length
  · rw [if_pos hl]
    constructor
    · intro h
      split at h
      · rename_i h8
        injection h with e1 e2
        subst e2 e1
        refine ⟨by omega, ?_⟩
        conv => lhs; rw [← List.take_append_drop 8 bs]
        rw [h8, h10]; simp
      · split at h
        · rename_i h8
          injection h with e1 e2
          subst e2 e1
          refine ⟨by omega, ?_⟩
          conv => lhs; rw [← List.take_append_drop 8 bs]
          rw [h8, h11]; simp
        · cases h
    · rintro ⟨hv, rfl⟩
      have ht : (ascii "HTTP/1." ++ UInt8.ofNat (48 + v) :: rest).take 8 = ascii "HTTP/1." ++ [UInt8.ofNat (48 + v)] := rfl
      have hd : (ascii "HTTP/1." ++ UInt8.ofNat (48 + v) :: rest).drop 8 = rest := rfl
      rw [ht, hd]
      rcases (by omega : v = 0 ∨ v = 1) with rfl | rfl
      · rw [if_pos h10.symm]
      · rw [if_neg (by decide), if_pos h11.symm]
  · rw [if_neg hl]
    constructor
    · intro h; exact absurd h (versionPart_not_ok _ _ _ _)
    · rintro ⟨hv, rfl⟩
      exfalso; apply hl
      have : (ascii "HTTP/1.").length = 7 := by decide
      simp [this]; omega

theorem newline_ok (bs rest : Bytes) : newline bs = .ok rest () ↔ ∃ e, Eol e ∧ bs = e ++ rest := by
  cases bs with
  | nil => simp [newline, Eol]
  | cons b r =>
    by_cases h1 : b = 13
    · subst h1
      have : newline (13 :: r) = expectLf .newLine () r := by simp [newline]
      rw [this, cr_case]
      constructor
      · rintro ⟨rfl, _⟩; exact ⟨[13, 10], .inl rfl, rfl⟩
      · rintro ⟨e, rfl | rfl, h⟩ <;> simp at h; exact ⟨h, rfl⟩
    · by_cases h2 : b = 10
      · subst h2
        have : newline (10 :: r) = .ok r () := by simp [newline]
        rw [this]
        constructor
        · intro h; injection h with e1 e2; exact ⟨[10], .inr rfl, by simp [e1]⟩
        · rintro ⟨e, rfl | rfl, h⟩ <;> simp at h; simp [h]
      · have : newline (b :: r) = .err .newLine := by simp [newline, h1, h2]
        rw [this]
        constructor
        · intro h; cases h
        · rintro ⟨e, rfl | rfl, h⟩ <;> simp at h
          · exact absurd h.1 h1
          · exact absurd h.1 h2

/-- The request parser accepts exactly the request heads of the specification, up to `slots` fields, and
leaves what follows them. -/
theorem parseRequest_ok (slots : Nat) (bs rest m t : Bytes) (v : Nat) (fs : List (Bytes × Bytes)) :
    parseRequest slots bs = .ok rest ⟨m, t, v, fs⟩ ↔ ∃ h, bs = h ++ rest ∧ RequestHead h m t v fs ∧ fs.length ≤ slots := by
  unfold parseRequest
  simp only [andThen_ok]
  constructor
  · rintro ⟨r1, _, h1, r2, m', h2, r3, t', h3, r4, v', h4, r5, _, h5, r6, hs, h6, h7⟩
    injection h7 with e1 e2
    injection e2 with e2 e3 e4 e5
    subst e1 e2 e3 e4 e5
    obtain ⟨bl, b, r, rfl, g1, -, -, -⟩ := (skipEmptyLines_ok _ _).1 h1
    obtain ⟨m2, rfl, g2, g2'⟩ := (takeWord_ok _ (by decide) _ _ _ _).1 h2
    obtain ⟨t2, rfl, g3, g3'⟩ := (takeWord_ok _ (by decide) _ _ _ _).1 h3
    obtain ⟨g4, rfl⟩ := (parseVersion_ok _ _ _).1 h4
    obtain ⟨e, g5, rfl⟩ := (newline_ok _ _).1 h5
    obtain ⟨l, rfl, g6, g6'⟩ := (parseHeaders_ok _ _ _ _).1 h6
    simp only [List.nil_append] at g2' g3'
    subst g2' g3'
    exact ⟨_, by simp, ⟨bl, e, l, rfl, g1, fun b hb => (isTokenByte_iff b).1 (g2 b hb),
      fun b hb => (uriToken_iff b).1 (g3 b hb), g4, g5, g6⟩, g6'⟩
  · rintro ⟨h, rfl, ⟨bl, e, sec, rfl, g1, g2, g3, g4, g5, g6⟩, g7⟩
    refine ⟨m ++ 32 :: (t ++ 32 :: (ascii "HTTP/1." ++ (UInt8.ofNat (48 + v) :: (e ++ (sec ++ rest))))), (),
      (skipEmptyLines_ok _ _).2 ?_, t ++ 32 :: (ascii "HTTP/1." ++ (UInt8.ofNat (48 + v) :: (e ++ (sec ++ rest)))), m,
      (takeWord_ok _ (by decide) _ _ _ _).2 ⟨m, rfl, fun b hb => (isTokenByte_iff b).2 (g2 b hb), rfl⟩,
      ascii "HTTP/1." ++ (UInt8.ofNat (48 + v) :: (e ++ (sec ++ rest))), t,
      (takeWord_ok _ (by decide) _ _ _ _).2 ⟨t, rfl, fun b hb => (uriToken_iff b).2 (g3 b hb), rfl⟩,
      e ++ (sec ++ rest), v, (parseVersion_ok _ _ _).2 ⟨g4, rfl⟩,
      sec ++ rest, (), (newline_ok _ _).2 ⟨e, g5, rfl⟩,
      rest, fs, (parseHeaders_ok _ _ _ _).2 ⟨sec, rfl, g6, g7⟩, rfl⟩
    cases m with
    | nil => exact ⟨bl, 32, _, by simp, g1, rfl, by decide, by decide⟩
    | cons b m =>
      have hb := (isTokenByte_iff b).2 (g2 b List.mem_cons_self)
      refine ⟨bl, b, _, by simp, g1, rfl, ?_, ?_⟩ <;> (rintro rfl; revert hb; decide)

end Tophat.Httparse

namespace Tophat
open Tophat.Spec

/-! ## Numbers -/

theorem decDigit_some (b : UInt8) (d : Nat) : decDigit b = some d ↔ 48 ≤ b.toNat ∧ b.toNat ≤ 57 ∧ d = b.toNat - 48 := by
  unfold decDigit
  split
  · rename_i h; simp; constructor
    · rintro rfl; exact ⟨h.1, h.2, rfl⟩
    · rintro ⟨_, _, rfl⟩; rfl
  · rename_i h; simp; intro h1 h2; exact absurd ⟨h1, h2⟩ h

theorem decGo_some (acc : Nat) (bs : Bytes) (n : Nat) :
    decGo acc bs = some n ↔ (∀ b ∈ bs, 48 ≤ b.toNat ∧ b.toNat ≤ 57) ∧
      bs.foldl (fun a c => 10 * a + (c.toNat - 48)) acc = n := by
  induction bs generalizing acc with
  | nil => simp [decGo]
  | cons b r ih =>
    simp only [decGo]
    cases hd : decDigit b with
    | none =>
      have : ¬ (48 ≤ b.toNat ∧ b.toNat ≤ 57) := by
        intro h
        rw [(decDigit_some b _).2 ⟨h.1, h.2, rfl⟩] at hd; cases hd
      simp only [List.mem_cons, forall_eq_or_imp]
      constructor
      · intro h; cases h
      · rintro ⟨⟨h, _⟩, _⟩; exact absurd h this
    | some d =>
      obtain ⟨h1, h2, rfl⟩ := (decDigit_some b d).1 hd
      simp only [ih, List.foldl_cons, List.mem_cons, forall_eq_or_imp]
      rw [Nat.mul_comm 10 acc]
      constructor
      · rintro ⟨g1, g2⟩; exact ⟨⟨⟨h1, h2⟩, g1⟩, g2⟩
      · rintro ⟨⟨_, g1⟩, g2⟩; exact ⟨g1, g2⟩

theorem unsignedDigits_some (bs : Bytes) (n : Nat) :
    unsignedDigits bs = some n ↔ bs ≠ [] ∧ (∀ b ∈ bs, 48 ≤ b.toNat ∧ b.toNat ≤ 57) ∧ decNum bs = n ∧ n < 2 ^ 64 := by
  cases bs with
  | nil => simp [unsignedDigits]
  | cons b r =>
    simp only [unsignedDigits, decNum]
    cases hd : decGo 0 (b :: r) with
    | none =>
      simp only [ne_eq, reduceCtorEq, not_false_eq_true, true_and]
      constructor
      · intro h; cases h
      · rintro ⟨h1, h2, _⟩
        rw [(decGo_some 0 (b :: r) n).2 ⟨h1, h2⟩] at hd; cases hd
    | some m =>
      obtain ⟨h1, h2⟩ := (decGo_some 0 (b :: r) m).1 hd
      show (if m < usizeLimit then some m else none) = some n ↔ _
      rw [h2]
      constructor
      · intro h
        by_cases hm : m < usizeLimit
        · rw [if_pos hm] at h; injection h with h; subst h; exact ⟨by simp, h1, rfl, hm⟩
        · rw [if_neg hm] at h; cases h
      · rintro ⟨_, _, rfl, h3⟩; exact if_pos h3

/-- `parse::<usize>()` accepts exactly the lengths of the specification. -/
theorem parseUsize_some (v : Bytes) (n : Nat) : parseUsize v = some n ↔ IsLength v n := by
  unfold parseUsize IsLength
  split
  · rename_i r
    rw [unsignedDigits_some]
    constructor
    · rintro ⟨h1, h2, h3, h4⟩; exact ⟨r, .inr rfl, h1, h2, h3, h4⟩
    · rintro ⟨ds, rfl | h0, h1, h2, h3, h4⟩
      · exact absurd (h2 43 List.mem_cons_self) (by decide)
      · simp at h0; subst h0; exact ⟨h1, h2, h3, h4⟩
  · rename_i hne
    rw [unsignedDigits_some]
    constructor
    · rintro ⟨h1, h2, h3, h4⟩; exact ⟨v, .inl rfl, h1, h2, h3, h4⟩
    · rintro ⟨ds, rfl | h0, h1, h2, h3, h4⟩
      · exact ⟨h1, h2, h3, h4⟩
      · exact absurd h0 (hne ds)

end Tophat
