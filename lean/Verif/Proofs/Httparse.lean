import Verif.Model.Httparse
import Verif.Spec.ChunkedBody
import Verif.Proofs.ChunkGrammar
/-! Lemmas about the parsers: they are insensitive to what follows, and accept exactly the grammar of
`Verif.Spec.ChunkedBody`. -/

namespace Tophat.Httparse
open Tophat.Spec

/-- Once a parser has an answer, more input does not change it. -/
structure Streaming {α : Type} (p : Bytes → PRes α) : Prop where
  ok : ∀ {bs rest a}, p bs = .ok rest a → (∃ l, bs = l ++ rest) ∧ ∀ y, p (bs ++ y) = .ok (rest ++ y) a
  err : ∀ {bs e}, p bs = .err e → ∀ y, p (bs ++ y) = .err e

theorem Streaming.andThen {α β : Type} {p : Bytes → PRes α} {f : Bytes → α → PRes β}
    (hp : Streaming p) (hf : ∀ a, Streaming fun bs => f bs a) :
    Streaming fun bs => (p bs).andThen f := by
  constructor
  · intro bs rest b h
    cases hpb : p bs with
    | part => simp [hpb, PRes.andThen] at h
    | err e => simp [hpb, PRes.andThen] at h
    | ok r a =>
      simp only [hpb, PRes.andThen] at h
      obtain ⟨⟨l, hl⟩, h1⟩ := hp.ok hpb
      obtain ⟨⟨l', hl'⟩, h2⟩ := (hf a).ok h
      refine ⟨⟨l ++ l', by rw [hl, hl']; simp⟩, fun y => ?_⟩
      simp only [h1 y, PRes.andThen, h2 y]
  · intro bs e h y
    cases hpb : p bs with
    | part => simp [hpb, PRes.andThen] at h
    | err e' =>
      simp only [hpb, PRes.andThen] at h ⊢
      simp only [hp.err hpb y]; exact h
    | ok r a =>
      simp only [hpb, PRes.andThen] at h
      simp only [(hp.ok hpb).2 y, PRes.andThen, (hf a).err h y]

/-- A proper prefix of what a streaming parser uses gives `part`. -/
theorem Streaming.part_of_prefix {α : Type} {p : Bytes → PRes α} (hp : Streaming p) {w y rest : Bytes} {a : α}
    (h : p (w ++ y) = .ok rest a) (hl : rest.length < y.length) : p w = .part := by
  cases hw : p w with
  | part => rfl
  | err e => rw [hp.err hw y] at h; cases h
  | ok r a' =>
    rw [(hp.ok hw).2 y] at h
    injection h with h1 h2
    rw [← h1] at hl; simp at hl; omega

theorem expectLf_streaming {α : Type} (e : PErr) (a : α) : Streaming (expectLf e a) := by
  constructor
  · intro bs rest a' h
    cases bs with
    | nil => simp [expectLf] at h
    | cons c r =>
      simp only [expectLf] at h
      split at h
      · rename_i hc
        injection h with e1 e2
        subst e1 e2
        exact ⟨⟨[c], rfl⟩, fun y => by simp [expectLf, hc]⟩
      · simp at h
  · intro bs e' h y
    cases bs with
    | nil => simp [expectLf] at h
    | cons c r =>
      simp only [expectLf, List.cons_append] at h ⊢
      split at h
      · simp at h
      · rename_i hc; simp only [hc, if_false]; exact h

/-- A streaming parser decides on its first byte and goes on with a streaming parser. -/
theorem Streaming.cons {α : Type} {p : Bytes → PRes α} (h0 : p [] = .part)
    (h : ∀ b, ∃ q, Streaming q ∧ ∀ r, p (b :: r) = q r) : Streaming p := by
  constructor
  · intro bs rest a hp
    cases bs with
    | nil => rw [h0] at hp; cases hp
    | cons b r =>
      obtain ⟨q, hq, hb⟩ := h b
      rw [hb] at hp
      obtain ⟨⟨l, hl⟩, h2⟩ := hq.ok hp
      exact ⟨⟨b :: l, by rw [hl]; rfl⟩, fun y => by rw [List.cons_append, hb]; exact h2 y⟩
  · intro bs e hp y
    cases bs with
    | nil => rw [h0] at hp; cases hp
    | cons b r =>
      obtain ⟨q, hq, hb⟩ := h b
      rw [hb] at hp
      rw [List.cons_append, hb]; exact hq.err hp y

theorem streaming_err {α : Type} (e : PErr) : Streaming (fun _ : Bytes => (PRes.err e : PRes α)) :=
  ⟨fun h => by simp at h, fun h _ => h⟩

theorem streaming_ok {α : Type} (a : α) : Streaming (fun bs : Bytes => PRes.ok bs a) :=
  ⟨fun h => by simp at h; obtain ⟨rfl, rfl⟩ := h; exact ⟨⟨[], rfl⟩, fun _ => rfl⟩, fun h => by simp at h⟩

/-- What a parser does with its first byte: hand over to another streaming parser, or fail. -/
theorem chunkSizeGo_cons (size count : Nat) (i e : Bool) (b : UInt8) :
    (∃ s' c' i' e', ∀ r, chunkSizeGo size count i e (b :: r) = chunkSizeGo s' c' i' e' r) ∨
    (∀ r, chunkSizeGo size count i e (b :: r) = .err .chunkSize) ∨
    (∀ r, chunkSizeGo size count i e (b :: r) = expectLf .chunkSize size r) := by
  simp only [chunkSizeGo]
  split
  · split
    · exact .inr (.inl fun _ => rfl)
    · exact .inl ⟨_, _, _, _, fun _ => rfl⟩
  · split
    · exact .inr (.inr fun _ => rfl)
    · repeat' split
      all_goals first | exact .inl ⟨_, _, _, _, fun _ => rfl⟩ | exact .inr (.inl fun _ => rfl)

theorem chunkSizeGo_streaming (size count : Nat) (inSize inExt : Bool) :
    Streaming (chunkSizeGo size count inSize inExt) := by
  constructor
  · intro bs
    induction bs generalizing size count inSize inExt with
    | nil => intro rest a h; simp [chunkSizeGo] at h
    | cons b r ih =>
      intro rest a h
      rcases chunkSizeGo_cons size count inSize inExt b with ⟨s', c', i', e', hs⟩ | hs | hs
      · rw [hs] at h
        obtain ⟨⟨l, hl⟩, h2⟩ := ih s' c' i' e' h
        exact ⟨⟨b :: l, by rw [hl]; rfl⟩, fun y => by rw [List.cons_append, hs]; exact h2 y⟩
      · rw [hs] at h; cases h
      · rw [hs] at h
        obtain ⟨⟨l, hl⟩, h2⟩ := (expectLf_streaming _ _).ok h
        exact ⟨⟨b :: l, by rw [hl]; rfl⟩, fun y => by rw [List.cons_append, hs]; exact h2 y⟩
  · intro bs
    induction bs generalizing size count inSize inExt with
    | nil => intro e h; simp [chunkSizeGo] at h
    | cons b r ih =>
      intro e h y
      rcases chunkSizeGo_cons size count inSize inExt b with ⟨s', c', i', e', hs⟩ | hs | hs
      · rw [hs] at h
        rw [List.cons_append, hs]; exact ih s' c' i' e' h y
      · rw [hs] at h; rw [List.cons_append, hs]; exact h
      · rw [hs] at h
        rw [List.cons_append, hs]; exact (expectLf_streaming _ _).err h y

theorem parseChunkSize_streaming : Streaming parseChunkSize := chunkSizeGo_streaming 0 0 true false


/-! ## Chunk size lines -/

theorem digitVal_eq (b : UInt8) : digitVal b = hexVal b := by
  unfold digitVal hexVal
  repeat' split
  all_goals first | omega | (congr 1; omega) | rfl

/-- Fold of hexadecimal digits from an accumulator. -/
def hexFrom (a : Nat) (h : Bytes) : Option Nat :=
  h.foldl (fun acc c => acc.bind fun a => (hexVal c).map fun v => 16 * a + v) (some a)

theorem hexFrom_nil (a : Nat) : hexFrom a [] = some a := rfl

theorem hexFrom_cons (a : Nat) (b : UInt8) (h : Bytes) :
    hexFrom a (b :: h) = match hexVal b with | some v => hexFrom (16 * a + v) h | none => none := by
  unfold hexFrom
  rw [List.foldl_cons]
  cases hexVal b with
  | some v => rfl
  | none => exact hexFold_none h

theorem hexNum_eq (h : Bytes) : hexNum h = hexFrom 0 h := rfl

theorem cr_case {α : Type} {e : PErr} (size : α) (r rest : Bytes) (n : α) :
    expectLf e size r = .ok rest n ↔ r = 10 :: rest ∧ n = size := by
  cases r with
  | nil => simp [expectLf]
  | cons c r =>
    simp only [expectLf]
    split
    · rename_i hc; subst hc
      constructor
      · intro h; injection h with e1 e2; exact ⟨by rw [e1], e2.symm⟩
      · rintro ⟨h1, h2⟩; simp at h1; rw [h1, h2]
    · rename_i hc; simp; intro h; exact absurd h hc

/-- Parsing from inside the extension. -/
theorem go_ext (size count : Nat) (bs rest : Bytes) (n : Nat) :
    chunkSizeGo size count false true bs = .ok rest n ↔
      ∃ t, bs = t ++ 13 :: 10 :: rest ∧ (13 : UInt8) ∉ t ∧ n = size := by
  induction bs with
  | nil => simp [chunkSizeGo]
  | cons b r ih =>
    by_cases hb : b = 13
    · subst hb
      have : chunkSizeGo size count false true (13 :: r) = expectLf .chunkSize size r := by simp [chunkSizeGo]
      rw [this, cr_case]
      constructor
      · rintro ⟨rfl, rfl⟩; exact ⟨[], rfl, by simp, rfl⟩
      · rintro ⟨t, h1, h2, h3⟩
        cases t with
        | nil => simp at h1; simp [h1, h3]
        | cons c t => simp at h1 h2; exact absurd h1.1 h2.1
    · have : chunkSizeGo size count false true (b :: r) = chunkSizeGo size count false true r := by
        simp [chunkSizeGo, hb]
      rw [this, ih]
      constructor
      · rintro ⟨t, h1, h2, h3⟩
        exact ⟨b :: t, by simp [h1], by simp [h2]; exact fun x => hb x.symm, h3⟩
      · rintro ⟨t, h1, h2, h3⟩
        cases t with
        | nil => simp at h1; exact absurd h1.1 hb
        | cons c t =>
          simp at h1 h2
          exact ⟨t, h1.2, h2.2, h3⟩

/-- The part of a size line after the digits: white space, optional extension. -/
def LineTail (bs : Bytes) (rest : Bytes) : Prop :=
  ∃ ws ext, bs = ws ++ (ext ++ 13 :: 10 :: rest) ∧ (∀ b ∈ ws, b = 32 ∨ b = 9) ∧
    (ext = [] ∨ ∃ t, ext = 59 :: t ∧ (13 : UInt8) ∉ t)

theorem lineTail_nil (rest : Bytes) : ¬ LineTail [] rest := by
  rintro ⟨ws, ext, h, _⟩; simp at h

theorem lineTail_cons (b : UInt8) (r rest : Bytes) :
    LineTail (b :: r) rest ↔
      (b = 13 ∧ r = 10 :: rest) ∨ ((b = 32 ∨ b = 9) ∧ LineTail r rest) ∨
      (b = 59 ∧ ∃ t, r = t ++ 13 :: 10 :: rest ∧ (13 : UInt8) ∉ t) := by
  constructor
  · rintro ⟨ws, ext, h, hws, hext⟩
    cases ws with
    | nil =>
      rcases hext with rfl | ⟨t, rfl, ht⟩
      · simp at h; exact .inl h
      · simp at h; exact .inr (.inr ⟨h.1, t, h.2, ht⟩)
    | cons c ws =>
      simp at h hws
      obtain ⟨rfl, h⟩ := h
      exact .inr (.inl ⟨hws.1, ws, ext, h, hws.2, hext⟩)
  · rintro (⟨rfl, rfl⟩ | ⟨hb, ws, ext, h, hws, hext⟩ | ⟨rfl, t, rfl, ht⟩)
    · exact ⟨[], [], by simp, by simp, .inl rfl⟩
    · exact ⟨b :: ws, ext, by simp [h], by simpa using ⟨hb, hws⟩, hext⟩
    · exact ⟨[], 59 :: t, by simp, by simp, .inr ⟨t, rfl, ht⟩⟩

/-- Parsing after the digits. -/
theorem go_tail (size count : Nat) (bs rest : Bytes) (n : Nat) :
    chunkSizeGo size count false false bs = .ok rest n ↔ LineTail bs rest ∧ n = size := by
  induction bs with
  | nil => simp [chunkSizeGo, lineTail_nil]
  | cons b r ih =>
    rw [lineTail_cons]
    by_cases h13 : b = 13
    · subst h13
      have : chunkSizeGo size count false false (13 :: r) = expectLf .chunkSize size r := by simp [chunkSizeGo]
      rw [this, cr_case]
      simp
    · by_cases h59 : b = 59
      · subst h59
        have : chunkSizeGo size count false false (59 :: r) = chunkSizeGo size count false true r := by
          simp [chunkSizeGo]
        rw [this, go_ext]
        simp
        constructor
        · rintro ⟨t, h1, h2, h3⟩; exact ⟨⟨t, h1, h2⟩, h3⟩
        · rintro ⟨⟨t, h1, h2⟩, h3⟩; exact ⟨t, h1, h2, h3⟩
      · by_cases hws : b = 32 ∨ b = 9
        · have : chunkSizeGo size count false false (b :: r) = chunkSizeGo size count false false r := by
            simp [chunkSizeGo, h13, h59, Or.comm.1 hws]
          rw [this, ih]
          simp [h13, h59, hws]
        · have hws' : ¬ (b = 9 ∨ b = 32) := fun h => hws (Or.comm.1 h)
          have : chunkSizeGo size count false false (b :: r) = .err .chunkSize := by
            simp [chunkSizeGo, h13, h59, hws']
          rw [this]
          simp [h13, h59, hws]

theorem hexVal_cr : hexVal 13 = none := by decide
theorem hexVal_blank {b : UInt8} (h : b = 32 ∨ b = 9) : hexVal b = none := by
  rcases h with rfl | rfl <;> decide
theorem hexVal_semi : hexVal 59 = none := by decide

/-- Parsing from inside the digits. -/
theorem go_digits (size count : Nat) (bs rest : Bytes) (n : Nat) (hc : count ≤ 16) :
    chunkSizeGo size count true false bs = .ok rest n ↔
      ∃ h tl, bs = h ++ tl ∧ LineTail tl rest ∧ hexFrom size h = some n ∧ count + h.length ≤ 16 := by
  induction bs generalizing size count with
  | nil =>
    simp only [chunkSizeGo]
    constructor
    · intro h; cases h
    · rintro ⟨h, tl, h1, h2, _⟩
      simp at h1; rw [h1.2] at h2; exact absurd h2 (lineTail_nil _)
  | cons b r ih =>
    cases hv : hexVal b with
    | some v =>
      have hstep : chunkSizeGo size count true false (b :: r) =
          if count > 15 then .err .chunkSize else chunkSizeGo (size * 16 + v) (count + 1) true false r := by
        simp [chunkSizeGo, digitVal_eq, hv]
      rw [hstep]
      have hnt : ¬ LineTail (b :: r) rest := by
        rw [lineTail_cons]
        rintro (⟨rfl, _⟩ | ⟨hb, _⟩ | ⟨rfl, _⟩)
        · rw [hexVal_cr] at hv; cases hv
        · rw [hexVal_blank hb] at hv; cases hv
        · rw [hexVal_semi] at hv; cases hv
      split
      · rename_i h15
        constructor
        · intro h; cases h
        · rintro ⟨h, tl, h1, h2, h3, h4⟩
          cases h with
          | nil => simp at h1; rw [← h1] at h2; exact absurd h2 hnt
          | cons c h => simp at h4; omega
      · rename_i h15
        rw [ih _ _ (by omega)]
        constructor
        · rintro ⟨h, tl, h1, h2, h3, h4⟩
          refine ⟨b :: h, tl, by simp [h1], h2, ?_, by simp; omega⟩
          rw [hexFrom_cons, hv]; simp only; rw [Nat.mul_comm 16 size]; exact h3
        · rintro ⟨h, tl, h1, h2, h3, h4⟩
          cases h with
          | nil => simp at h1; rw [← h1] at h2; exact absurd h2 hnt
          | cons c h =>
            simp at h1
            obtain ⟨rfl, h1⟩ := h1
            rw [hexFrom_cons, hv] at h3; simp only at h3
            exact ⟨h, tl, h1, h2, by rw [Nat.mul_comm size 16]; exact h3, by simp at h4; omega⟩
    | none =>
      have hno : (∃ h tl, b :: r = h ++ tl ∧ LineTail tl rest ∧ hexFrom size h = some n ∧ count + h.length ≤ 16) ↔
          LineTail (b :: r) rest ∧ n = size := by
        constructor
        · rintro ⟨h, tl, h1, h2, h3, h4⟩
          cases h with
          | nil =>
            simp at h1; rw [hexFrom_nil] at h3; injection h3 with h3
            exact ⟨h1 ▸ h2, h3.symm⟩
          | cons c h =>
            simp at h1
            obtain ⟨rfl, h1⟩ := h1
            rw [hexFrom_cons, hv] at h3; cases h3
        · rintro ⟨h1, rfl⟩
          exact ⟨[], b :: r, rfl, h1, rfl, by simpa using hc⟩
      rw [hno, lineTail_cons]
      by_cases h13 : b = 13
      · subst h13
        have : chunkSizeGo size count true false (13 :: r) = expectLf .chunkSize size r := by simp [chunkSizeGo, digitVal_eq, hv]
        rw [this, cr_case]
        simp
      · by_cases h59 : b = 59
        · subst h59
          have : chunkSizeGo size count true false (59 :: r) = chunkSizeGo size count false true r := by
            simp [chunkSizeGo, digitVal_eq, hv]
          rw [this, go_ext]
          simp
          constructor
          · rintro ⟨t, h1, h2, h3⟩; exact ⟨⟨t, h1, h2⟩, h3⟩
          · rintro ⟨⟨t, h1, h2⟩, h3⟩; exact ⟨t, h1, h2, h3⟩
        · by_cases hws : b = 32 ∨ b = 9
          · have : chunkSizeGo size count true false (b :: r) = chunkSizeGo size count false false r := by
              simp [chunkSizeGo, digitVal_eq, hv, h13, h59, Or.comm.1 hws]
            rw [this, go_tail]
            simp [h13, h59, hws]
          · have hws' : ¬ (b = 9 ∨ b = 32) := fun h => hws (Or.comm.1 h)
            have : chunkSizeGo size count true false (b :: r) = .err .chunkSize := by
              simp [chunkSizeGo, digitVal_eq, hv, h13, h59, hws']
            rw [this]
            simp [h13, h59, hws]

/-- The chunk size parser accepts exactly the size lines of the specification. -/
theorem parseChunkSize_ok (bs rest : Bytes) (n : Nat) :
    parseChunkSize bs = .ok rest n ↔ ∃ l, bs = l ++ rest ∧ SizeLine l n := by
  unfold parseChunkSize
  rw [go_digits 0 0 bs rest n (by omega)]
  constructor
  · rintro ⟨h, tl, rfl, ⟨ws, ext, rfl, hws, hext⟩, h3, h4⟩
    exact ⟨h ++ (ws ++ (ext ++ [13, 10])), by simp, h, ws, ext, rfl, h3, by omega, hws, hext⟩
  · rintro ⟨l, rfl, h, ws, ext, rfl, h3, h4, hws, hext⟩
    exact ⟨h, ws ++ (ext ++ 13 :: 10 :: rest), by simp, ⟨ws, ext, rfl, hws, hext⟩, h3, by omega⟩

/-! ## Streaming of the other parsers -/

/-- `Streaming` for inputs of bounded length. -/
structure StreamN {α : Type} (n : Nat) (p : Bytes → PRes α) : Prop where
  ok : ∀ {bs rest a}, bs.length ≤ n → p bs = .ok rest a → (∃ l, bs = l ++ rest) ∧ ∀ y, p (bs ++ y) = .ok (rest ++ y) a
  err : ∀ {bs e}, bs.length ≤ n → p bs = .err e → ∀ y, p (bs ++ y) = .err e

theorem Streaming.toN {α : Type} {p : Bytes → PRes α} (h : Streaming p) (n : Nat) : StreamN n p :=
  ⟨fun _ => h.ok, fun _ => h.err⟩

theorem Streaming.ofN {α : Type} {p : Bytes → PRes α} (h : ∀ n, StreamN n p) : Streaming p :=
  ⟨fun {bs} => (h bs.length).ok (Nat.le_refl _), fun {bs} => (h bs.length).err (Nat.le_refl _)⟩

theorem StreamN.zero {α : Type} {p : Bytes → PRes α} (h0 : p [] = .part) : StreamN 0 p := by
  constructor
  · intro bs rest a hn h
    have : bs = [] := List.length_eq_zero_iff.1 (by omega)
    subst this; rw [h0] at h; cases h
  · intro bs e hn h
    have : bs = [] := List.length_eq_zero_iff.1 (by omega)
    subst this; rw [h0] at h; cases h

theorem StreamN.cons {α : Type} {n : Nat} {p : Bytes → PRes α} (h0 : p [] = .part)
    (h : ∀ b, ∃ q, StreamN n q ∧ ∀ r, p (b :: r) = q r) : StreamN (n + 1) p := by
  constructor
  · intro bs rest a hn hp
    cases bs with
    | nil => rw [h0] at hp; cases hp
    | cons b r =>
      obtain ⟨q, hq, hb⟩ := h b
      rw [hb] at hp
      obtain ⟨⟨l, hl⟩, h2⟩ := hq.ok (by simpa using hn) hp
      exact ⟨⟨b :: l, by rw [hl]; rfl⟩, fun y => by rw [List.cons_append, hb]; exact h2 y⟩
  · intro bs e hn hp y
    cases bs with
    | nil => rw [h0] at hp; cases hp
    | cons b r =>
      obtain ⟨q, hq, hb⟩ := h b
      rw [hb] at hp
      rw [List.cons_append, hb]; exact hq.err (by simpa using hn) hp y

theorem takeName_streaming (acc : Bytes) : Streaming (takeName acc) := by
  apply Streaming.ofN
  intro n
  induction n generalizing acc with
  | zero => exact .zero rfl
  | succ n ih =>
    refine .cons rfl fun b => ?_
    by_cases h1 : b = 58
    · exact ⟨_, (streaming_ok acc).toN n, fun r => by simp [takeName, h1]⟩
    · by_cases h2 : isTokenByte b
      · exact ⟨_, ih (acc ++ [b]), fun r => by simp [takeName, h1, h2]⟩
      · exact ⟨_, (streaming_err .headerName).toN n, fun r => by simp [takeName, h1, h2]⟩

theorem takeWord_streaming (p : UInt8 → Bool) (acc : Bytes) : Streaming (takeWord p acc) := by
  apply Streaming.ofN
  intro n
  induction n generalizing acc with
  | zero => exact .zero rfl
  | succ n ih =>
    refine .cons rfl fun b => ?_
    by_cases h1 : b = 32
    · exact ⟨_, (streaming_ok acc).toN n, fun r => by simp [takeWord, h1]⟩
    · by_cases h2 : p b
      · exact ⟨_, ih (acc ++ [b]), fun r => by simp [takeWord, h1, h2]⟩
      · exact ⟨_, (streaming_err .token).toN n, fun r => by simp [takeWord, h1, h2]⟩

/-- The three ways a line can end in these parsers. -/
theorem eol_streaming {α : Type} (e : PErr) (a : α) (b : UInt8) :
    ∃ q, Streaming q ∧ ∀ r, (if b = 13 then expectLf e a r else if b = 10 then .ok r a else .err e) = q r := by
  by_cases h1 : b = 13
  · exact ⟨_, expectLf_streaming e a, fun r => by simp [h1]⟩
  · by_cases h2 : b = 10
    · exact ⟨_, streaming_ok a, fun r => by simp [h2]⟩
    · exact ⟨_, streaming_err e, fun r => by simp [h1, h2]⟩

theorem valueEnd_streaming (v : Bytes) : Streaming (valueEnd v) :=
  .cons rfl fun b => by
    obtain ⟨q, hq, h⟩ := eol_streaming .headerValue v b
    exact ⟨q, hq, fun r => by rw [← h]; rfl⟩

theorem newline_streaming : Streaming newline :=
  .cons rfl fun b => by
    obtain ⟨q, hq, h⟩ := eol_streaming .newLine () b
    exact ⟨q, hq, fun r => by rw [← h]; rfl⟩

theorem takeValue_streaming (acc : Bytes) : Streaming (takeValue acc) := by
  apply Streaming.ofN
  intro n
  induction n generalizing acc with
  | zero => exact .zero rfl
  | succ n ih =>
    refine .cons rfl fun b => ?_
    by_cases h1 : valueToken b
    · exact ⟨_, ih (acc ++ [b]), fun r => by simp [takeValue, h1]⟩
    · obtain ⟨q, hq, h⟩ := eol_streaming .headerValue acc b
      exact ⟨q, hq.toN n, fun r => by rw [← h]; simp only [takeValue, h1]; rfl⟩

theorem blankValue_streaming : Streaming fun bs => takeValue [] (skipBlank bs) := by
  apply Streaming.ofN
  intro n
  induction n with
  | zero => exact .zero rfl
  | succ n ih =>
    constructor
    · intro bs rest a hn h
      cases bs with
      | nil => simp [skipBlank, takeValue] at h
      | cons b r =>
        by_cases hb : b = 32 ∨ b = 9
        · simp only [skipBlank, hb, if_true] at h
          obtain ⟨⟨l, hl⟩, h2⟩ := ih.ok (by simpa using hn) h
          exact ⟨⟨b :: l, by rw [hl]; rfl⟩, fun y => by simpa only [List.cons_append, skipBlank, hb, if_true] using h2 y⟩
        · simp only [skipBlank, hb, if_false] at h
          have := (takeValue_streaming []).ok h
          exact ⟨this.1, fun y => by simpa only [List.cons_append, skipBlank, hb, if_false] using this.2 y⟩
    · intro bs e hn h y
      cases bs with
      | nil => simp [skipBlank, takeValue] at h
      | cons b r =>
        by_cases hb : b = 32 ∨ b = 9
        · simp only [skipBlank, hb, if_true] at h
          simpa only [List.cons_append, skipBlank, hb, if_true] using ih.err (by simpa using hn) h y
        · simp only [skipBlank, hb, if_false] at h
          simpa only [List.cons_append, skipBlank, hb, if_false] using (takeValue_streaming []).err h y

theorem parseHeader_streaming : Streaming parseHeader :=
  (takeName_streaming []).andThen fun a => blankValue_streaming.andThen fun v => streaming_ok (a, v)

theorem sectionEnd_streaming (acc : List (Bytes × Bytes)) {next : Bytes → PRes (List (Bytes × Bytes))}
    (hn : Streaming next) : Streaming (sectionEnd acc next) := by
  constructor
  · intro bs rest a h
    cases bs with
    | nil => simp [sectionEnd] at h
    | cons b r =>
      simp only [List.cons_append, sectionEnd] at h ⊢
      split at h
      · rename_i h1
        obtain ⟨⟨l, hl⟩, h2⟩ := (expectLf_streaming _ _).ok h
        exact ⟨⟨b :: l, by rw [hl]; rfl⟩, fun y => by rw [if_pos h1]; exact h2 y⟩
      · rename_i h1
        split at h
        · rename_i h2
          injection h with e1 e2
          subst e1 e2
          exact ⟨⟨[b], rfl⟩, fun y => by rw [if_neg h1, if_pos h2]⟩
        · rename_i h2
          split at h
          · simp at h
          · rename_i h3
            have := hn.ok h
            exact ⟨this.1, fun y => by rw [if_neg h1, if_neg h2, if_neg h3]; exact this.2 y⟩
  · intro bs e h y
    cases bs with
    | nil => simp [sectionEnd] at h
    | cons b r =>
      simp only [List.cons_append, sectionEnd] at h ⊢
      split at h
      · rename_i h1
        rw [if_pos h1]; exact (expectLf_streaming _ _).err h y
      · rename_i h1
        split at h
        · simp at h
        · rename_i h2
          split at h
          · rename_i h3
            rw [if_neg h1, if_neg h2, if_pos h3]; exact h
          · rename_i h3
            rw [if_neg h1, if_neg h2, if_neg h3]; exact hn.err h y

theorem headersGo_streaming (slots : Nat) (acc : List (Bytes × Bytes)) : Streaming (headersGo slots acc) := by
  induction slots generalizing acc with
  | zero => exact sectionEnd_streaming acc (streaming_err _)
  | succ slots ih => exact sectionEnd_streaming acc (parseHeader_streaming.andThen fun h => ih (acc ++ [h]))

theorem parseHeaders_streaming (slots : Nat) : Streaming (parseHeaders slots) := headersGo_streaming slots []

/-! ## Header sections -/

theorem isTokenByte_iff (b : UInt8) : isTokenByte b = true ↔ tokenByte b := by
  have h : ∀ n : Fin 256, isTokenByte (UInt8.ofNat n.val) = true ↔ tokenByte (UInt8.ofNat n.val) := by
    unfold tokenByte; decide +kernel
  have := h ⟨b.toNat, b.toNat_lt⟩
  simpa using this

theorem valueToken_iff (b : UInt8) : valueToken b = true ↔ valueByte b := by
  simp [valueToken, valueByte]

theorem takeName_ok (acc bs rest nm : Bytes) :
    takeName acc bs = .ok rest nm ↔ ∃ t, bs = t ++ 58 :: rest ∧ (∀ b ∈ t, tokenByte b) ∧ nm = acc ++ t := by
  induction bs generalizing acc with
  | nil => simp [takeName]
  | cons b r ih =>
    have hcolon : ¬ tokenByte 58 := by rw [← isTokenByte_iff]; decide
    by_cases h1 : b = 58
    · subst h1
      simp only [takeName, if_true]
      constructor
      · intro h; injection h with e1 e2; exact ⟨[], by simp [e1], by simp, by simp [e2]⟩
      · rintro ⟨t, h1, h2, h3⟩
        cases t with
        | nil => simp at h1; simp [h1, h3]
        | cons c t => simp at h1 h2; exact absurd (h1.1 ▸ h2.1) hcolon
    · by_cases h2 : isTokenByte b
      · simp only [takeName, h1, h2, if_true, if_false, ih]
        constructor
        · rintro ⟨t, h3, h4, h5⟩
          exact ⟨b :: t, by simp [h3], by simpa using ⟨(isTokenByte_iff b).1 h2, h4⟩, by simp [h5]⟩
        · rintro ⟨t, h3, h4, h5⟩
          cases t with
          | nil => simp at h3; exact absurd h3.1 h1
          | cons c t => simp at h3 h4; obtain ⟨rfl, h3⟩ := h3; exact ⟨t, h3, h4.2, by simp [h5]⟩
      · simp only [takeName, h1, h2, if_false]
        constructor
        · intro h; simp at h
        · rintro ⟨t, h3, h4, h5⟩
          cases t with
          | nil => simp at h3; exact absurd h3.1 h1
          | cons c t => simp at h3 h4; obtain ⟨rfl, h3⟩ := h3; exact absurd ((isTokenByte_iff b).2 h4.1) h2

theorem valueEnd_ok (v bs rest v' : Bytes) :
    valueEnd v bs = .ok rest v' ↔ ∃ e, Eol e ∧ bs = e ++ rest ∧ v' = v := by
  cases bs with
  | nil => simp [valueEnd, Eol]
  | cons b r =>
    by_cases h1 : b = 13
    · subst h1
      have : valueEnd v (13 :: r) = expectLf .headerValue v r := by simp [valueEnd]
      rw [this, cr_case]
      constructor
      · rintro ⟨rfl, rfl⟩; exact ⟨[13, 10], .inl rfl, rfl, rfl⟩
      · rintro ⟨e, rfl | rfl, h, h3⟩ <;> simp at h; exact ⟨h, h3⟩
    · by_cases h2 : b = 10
      · subst h2
        have : valueEnd v (10 :: r) = .ok r v := by simp [valueEnd]
        rw [this]
        constructor
        · intro h; injection h with e1 e2; exact ⟨[10], .inr rfl, by simp [e1], e2.symm⟩
        · rintro ⟨e, rfl | rfl, h, h3⟩ <;> simp at h; simp [h, h3]
      · have : valueEnd v (b :: r) = .err .headerValue := by simp [valueEnd, h1, h2]
        rw [this]
        constructor
        · intro h; cases h
        · rintro ⟨e, rfl | rfl, h, h3⟩ <;> simp at h
          · exact absurd h.1 h1
          · exact absurd h.1 h2

theorem takeValue_ok (acc bs rest v : Bytes) :
    takeValue acc bs = .ok rest v ↔
      ∃ t e, Eol e ∧ bs = t ++ (e ++ rest) ∧ (∀ b ∈ t, valueByte b) ∧ v = acc ++ t := by
  induction bs generalizing acc with
  | nil =>
    simp only [takeValue]
    constructor
    · intro h; cases h
    · rintro ⟨t, e, rfl | rfl, h, _⟩ <;> simp at h
  | cons b r ih =>
    by_cases h1 : valueToken b
    · simp only [takeValue, h1, if_true, ih]
      constructor
      · rintro ⟨t, e, he, h3, h4, h5⟩
        exact ⟨b :: t, e, he, by simp [h3], by simpa using ⟨(valueToken_iff b).1 h1, h4⟩, by simp [h5]⟩
      · rintro ⟨t, e, he, h3, h4, h5⟩
        cases t with
        | nil =>
          exfalso
          rcases he with rfl | rfl <;> simp at h3 <;> rw [h3.1] at h1 <;> revert h1 <;> decide
        | cons c t => simp at h3 h4; obtain ⟨rfl, h3⟩ := h3; exact ⟨t, e, he, h3, h4.2, by simp [h5]⟩
    · have : takeValue acc (b :: r) = valueEnd acc (b :: r) := by simp [takeValue, h1]
      rw [this, valueEnd_ok]
      constructor
      · rintro ⟨e, he, h3, h4⟩; exact ⟨[], e, he, by simpa using h3, by simp, by simp [h4]⟩
      · rintro ⟨t, e, he, h3, h4, h5⟩
        cases t with
        | nil => exact ⟨e, he, by simpa using h3, by simpa using h5⟩
        | cons c t => simp at h3 h4; obtain ⟨rfl, h3⟩ := h3; exact absurd ((valueToken_iff b).2 h4.1) h1

theorem blankValue_ok (bs rest v : Bytes) :
    takeValue [] (skipBlank bs) = .ok rest v ↔
      ∃ ws e, Eol e ∧ bs = ws ++ (v ++ (e ++ rest)) ∧ (∀ b ∈ ws, b = 32 ∨ b = 9) ∧ (∀ b ∈ v, valueByte b) ∧
        (∀ b, v.head? = some b → b ≠ 32 ∧ b ≠ 9) := by
  induction bs with
  | nil =>
    simp only [skipBlank, takeValue]
    constructor
    · intro h; cases h
    · rintro ⟨ws, e, rfl | rfl, h, _⟩ <;> simp at h
  | cons b r ih =>
    by_cases hb : b = 32 ∨ b = 9
    · simp only [skipBlank, hb, if_true, ih]
      constructor
      · rintro ⟨ws, e, he, h1, h2, h3, h4⟩
        exact ⟨b :: ws, e, he, by simp [h1], by simpa using ⟨hb, h2⟩, h3, h4⟩
      · rintro ⟨ws, e, he, h1, h2, h3, h4⟩
        cases ws with
        | nil =>
          exfalso
          cases v with
          | nil => rcases he with rfl | rfl <;> simp at h1 <;> rw [h1.1] at hb <;> revert hb <;> decide
          | cons c v =>
            simp at h1 h4
            rcases hb with rfl | rfl
            · exact h4.1 h1.1.symm
            · exact h4.2 h1.1.symm
        | cons c ws => simp at h1 h2; obtain ⟨rfl, h1⟩ := h1; exact ⟨ws, e, he, h1, h2.2, h3, h4⟩
    · simp only [skipBlank, hb, if_false, takeValue_ok]
      constructor
      · rintro ⟨t, e, he, h1, h2, h3⟩
        simp at h3; subst h3
        refine ⟨[], e, he, by simpa using h1, by simp, h2, ?_⟩
        intro c hc
        cases v with
        | nil => simp at hc
        | cons d v =>
          simp at hc h1
          rw [← hc, ← h1.1]
          exact ⟨fun h => hb (.inl h), fun h => hb (.inr h)⟩
      · rintro ⟨ws, e, he, h1, h2, h3, h4⟩
        cases ws with
        | nil => exact ⟨v, e, he, by simpa using h1, h3, rfl⟩
        | cons c ws => simp at h1 h2; exact absurd (h1.1 ▸ h2.1) hb

theorem parseHeader_ok (bs rest n v : Bytes) (hb : ∃ b r, bs = b :: r ∧ isTokenByte b) :
    parseHeader bs = .ok rest (n, v) ↔ ∃ l, bs = l ++ rest ∧ FieldLine l n v := by
  unfold parseHeader
  constructor
  · intro h
    cases h1 : takeName [] bs with
    | part => simp [h1, PRes.andThen] at h
    | err e => simp [h1, PRes.andThen] at h
    | ok r nm =>
      simp only [h1, PRes.andThen] at h
      split at h <;> simp at h
      rename_i rest' v' h2
      obtain ⟨rfl, rfl, rfl⟩ := h
      obtain ⟨t, rfl, ht, hnm⟩ := (takeName_ok _ _ _ _).1 h1
      simp only [List.nil_append] at hnm
      subst hnm
      obtain ⟨ws, e, he, rfl, g2, g3, g4⟩ := (blankValue_ok _ _ _).1 h2
      refine ⟨nm ++ 58 :: (ws ++ (v' ++ e)), by simp, ws, e, rfl, ?_, ht, g2, g3, g4, he⟩
      rintro rfl
      obtain ⟨b, r, hb, hbt⟩ := hb
      simp at ht hb
      rw [← hb.1] at hbt; revert hbt; decide
  · rintro ⟨l, rfl, ws, e, rfl, g1, g2, g3, g4, g5, g6⟩
    have h1 : takeName [] (n ++ 58 :: (ws ++ (v ++ e)) ++ rest) = .ok (ws ++ (v ++ (e ++ rest))) n :=
      (takeName_ok _ _ _ _).2 ⟨n, by simp, g2, by simp⟩
    have h2 : takeValue [] (skipBlank (ws ++ (v ++ (e ++ rest)))) = .ok rest v :=
      (blankValue_ok _ _ _).2 ⟨ws, e, g6, rfl, g3, g4, g5⟩
    simp only [h1, PRes.andThen, h2]

theorem fieldLine_first {l n v : Bytes} (h : FieldLine l n v) : ∃ b r, l = b :: r ∧ isTokenByte b ∧ b ≠ 13 ∧ b ≠ 10 := by
  obtain ⟨ws, e, rfl, h1, h2, _⟩ := h
  cases n with
  | nil => exact absurd rfl h1
  | cons b n =>
    have hb := (isTokenByte_iff b).2 (h2 b List.mem_cons_self)
    refine ⟨b, _, rfl, hb, ?_, ?_⟩ <;> (rintro rfl; revert hb; decide)

theorem sectionEnd_ok (acc : List (Bytes × Bytes)) (next : Bytes → PRes (List (Bytes × Bytes))) (bs rest : Bytes)
    (fs : List (Bytes × Bytes)) :
    sectionEnd acc next bs = .ok rest fs ↔
      (∃ e, Eol e ∧ bs = e ++ rest ∧ fs = acc) ∨
      ((∃ b r, bs = b :: r ∧ isTokenByte b = true) ∧ next bs = .ok rest fs) := by
  cases bs with
  | nil =>
    simp only [sectionEnd]
    constructor
    · intro h; cases h
    · rintro (⟨e, rfl | rfl, h, _⟩ | ⟨⟨b, r, h, _⟩, _⟩) <;> simp at h
  | cons b r =>
    by_cases h1 : b = 13
    · subst h1
      have h3 : isTokenByte 13 = false := by decide
      simp only [sectionEnd, if_true, cr_case]
      constructor
      · rintro ⟨rfl, rfl⟩; exact .inl ⟨[13, 10], .inl rfl, rfl, rfl⟩
      · rintro (⟨e, rfl | rfl, h, h4⟩ | ⟨⟨b, r', h, hb⟩, _⟩)
        · simp at h; exact ⟨h, h4⟩
        · simp at h
        · simp at h; rw [← h.1, h3] at hb; cases hb
    · by_cases h2 : b = 10
      · subst h2
        have h3 : isTokenByte 10 = false := by decide
        simp only [sectionEnd, h1, if_true, if_false]
        constructor
        · intro h; injection h with e1 e2; exact .inl ⟨[10], .inr rfl, by simp [e1], e2.symm⟩
        · rintro (⟨e, rfl | rfl, h, h4⟩ | ⟨⟨b, r', h, hb⟩, _⟩)
          · simp at h
          · simp at h; rw [h, h4]
          · simp at h; rw [← h.1, h3] at hb; cases hb
      · have hne : ¬ ∃ e, Eol e ∧ b :: r = e ++ rest ∧ fs = acc := by
          rintro ⟨e, rfl | rfl, h, _⟩ <;> simp at h
          · exact h1 h.1
          · exact h2 h.1
        by_cases h3 : isTokenByte b = false
        · simp only [sectionEnd, h1, h2, h3, if_true, if_false]
          constructor
          · intro h; cases h
          · rintro (h | ⟨⟨b', r', h, hb⟩, _⟩)
            · exact absurd h hne
            · simp at h; rw [← h.1, h3] at hb; cases hb
        · simp only [sectionEnd, h1, h2, h3, if_false]
          constructor
          · intro h; exact .inr ⟨⟨b, r, rfl, by simpa using h3⟩, h⟩
          · rintro (h | ⟨_, h⟩)
            · exact absurd h hne
            · exact h

theorem headersGo_ok (slots : Nat) (acc : List (Bytes × Bytes)) (bs rest : Bytes) (fs : List (Bytes × Bytes)) :
    headersGo slots acc bs = .ok rest fs ↔
      ∃ l fs', bs = l ++ rest ∧ FieldSection l fs' ∧ fs'.length ≤ slots ∧ fs = acc ++ fs' := by
  induction slots generalizing acc bs with
  | zero =>
    rw [headersGo, sectionEnd_ok]
    constructor
    · rintro (⟨e, he, h1, h2⟩ | ⟨_, h⟩)
      · exact ⟨e, [], h1, .blank he, by simp, by simp [h2]⟩
      · cases h
    · rintro ⟨l, fs', h1, h2, h3, h4⟩
      cases h2 with
      | blank he => exact .inl ⟨l, he, h1, by simpa using h4⟩
      | field hl hr => simp at h3
  | succ slots ih =>
    rw [headersGo, sectionEnd_ok]
    constructor
    · rintro (⟨e, he, h1, h2⟩ | ⟨hb, h⟩)
      · exact ⟨e, [], h1, .blank he, by simp, by simp [h2]⟩
      · cases hp : parseHeader bs with
        | part => simp [hp, PRes.andThen] at h
        | err e => simp [hp, PRes.andThen] at h
        | ok rest' nv =>
          simp only [hp, PRes.andThen] at h
          obtain ⟨n, v⟩ := nv
          obtain ⟨l, hl1, hl2⟩ := (parseHeader_ok _ _ _ _ hb).1 hp
          obtain ⟨l', fs', g1, g2, g3, g4⟩ := (ih _ _).1 h
          exact ⟨l ++ l', (n, v) :: fs', by rw [hl1, g1]; simp, .field hl2 g2, by simpa using g3, by simp [g4]⟩
    · rintro ⟨l, fs', g1, g2, g3, g4⟩
      cases g2 with
      | blank he => exact .inl ⟨l, he, g1, by simpa using g4⟩
      | @field l r' n v fs hl hr =>
        have hb : ∃ b r, bs = b :: r ∧ isTokenByte b = true := by
          obtain ⟨b, r, rfl, hb, _⟩ := fieldLine_first hl
          exact ⟨b, _, g1, hb⟩
        have hp : parseHeader bs = .ok (r' ++ rest) (n, v) :=
          (parseHeader_ok _ _ _ _ hb).2 ⟨l, by rw [g1]; simp, hl⟩
        refine .inr ⟨hb, ?_⟩
        simp only [hp, PRes.andThen]
        exact (ih _ _).2 ⟨r', fs, rfl, hr, by simpa using g3, by simp [g4]⟩

/-- The header parser accepts exactly the field sections of the specification, up to `slots` fields. -/
theorem parseHeaders_ok (slots : Nat) (bs rest : Bytes) (fs : List (Bytes × Bytes)) :
    parseHeaders slots bs = .ok rest fs ↔ ∃ l, bs = l ++ rest ∧ FieldSection l fs ∧ fs.length ≤ slots := by
  unfold parseHeaders
  rw [headersGo_ok]
  constructor
  · rintro ⟨l, fs', h1, h2, h3, h4⟩; simp at h4; subst h4; exact ⟨l, h1, h2, h3⟩
  · rintro ⟨l, h1, h2, h3⟩; exact ⟨l, fs, h1, h2, h3, by simp⟩

end Tophat.Httparse
