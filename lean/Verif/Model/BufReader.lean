import Verif.Model.Reader
/-!
# Readers of futures-lite and of `src/util.rs`

`BufReader` and `Take` are not tophat code (futures-lite 1.11); `Cursor` and `Empty` are thin
wrappers of `src/util.rs` around the standard library.  For each of them the contract of
`Verif.Model.Reader` is proved from the contract of the reader inside.
-/

namespace Tophat

/-- `futures_lite::io::BufReader::new(inner)`; `buf` is the part of its buffer that has been read
from `inner` and not been consumed yet.  Not in /repo; used at src/server/decode.rs:39, 141, src/client/decode.rs:26, 102. -/
structure BufRd (ρ : Type) where
  inner : ρ
  buf : Bytes
  deriving DecidableEq, Repr

/-- Capacity of the buffer of `BufReader::new`.  Not in /repo; matters at src/server/decode.rs:39, 141. -/
def bufRdCap : Nat := 8192

namespace BufRd

/-- `BufReader::new`.  src/server/decode.rs:39, 141, src/client/decode.rs:26, 102. -/
def new {ρ : Type} (inner : ρ) : BufRd ρ := ⟨inner, []⟩

variable {ρ : Type} [AsyncRead ρ]

/-- The result of a read, together with the reader.  Not in /repo; part of `BufReader`, used at src/server/decode.rs:39, 141. -/
def filled (inner : ρ) : RPoll → BufRd ρ × RPoll
  | .data bs => (⟨inner, bs⟩, .data bs)
  | p => (⟨inner, []⟩, p)

/-- `BufReader::poll_fill_buf`.  Not in /repo; called by `read_until` at src/server/decode.rs:47 and through src/body.rs:172. -/
def fill (r : BufRd ρ) : Run (BufRd ρ × RPoll) :=
  if r.buf = [] then do
    let (inner, p) ← pollRead r.inner bufRdCap
    .ret (filled inner p)
  else .ret (r, .data r.buf)

/-- `BufReader::consume`.  Not in /repo; called by `read_until` at src/server/decode.rs:47 and through src/body.rs:176. -/
def drop (r : BufRd ρ) (n : Nat) : BufRd ρ := { r with buf := r.buf.drop n }

/-- The copying part of `poll_read`, after `poll_fill_buf`.  Not in /repo; used at src/server/decode.rs:39, 141. -/
def copyOut (k : Nat) : BufRd ρ × RPoll → BufRd ρ × RPoll
  | (r, .data bs) => (r.drop k, .data (bs.take k))
  | x => x

/-- `BufReader::poll_read`: large reads bypass the empty buffer.  Not in /repo; called through src/body.rs:165 and at src/chunked/decoder.rs:105, 283. -/
def read (r : BufRd ρ) (k : Nat) : Run (BufRd ρ × RPoll) :=
  if r.buf = [] ∧ k ≥ bufRdCap then do
    let (inner, p) ← pollRead r.inner k
    .ret (⟨inner, []⟩, p)
  else do
    let x ← r.fill
    .ret (copyOut k x)

end BufRd

/-- `BufReader` at src/server/decode.rs:39, 141. -/
instance {ρ : Type} [AsyncRead ρ] : AsyncBufRead (BufRd ρ) where
  pollRead r k := r.read k
  pollFill r := r.fill
  consume r n := r.drop n

/-- `futures_lite::io::Take`.  Not in /repo; used at src/server/decode.rs:145, src/client/decode.rs:118. -/
structure Take (ρ : Type) where
  inner : ρ
  limit : Nat
  deriving DecidableEq, Repr

namespace Take

variable {ρ : Type} [AsyncBufRead ρ]

/-- Accounts for the bytes read.  Not in /repo; used at src/server/decode.rs:145, src/client/decode.rs:118. -/
def counted (limit : Nat) (inner : ρ) : RPoll → Take ρ × RPoll
  | .data bs => (⟨inner, limit - bs.length⟩, .data bs)
  | p => (⟨inner, limit⟩, p)

/-- `Take::poll_read`: a reader that has reached its limit is not polled.  Not in /repo; used at src/server/decode.rs:145, src/client/decode.rs:118. -/
def read (t : Take ρ) (k : Nat) : Run (Take ρ × RPoll) :=
  if t.limit = 0 then .ret (t, .data [])
  else do
    let (inner, p) ← pollRead t.inner (min k t.limit)
    .ret (counted t.limit inner p)

/-- Cuts the filled buffer at the limit.  Not in /repo; used at src/server/decode.rs:145, src/client/decode.rs:118. -/
def cut (limit : Nat) (inner : ρ) : RPoll → Take ρ × RPoll
  | .data bs => (⟨inner, limit⟩, .data (bs.take limit))
  | p => (⟨inner, limit⟩, p)

/-- `Take::poll_fill_buf`.  Not in /repo; used at src/server/decode.rs:145, src/client/decode.rs:118. -/
def fill (t : Take ρ) : Run (Take ρ × RPoll) :=
  if t.limit = 0 then .ret (t, .data [])
  else do
    let (inner, p) ← pollFill t.inner
    .ret (cut t.limit inner p)

/-- `Take::consume`.  Consuming nothing is taken to leave the reader inside as it is.  Not in /repo; used at src/server/decode.rs:145, src/client/decode.rs:118. -/
def drop (t : Take ρ) (n : Nat) : Take ρ :=
  if min n t.limit = 0 then t else ⟨consume t.inner (min n t.limit), t.limit - min n t.limit⟩

end Take

/-- `Take` at src/server/decode.rs:145, src/client/decode.rs:118. -/
instance {ρ : Type} [AsyncBufRead ρ] : AsyncBufRead (Take ρ) where
  pollRead t k := t.read k
  pollFill t := t.fill
  consume t n := t.drop n

/-- src/util.rs:6-55 `Cursor` over a `Vec<u8>`, as far as it is used for reading: the bytes behind the
position.  src/util.rs:57-87 `Empty` is the cursor over no bytes: both answer every read with
`Ready(Ok(0))`. -/
structure Cursor where
  left : Bytes
  deriving DecidableEq, Repr

/-- src/util.rs:23-55. -/
instance : AsyncBufRead Cursor where
  pollRead c k := .ret (⟨c.left.drop k⟩, .data (c.left.take k))
  pollFill c := .ret (c, .data c.left)
  consume c n := ⟨c.left.drop n⟩

/-! ## The contracts -/

/-- Not a model but a proof: `BufReader` obeys the contract of `AsyncBufRead`, used at src/server/decode.rs:39, 141. -/
instance {ρ : Type} [AsyncRead ρ] [LawfulRead ρ] : LawfulBufRead (BufRd ρ) where
  rem r := r.buf ++ rem r.inner
  fin r := fin r.inner
  meas r := meas r.inner
  read_ok r k := by
    simp only [pollRead, BufRd.read]
    by_cases hb : r.buf = []
    · by_cases hk : k ≥ bufRdCap
      · rw [if_pos ⟨hb, hk⟩]
        obtain ⟨r', p, hp, ho⟩ := LawfulRead.read_ok r.inner k
        refine ⟨⟨r', []⟩, p, by rw [hp]; rfl, ?_⟩
        cases ho with
        | pending a b c => exact .pending (by simp [hb, a]) b c
        | err a b => exact .err (by simp [hb, a]) b
        | data a b c d e => exact .data a (by simpa [hb] using b) c d (by simpa [hb] using e)
      · rw [if_neg (by simp [hk])]
        simp only [BufRd.fill, if_pos hb]
        obtain ⟨r', p, hp, ho⟩ := LawfulRead.read_ok r.inner bufRdCap
        refine ⟨(BufRd.copyOut k (BufRd.filled r' p)).1, (BufRd.copyOut k (BufRd.filled r' p)).2, by rw [hp]; rfl, ?_⟩
        cases ho with
        | pending a b c => exact .pending (by simp [hb, a, BufRd.filled, BufRd.copyOut]) b c
        | err a b => exact .err (by simp [hb, a]) b
        | data a b c d e =>
          rename_i bs
          refine .data (by simp; omega) ?_ c d ?_
          · simp [hb, b, BufRd.filled, BufRd.copyOut, BufRd.drop, ← List.append_assoc]
          · intro h0 h1
            have : bs = [] := by
              have h2 := congrArg List.length h1
              simp at h2
              rcases h2 with h2 | h2
              · omega
              · exact h2
            have := e (by decide) this
            simpa [hb] using this
    · rw [if_neg (by simp [hb])]
      simp only [BufRd.fill, if_neg hb, Run.ret_bind]
      refine ⟨r.drop k, .data (r.buf.take k), rfl, ?_⟩
      refine .data (by simp; omega) (by simp [BufRd.drop, ← List.append_assoc]) rfl (Nat.le_refl _) ?_
      intro h0 h1
      exfalso
      have h2 := congrArg List.length h1
      simp at h2
      rcases h2 with h2 | h2
      · omega
      · exact hb h2
  fill_ok r := by
    simp only [pollFill, BufRd.fill]
    by_cases hb : r.buf = []
    · rw [if_pos hb]
      obtain ⟨r', p, hp, ho⟩ := LawfulRead.read_ok r.inner bufRdCap
      refine ⟨(BufRd.filled r' p).1, (BufRd.filled r' p).2, by rw [hp]; rfl, ?_⟩
      cases ho with
      | pending a b c => exact .pending (by simp [hb, a, BufRd.filled]) b c
      | err a b => exact .err (by simp [hb, a]) b
      | data a b c d e =>
        rename_i bs
        refine .data (by simp [BufRd.filled, hb, b]) c d (by simp [hb, b]) ?_ ?_
        · intro h1
          have := e (by decide) h1
          simpa [hb] using this
        · intro n hn
          refine ⟨?_, c, d⟩
          simp [BufRd.filled, consume, BufRd.drop, hb, b, List.drop_append_of_le_length hn]
    · rw [if_neg hb]
      refine ⟨r, .data r.buf, rfl, .data rfl rfl (Nat.le_refl _) (by simp) (fun h => absurd h hb) ?_⟩
      intro n hn
      exact ⟨by simp [consume, BufRd.drop, List.drop_append_of_le_length hn], rfl, Nat.le_refl _⟩

/-- Not a model but a proof: `Take` obeys the contract, used at src/server/decode.rs:145, src/client/decode.rs:118. -/
instance {ρ : Type} [AsyncBufRead ρ] [LawfulBufRead ρ] : LawfulBufRead (Take ρ) where
  rem t := (rem t.inner).take t.limit
  fin t := if t.limit ≤ (rem t.inner).length then none else fin t.inner
  meas t := meas t.inner
  read_ok t k := by
    simp only [pollRead, Take.read]
    by_cases hl : t.limit = 0
    · rw [if_pos hl]
      exact ⟨t, .data [], rfl, .data (by simp) (by simp [hl]) rfl (Nat.le_refl _) (fun _ _ => by simp [hl])⟩
    · rw [if_neg hl]
      obtain ⟨r', p, hp, ho⟩ := LawfulRead.read_ok t.inner (min k t.limit)
      refine ⟨(Take.counted t.limit r' p).1, (Take.counted t.limit r' p).2, by rw [hp]; rfl, ?_⟩
      cases ho with
      | pending a b c => exact .pending (by simp [Take.counted, a]) (by simp [Take.counted, a, b]) c
      | err a b => exact .err (by simp [a]) (by simp [a, b, hl])
      | data a b c d e =>
        rename_i bs
        have hbl : bs.length ≤ t.limit := by omega
        refine .data (by omega) ?_ ?_ d ?_
        · simp [Take.counted, b, List.take_append, List.take_of_length_le hbl]
        · simp only [Take.counted, b, List.length_append, c]
          have : (t.limit - bs.length ≤ (rem r').length) ↔ (t.limit ≤ bs.length + (rem r').length) := by omega
          simp only [this]
        · intro h0 h1
          have := e (by omega) h1
          simp [this.1, this.2]
  fill_ok t := by
    simp only [pollFill, Take.fill]
    by_cases hl : t.limit = 0
    · rw [if_pos hl]
      refine ⟨t, .data [], rfl, .data rfl rfl (Nat.le_refl _) (by simp) (fun _ => by simp [hl]) ?_⟩
      intro n hn
      have hn0 : n = 0 := by simpa using hn
      subst hn0
      simp [consume, Take.drop]
    · rw [if_neg hl]
      obtain ⟨r', p, hp, ho⟩ := LawfulBufRead.fill_ok t.inner
      refine ⟨(Take.cut t.limit r' p).1, (Take.cut t.limit r' p).2, by rw [hp]; rfl, ?_⟩
      cases ho with
      | pending a b c => exact .pending (by simp [Take.cut, a]) (by simp [Take.cut, a, b]) c
      | err a b => exact .err (by simp [a]) (by simp [a, b, hl])
      | data a b c d e f =>
        rename_i bs
        refine .data (by simp [Take.cut, a]) (by simp [Take.cut, a, b]) c (by obtain ⟨z, hz⟩ := d; rw [← hz]; simp [List.take_append]) ?_ ?_
        · intro h1
          have : bs = [] := by
            have h2 := congrArg List.length h1
            simp at h2
            rcases h2 with h2 | h2
            · exact absurd h2 hl
            · exact h2
          have := e this
          simp [this.1, this.2]
        · intro n hn
          have hn1 : n ≤ t.limit ∧ n ≤ bs.length := by simp at hn; omega
          obtain ⟨f1, f2, f3⟩ := f n hn1.2
          have hm : min n t.limit = n := by omega
          by_cases hn0 : n = 0
          · subst hn0
            simp [Take.cut, consume, Take.drop, a, b, c]
          have hlen : (rem t.inner).length ≥ bs.length := d.length_le
          refine ⟨?_, ?_, ?_⟩
          · simp [Take.cut, consume, Take.drop, hm, hn0, if_false, f1, List.drop_take]
          · simp only [Take.cut, consume, Take.drop, hm, hn0, if_false, f1, f2, List.length_drop]
            have : (t.limit - n ≤ (rem t.inner).length - n) ↔ (t.limit ≤ (rem t.inner).length) := by omega
            simp only [this]
          · simpa [Take.cut, consume, Take.drop, hm, hn0] using f3

/-- Not a model but a proof: src/util.rs:23-55 obeys the contract. -/
instance : LawfulBufRead Cursor where
  rem c := c.left
  fin _ := none
  meas _ := 0
  read_ok c k := ⟨_, _, rfl, .data (by simp; omega) (by simp) rfl (Nat.le_refl _) (by
    intro h0 h1
    have h2 := congrArg List.length h1
    simp at h2
    rcases h2 with h2 | h2
    · omega
    · exact ⟨h2, rfl⟩)⟩
  fill_ok c := ⟨_, _, rfl, .data rfl rfl (Nat.le_refl _) (List.prefix_refl _) (fun h => ⟨h, rfl⟩)
    (fun n _ => ⟨rfl, rfl, Nat.le_refl _⟩)⟩

end Tophat
