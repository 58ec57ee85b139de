import Verif.Model.Basic
/-!
# Asynchronous readers

`AsyncRead` / `AsyncBufRead` as poll functions, the contract a reader has to obey (`LawfulRead`,
`LawfulBufRead`), and *scripts*: finite lists of events that describe an arbitrary behaviour of an
underlying stream.  None of this is tophat code; it is the vocabulary in which the environment of
tophat's readers and encoders is quantified over.
-/

namespace Tophat

/-- Result of polling a reader.  `data bs` is `Poll::Ready(Ok(n))` with the first `n = bs.length`
bytes of the caller's buffer set to `bs`; `data []` is `Ready(Ok(0))`.  Not in /repo; src/body.rs:164, src/chunked/decoder.rs:283. -/
inductive RPoll
  | pending
  | err (e : IoErr)
  | data (bs : Bytes)
  deriving DecidableEq, Repr

/-- `futures_lite::AsyncRead`: `pollRead r k` is `poll_read` with a buffer of length `k`.  Not in /repo; src/body.rs:159, src/server/mod.rs:53. -/
class AsyncRead (ρ : Type) where
  pollRead : ρ → Nat → Run (ρ × RPoll)

/-- `futures_lite::AsyncBufRead`.  Not in /repo; src/body.rs:16, 169. -/
class AsyncBufRead (ρ : Type) extends AsyncRead ρ where
  pollFill : ρ → Run (ρ × RPoll)
  consume : ρ → Nat → ρ

export AsyncRead (pollRead)
export AsyncBufRead (pollFill consume)

/-- The contract of one `poll_read` call, relative to the bytes `rem r` the reader will still
deliver before it ends or fails, how it ends (`fin r`: `none` = end of stream, `some e` = error) and
a bound `meas r` on the number of `Pending`s still to come.  The contract of a trait, not a model; assumed of the readers of src/body.rs:41 and src/server/mod.rs:53. -/
inductive ReadOk {ρ : Type} (rem : ρ → Bytes) (fin : ρ → Option IoErr) (meas : ρ → Nat)
    (r : ρ) (k : Nat) : ρ → RPoll → Prop
  | pending {r'} : rem r' = rem r → fin r' = fin r → meas r' < meas r → ReadOk rem fin meas r k r' .pending
  | err {r' e} : rem r = [] → fin r = some e → ReadOk rem fin meas r k r' (.err e)
  | data {r' bs} : bs.length ≤ k → rem r = bs ++ rem r' → fin r' = fin r → meas r' ≤ meas r →
      (0 < k → bs = [] → rem r = [] ∧ fin r = none) → ReadOk rem fin meas r k r' (.data bs)

/-- The contract of one `poll_fill_buf` call; `consume` then drops what the caller used.  The contract of a trait, not a model; assumed of the readers of src/body.rs:41. -/
inductive FillOk {ρ : Type} (rem : ρ → Bytes) (fin : ρ → Option IoErr) (meas : ρ → Nat)
    (consume : ρ → Nat → ρ) (r : ρ) : ρ → RPoll → Prop
  | pending {r'} : rem r' = rem r → fin r' = fin r → meas r' < meas r →
      FillOk rem fin meas consume r r' .pending
  | err {r' e} : rem r = [] → fin r = some e → FillOk rem fin meas consume r r' (.err e)
  | data {r' bs} : rem r' = rem r → fin r' = fin r → meas r' ≤ meas r → bs <+: rem r →
      (bs = [] → rem r = [] ∧ fin r = none) →
      (∀ n, n ≤ bs.length → rem (consume r' n) = (rem r).drop n ∧ fin (consume r' n) = fin r ∧
        meas (consume r' n) ≤ meas r) →
      FillOk rem fin meas consume r r' (.data bs)

/-- A reader that obeys the `AsyncRead` contract.  The contract of a trait, not a model; assumed of the `RW` of src/server/mod.rs:53. -/
class LawfulRead (ρ : Type) [AsyncRead ρ] where
  rem : ρ → Bytes
  fin : ρ → Option IoErr
  meas : ρ → Nat
  read_ok : ∀ (r : ρ) (k : Nat), ∃ r' p, pollRead r k = .ret (r', p) ∧ ReadOk rem fin meas r k r' p

/-- A buffered reader that obeys the `AsyncBufRead` contract.  The contract of a trait, not a model; assumed of the readers of src/body.rs:41. -/
class LawfulBufRead (ρ : Type) [AsyncBufRead ρ] extends LawfulRead ρ where
  fill_ok : ∀ (r : ρ), ∃ r' p, pollFill r = .ret (r', p) ∧ FillOk rem fin meas consume r r' p

export LawfulRead (rem fin meas)

/-! ## Scripts -/

/-- One step of the behaviour of an underlying stream.  A model of the application's or the peer's behaviour, behind src/body.rs:41 and src/server/mod.rs:53. -/
inductive Ev
  | data (bs : Bytes)
  | pending
  | err (e : IoErr)
  deriving DecidableEq, Repr

/-- A stream that performs the listed events and then reports end of file forever.  An instance of the readers of src/body.rs:41 and of the `RW` of src/server/mod.rs:53. -/
abbrev Script := List Ev

namespace Script

/-- `poll_read` with a buffer of length `k`: at most `k` bytes of the current segment.  See `Script`.  Called through src/body.rs:165, src/chunked/decoder.rs:105, 283. -/
def read : Script → Nat → Script × RPoll
  | [], _ => ([], .data [])
  | .pending :: s, _ => (s, .pending)
  | .err e :: s, _ => (s, .err e)
  | .data bs :: s, k =>
    if bs = [] then read s k
    else if bs.length ≤ k then (s, .data bs)
    else (.data (bs.drop k) :: s, .data (bs.take k))

/-- `poll_fill_buf`: the whole current segment, not consumed.  See `Script`.  Called through src/body.rs:172. -/
def fill : Script → Script × RPoll
  | [] => ([], .data [])
  | .pending :: s => (s, .pending)
  | .err e :: s => (s, .err e)
  | .data bs :: s => if bs = [] then fill s else (.data bs :: s, .data bs)

/-- `consume(n)` after a successful `fill`.  See `Script`.  Called through src/body.rs:176. -/
def drop : Script → Nat → Script
  | .data bs :: s, n => .data (bs.drop n) :: s
  | s, _ => s

/-- The bytes a script delivers before it ends or fails.  Describes a `Script`, an instance of the readers of src/body.rs:41. -/
def bytes : Script → Bytes
  | [] => []
  | .pending :: s => bytes s
  | .err _ :: _ => []
  | .data bs :: s => bs ++ bytes s

/-- How a script ends.  Describes a `Script`, an instance of the readers of src/body.rs:41. -/
def ending : Script → Option IoErr
  | [] => none
  | .pending :: s => ending s
  | .err e :: _ => some e
  | .data _ :: s => ending s

/-- Number of `Pending`s before it ends or fails.  Describes a `Script`, an instance of the readers of src/body.rs:41. -/
def pendings : Script → Nat
  | [] => 0
  | .pending :: s => pendings s + 1
  | .err _ :: _ => 0
  | .data _ :: s => pendings s

end Script

/-- An instance of the readers of src/body.rs:41. -/
instance : AsyncBufRead Script where
  pollRead s k := .ret (s.read k)
  pollFill s := .ret s.fill
  consume s n := s.drop n

theorem Script.read_spec (s : Script) (k : Nat) :
    ReadOk Script.bytes Script.ending Script.pendings s k (s.read k).1 (s.read k).2 := by
  induction s with
  | nil => exact .data (by simp) (by simp [read, bytes]) rfl (Nat.le_refl _) (by simp [bytes, ending])
  | cons e s ih =>
    cases e with
    | pending => exact .pending (by simp [read, bytes]) (by simp [read, ending]) (by simp [read, pendings])
    | err e => exact .err (by simp [bytes]) (by simp [ending])
    | data bs =>
      by_cases hb : bs = []
      · subst hb
        have h1 : Script.bytes (.data [] :: s) = Script.bytes s := by simp [bytes]
        have h2 : Script.ending (.data [] :: s) = Script.ending s := by simp [ending]
        have h3 : Script.pendings (.data [] :: s) = Script.pendings s := by simp [pendings]
        have h4 : Script.read (.data [] :: s) k = Script.read s k := by simp [read]
        rw [h4]
        cases hp : (Script.read s k).2 with
        | pending => rw [hp] at ih; cases ih with | pending a b c => exact .pending (by rw [a, h1]) (by rw [b, h2]) (by omega)
        | err e => rw [hp] at ih; cases ih with | err a b => exact .err (by rw [h1, a]) (by rw [h2, b])
        | data bs =>
          rw [hp] at ih
          cases ih with
          | data a b c d e => exact .data a (by rw [h1, b]) (by rw [c, h2]) (by omega) (by rw [h1, h2]; exact e)
      · by_cases hl : bs.length ≤ k
        · simp only [read, hb, hl, if_true, if_false]
          exact .data hl (by simp [bytes]) (by simp [ending]) (by simp [pendings]) (by simp [hb])
        · simp only [read, hb, hl, if_false]
          refine .data (by simp; omega) (by simp [bytes, ← List.append_assoc]) (by simp [ending]) (by simp [pendings]) ?_
          intro hk h
          exfalso
          simp [hb] at h; omega

theorem Script.fill_spec (s : Script) :
    FillOk Script.bytes Script.ending Script.pendings Script.drop s s.fill.1 s.fill.2 := by
  induction s with
  | nil => exact .data rfl rfl (Nat.le_refl _) (by simp) (by simp [bytes, ending]) (by simp [fill, drop, bytes, ending])
  | cons e s ih =>
    cases e with
    | pending => exact .pending (by simp [fill, bytes]) (by simp [fill, ending]) (by simp [fill, pendings])
    | err e => exact .err (by simp [bytes]) (by simp [ending])
    | data bs =>
      by_cases hb : bs = []
      · subst hb
        have h1 : Script.bytes (.data [] :: s) = Script.bytes s := by simp [bytes]
        have h2 : Script.ending (.data [] :: s) = Script.ending s := by simp [ending]
        have h3 : Script.pendings (.data [] :: s) = Script.pendings s := by simp [pendings]
        have h4 : Script.fill (.data [] :: s) = Script.fill s := by simp [fill]
        rw [h4]
        cases hp : (Script.fill s).2 with
        | pending => rw [hp] at ih; cases ih with | pending a b c => exact .pending (by rw [a, h1]) (by rw [b, h2]) (by omega)
        | err e => rw [hp] at ih; cases ih with | err a b => exact .err (by rw [h1, a]) (by rw [h2, b])
        | data bs =>
          rw [hp] at ih
          cases ih with
          | data a b c d e f => exact .data (by rw [a, h1]) (by rw [b, h2]) (by omega) (by rw [h1]; exact d) (by rw [h1, h2]; exact e) (by rw [h1, h2, h3]; exact f)
      · simp only [fill, hb, if_false]
        refine .data rfl rfl (Nat.le_refl _) (by simp [bytes]) (by simp [hb]) ?_
        intro n hn
        simp [drop, bytes, ending, pendings, List.drop_append_of_le_length hn]

/-- Not a model but a proof: scripts obey the contract that is assumed of the readers of src/body.rs:41. -/
instance : LawfulBufRead Script where
  rem := Script.bytes
  fin := Script.ending
  meas := Script.pendings
  read_ok s k := ⟨_, _, rfl, Script.read_spec s k⟩
  fill_ok s := ⟨_, _, rfl, Script.fill_spec s⟩

end Tophat
