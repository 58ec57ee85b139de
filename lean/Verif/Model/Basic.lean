/-!
# Basic vocabulary of the model

Byte strings, results of running Rust code (value, panic, divergence), bounds-checked writes into a
`&mut [u8]`, and number formatting as done by `format!("{}")` and `format!("{:X}")`.
-/

namespace Tophat

/-- A Rust `[u8]` / `Vec<u8>`.  Used throughout, for instance `buf` at src/server/decode.rs:40. -/
abbrev Bytes := List UInt8

/-- The bytes of a Rust ASCII string literal.  For instance src/server/decode.rs:159-160. -/
def ascii (s : String) : Bytes := s.toList.map fun c => UInt8.ofNat c.toNat

/-- `b"\r\n"`.  src/chunked/encoder.rs:13-14, src/server/encode.rs:97. -/
def crlf : Bytes := [13, 10]

/-- Errors an I/O operation can return (`std::io::Error`), one constructor per origin.
* `transport`: produced by the underlying stream (socket, user supplied reader);
* `chunkSize`: `decode_init` (src/chunked/decoder.rs:457);
* `invalidData`: `decode_chunk_end` (src/chunked/decoder.rs:480);
* `trailer`: `decode_trailer` (src/chunked/decoder.rs:496,498,514);
* `tooLarge`: src/chunked/decoder.rs:275-278;
* `writeZero`: futures-lite `io::copy` when the writer accepts 0 bytes;
* `notUtf8`: futures-lite `read_to_string` on invalid UTF-8. -/
inductive IoErr
  | transport (code : Nat)
  | chunkSize
  | invalidData
  | trailer
  | tooLarge
  | writeZero
  | notUtf8
  deriving DecidableEq, Repr

/-- Outcome of running a piece of Rust code: it returns, panics, or never returns.  Models no code of its own; panics are for instance at src/client/encode.rs:94, src/chunked/decoder.rs:163. -/
inductive Run (α : Type) where
  | ret (a : α)
  | panic
  | diverge
  deriving DecidableEq, Repr

namespace Run

/-- Sequencing of Rust code: a panic or an endless loop ends it.  Models no particular lines of /repo. -/
def bind {α β : Type} : Run α → (α → Run β) → Run β
  | .ret a, f => f a
  | .panic, _ => .panic
  | .diverge, _ => .diverge

/-- Models no particular lines of /repo. -/
instance : Monad Run where
  pure := .ret
  bind := Run.bind

@[simp] theorem ret_bind {α β : Type} (a : α) (f : α → Run β) : (Run.ret a >>= f) = f a := rfl
@[simp] theorem panic_bind {α β : Type} (f : α → Run β) : (Run.panic >>= f) = .panic := rfl
@[simp] theorem diverge_bind {α β : Type} (f : α → Run β) : (Run.diverge >>= f) = .diverge := rfl
@[simp] theorem pure_eq {α : Type} (a : α) : (pure a : Run α) = .ret a := rfl

/-- Inversion of a successful `bind`. -/
theorem bind_eq_ret {α β : Type} {x : Run α} {f : α → Run β} {b : β} :
    (x >>= f) = .ret b ↔ ∃ a, x = .ret a ∧ f a = .ret b := by
  cases x <;> simp

end Run

/-- `buf[off .. off + bs.len()].copy_from_slice(bs)` (or single-byte stores): panics when out of
bounds, otherwise overwrites that part of the buffer.  src/chunked/encoder.rs:169-171, 177, 183-184, 206-208, 244-245, src/server/encode.rs:117, src/client/encode.rs:135. -/
def writeAt (buf : Bytes) (off : Nat) (bs : Bytes) : Run Bytes :=
  if off + bs.length ≤ buf.length then
    .ret (buf.take off ++ bs ++ buf.drop (off + bs.length))
  else .panic

/-- `&s[lo..hi]`: panics unless `lo ≤ hi ≤ s.len()`.  src/server/encode.rs:117, src/chunked/decoder.rs:79, 435. -/
def slice (s : Bytes) (lo hi : Nat) : Run Bytes :=
  if lo ≤ hi ∧ hi ≤ s.length then .ret ((s.take hi).drop lo) else .panic

/-- One upper-case hexadecimal digit, as printed by `{:X}`.  Used by src/chunked/encoder.rs:157. -/
def hexDigit (d : Nat) : UInt8 := if d < 10 then UInt8.ofNat (48 + d) else UInt8.ofNat (55 + d)

/-- Digits of `n` in base `base`, most significant first; `fuel` bounds the number of digits.  Formatting in `core`; used by src/chunked/encoder.rs:157 and src/server/encode.rs:82. -/
def digitsGo (base : Nat) (digit : Nat → UInt8) : Nat → Nat → Bytes
  | 0, n => [digit (n % base)]
  | fuel + 1, n =>
    if n < base then [digit n] else digitsGo base digit fuel (n / base) ++ [digit (n % base)]

/-- `format!("{:X}", n).into_bytes()`.  (`n` digits are always enough; see `hexUpper_eq`.)  src/chunked/encoder.rs:157. -/
def hexUpper (n : Nat) : Bytes := digitsGo 16 hexDigit n n

/-- `format!("{}", n).into_bytes()` for an unsigned integer (see `decimal_eq`).  src/server/encode.rs:82, src/client/encode.rs:87. -/
def decimal (n : Nat) : Bytes := digitsGo 10 (fun d => UInt8.ofNat (48 + d)) n n

theorem digitsGo_fuel {base : Nat} (hb : 2 ≤ base) (digit : Nat → UInt8) :
    ∀ (n f g : Nat), n ≤ f → n ≤ g → digitsGo base digit f n = digitsGo base digit g n := by
  intro n
  induction n using Nat.strongRecOn with
  | ind n ih =>
    intro f g hf hg
    by_cases hn : n < base
    · cases f <;> cases g <;> simp [digitsGo, hn, Nat.mod_eq_of_lt hn]
    · have hlt : n / base < n := Nat.div_lt_self (by omega) (by omega)
      cases f with
      | zero => omega
      | succ f =>
        cases g with
        | zero => omega
        | succ g =>
          simp only [digitsGo, hn, if_false]
          rw [ih (n / base) hlt f g (by omega) (by omega)]

/-- The usual recursion for hexadecimal digits. -/
theorem hexUpper_eq (n : Nat) :
    hexUpper n = if n < 16 then [hexDigit n] else hexUpper (n / 16) ++ [hexDigit (n % 16)] := by
  cases n with
  | zero => simp [hexUpper, digitsGo]
  | succ n =>
    unfold hexUpper
    rw [digitsGo]
    split
    · rfl
    · rw [digitsGo_fuel (by omega) hexDigit ((n + 1) / 16) n ((n + 1) / 16) (by omega) (by omega)]

/-- The usual recursion for decimal digits. -/
theorem decimal_eq (n : Nat) :
    decimal n = if n < 10 then [UInt8.ofNat (48 + n)] else decimal (n / 10) ++ [UInt8.ofNat (48 + n % 10)] := by
  cases n with
  | zero => simp [decimal, digitsGo]
  | succ n =>
    unfold decimal
    rw [digitsGo]
    split
    · rfl
    · rw [digitsGo_fuel (by omega) _ ((n + 1) / 10) n ((n + 1) / 10) (by omega) (by omega)]

/-- `usize::MAX + 1` on the 64-bit targets modelled.  Matters at src/server/encode.rs:159. -/
def usizeLimit : Nat := 2 ^ 64

end Tophat
