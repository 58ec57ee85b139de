import Verif.Spec.ChunkedBody
import Verif.Model.Http
/-!
# Specification: the head of a received request

RFC 7230 section 3 as read by a lenient recipient: empty lines in front of the request line are
skipped, lines may end with a bare LF.
-/

namespace Tophat.Spec

/-- `h` ends with a blank line. -/
def EndsBlank (h : Bytes) : Prop := ∃ q, h = q ++ [13, 10, 13, 10]

/-- `h` is the part of the byte stream `s` up to and including the first blank line. -/
def FirstHead (s h : Bytes) : Prop := h <+: s ∧ EndsBlank h ∧ ∀ p, p <+: h → EndsBlank p → p = h

/-- There is no blank line in `s`. -/
def NoHead (s : Bytes) : Prop := ∀ p, p <+: s → ¬ EndsBlank p

/-- Bytes of a request target. -/
def targetByte (b : UInt8) : Prop := 33 ≤ b.toNat ∧ b.toNat ≤ 126 ∧ b ∉ [34, 60, 62]

/-- Any number of empty lines. -/
inductive EmptyLines : Bytes → Prop
  | nil : EmptyLines []
  | cons {e r} : Eol e → EmptyLines r → EmptyLines (e ++ r)

/-- `h` is a request head with method `m`, target `t`, version HTTP/1.`v` and the header fields `fs`. -/
def RequestHead (h m t : Bytes) (v : Nat) (fs : List (Bytes × Bytes)) : Prop :=
  ∃ bl e sec, h = bl ++ (m ++ 32 :: (t ++ 32 :: (ascii "HTTP/1." ++ (UInt8.ofNat (48 + v) :: (e ++ sec))))) ∧
    EmptyLines bl ∧ (∀ b ∈ m, tokenByte b) ∧ (∀ b ∈ t, targetByte b) ∧ v ≤ 1 ∧ Eol e ∧ FieldSection sec fs

/-- The fields of the given name, without regard to case, in order. -/
def valuesOf (name : Bytes) (fs : List (Bytes × Bytes)) : List Bytes :=
  (fs.filter fun f => lower f.1 == name).map (·.2)

/-- The value of a decimal number. -/
def decNum (bs : Bytes) : Nat := bs.foldl (fun a c => 10 * a + (c.toNat - 48)) 0

/-- A decimal number, with an optional plus sign, representable in 64 bits. -/
def IsLength (v : Bytes) (n : Nat) : Prop :=
  ∃ ds, (v = ds ∨ v = 43 :: ds) ∧ ds ≠ [] ∧ (∀ b ∈ ds, 48 ≤ b.toNat ∧ b.toNat ≤ 57) ∧ decNum ds = n ∧ n < 2 ^ 64

end Tophat.Spec
