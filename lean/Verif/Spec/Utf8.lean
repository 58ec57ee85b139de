import Verif.Model.Basic
/-!
# Specification: UTF-8 (RFC 3629)
-/

namespace Tophat.Spec
open Tophat

/-- `n` is a Unicode scalar value. -/
def Scalar (n : Nat) : Prop := n < 0xD800 ∨ 0xE000 ≤ n ∧ n < 0x110000

/-- Its encoding, by the table of RFC 3629, section 3. -/
def encodeScalar (n : Nat) : Bytes :=
  if n < 0x80 then [UInt8.ofNat n]
  else if n < 0x800 then [UInt8.ofNat (0xC0 + n / 64), UInt8.ofNat (0x80 + n % 64)]
  else if n < 0x10000 then [UInt8.ofNat (0xE0 + n / 4096), UInt8.ofNat (0x80 + n / 64 % 64), UInt8.ofNat (0x80 + n % 64)]
  else [UInt8.ofNat (0xF0 + n / 262144), UInt8.ofNat (0x80 + n / 4096 % 64), UInt8.ofNat (0x80 + n / 64 % 64), UInt8.ofNat (0x80 + n % 64)]

/-- The UTF-8 encoding of a text. -/
def encodeText (cs : List Nat) : Bytes := cs.flatMap encodeScalar

/-- `bs` is the UTF-8 encoding of a text. -/
def IsUtf8 (bs : Bytes) : Prop := ∃ cs, (∀ c ∈ cs, Scalar c) ∧ bs = encodeText cs

end Tophat.Spec
