import Verif.Spec.Chunked
/-!
# Specification: what a received chunked body means

RFC 7230 section 4.1 as read by a lenient recipient: white space and extensions after the chunk size
are skipped, lower and upper case digits are accepted, a line end in the trailer section may be a
bare LF.  Independent of the model of the decoder.
-/

namespace Tophat.Spec

/-- A line with a chunk size: hexadecimal digits (at most 16 of them), optional white space, optional
extension starting with a semicolon, CRLF. -/
def SizeLine (l : Bytes) (n : Nat) : Prop :=
  ∃ h ws ext, l = h ++ (ws ++ (ext ++ [13, 10])) ∧ hexNum h = some n ∧ h.length ≤ 16 ∧
    (∀ b ∈ ws, b = 32 ∨ b = 9) ∧ (ext = [] ∨ ∃ t, ext = 59 :: t ∧ (13 : UInt8) ∉ t)

/-- Bytes of an RFC 7230 `token`. -/
def tokenByte (b : UInt8) : Prop :=
  (48 ≤ b.toNat ∧ b.toNat ≤ 57) ∨ (65 ≤ b.toNat ∧ b.toNat ≤ 90) ∨ (97 ≤ b.toNat ∧ b.toNat ≤ 122) ∨
  b ∈ [33, 35, 36, 37, 38, 39, 42, 43, 45, 46, 94, 95, 96, 124, 126]

/-- Bytes of a field value: tab, blank, visible ASCII, and the upper half. -/
def valueByte (b : UInt8) : Prop := b.toNat = 9 ∨ (32 ≤ b.toNat ∧ b.toNat ≠ 127)

/-- A line end: CRLF, or a bare LF. -/
def Eol (e : Bytes) : Prop := e = [13, 10] ∨ e = [10]

/-- `name: value` with its line end. -/
def FieldLine (l name value : Bytes) : Prop :=
  ∃ ws e, l = name ++ 58 :: (ws ++ (value ++ e)) ∧ name ≠ [] ∧ (∀ b ∈ name, tokenByte b) ∧
    (∀ b ∈ ws, b = 32 ∨ b = 9) ∧ (∀ b ∈ value, valueByte b) ∧
    (∀ b, value.head? = some b → b ≠ 32 ∧ b ≠ 9) ∧ Eol e

/-- Field lines up to and including the blank line, with the fields they contain. -/
inductive FieldSection : Bytes → List (Bytes × Bytes) → Prop
  | blank {e} : Eol e → FieldSection e []
  | field {l r n v fs} : FieldLine l n v → FieldSection r fs → FieldSection (l ++ r) ((n, v) :: fs)

/-- A sequence of complete non-empty chunks with the data they carry. -/
inductive Frames : Bytes → Bytes → Prop
  | nil : Frames [] []
  | cons {l d w p} : SizeLine l d.length → d ≠ [] → Frames w p →
      Frames (l ++ (d ++ (13 :: 10 :: w))) (d ++ p)

/-- `Carries s d`: the chunks at the beginning of the byte stream `s` (the last one possibly not
complete yet) carry the bytes `d`, or more than these. -/
def Carries (s d : Bytes) : Prop :=
  ∃ w p, Frames w p ∧
    ((w <+: s ∧ d = p) ∨
     ∃ l n x, SizeLine l n ∧ x.length ≤ n ∧ w ++ (l ++ x) <+: s ∧ d = p ++ x)

/-- `Body s p fs`: the byte string `s` is a complete chunked body: chunks carrying `p`, the last chunk
with size 0, a trailer section with the fields `fs`. -/
def Body (s p : Bytes) (fs : List (Bytes × Bytes)) : Prop :=
  ∃ w l t, s = w ++ (l ++ t) ∧ Frames w p ∧ SizeLine l 0 ∧ FieldSection t fs

end Tophat.Spec

namespace Tophat.Spec

/-- No continuation of `s` begins with a size line. -/
def NoSizeLine (s : Bytes) : Prop := ∀ y l n, SizeLine l n → ¬ l <+: s ++ y

/-- No continuation of `s` begins with a trailer section of at most 16 fields. -/
def NoTrailer (s : Bytes) : Prop := ∀ y t fs, FieldSection t fs → fs.length ≤ 16 → ¬ t <+: s ++ y

/-- `Malformed s p`: the chunked body in the byte stream `s` is broken right behind the data `p`: by
something that is not a size line, by chunk data that is not followed by CRLF, or by something that
is not a trailer section (of at most 16 fields). -/
inductive Malformed : Bytes → Bytes → Prop
  | size {w p r} : Frames w p → NoSizeLine r → Malformed (w ++ r) p
  | noCrlf {w p l d r} : Frames w p → SizeLine l d.length → d ≠ [] → 2 ≤ r.length → r.take 2 ≠ [13, 10] →
      Malformed (w ++ (l ++ (d ++ r))) (p ++ d)
  | trailer {w p l r} : Frames w p → SizeLine l 0 → NoTrailer r → Malformed (w ++ (l ++ r)) p

end Tophat.Spec
