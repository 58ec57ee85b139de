import Verif.Model.Basic
/-!
# Specification: RFC 7230 section 4.1, chunked transfer coding

Independent of the model of tophat's encoder and decoder.
-/

namespace Tophat.Spec

/-- Value of a `HEXDIG` (either case). -/
def hexVal (c : UInt8) : Option Nat :=
  if 48 ≤ c.toNat ∧ c.toNat ≤ 57 then some (c.toNat - 48)
  else if 65 ≤ c.toNat ∧ c.toNat ≤ 70 then some (c.toNat - 55)
  else if 97 ≤ c.toNat ∧ c.toNat ≤ 102 then some (c.toNat - 87)
  else none

/-- Number denoted by a string of hexadecimal digits, most significant first. -/
def hexNum (bs : Bytes) : Option Nat :=
  bs.foldl (fun acc c => acc.bind fun a => (hexVal c).map fun v => 16 * a + v) (some 0)

/-- `chunk-size = 1*HEXDIG` denoting `n`, without superfluous leading zeros. -/
def ChunkSize (h : Bytes) (n : Nat) : Prop := h ≠ [] ∧ hexNum h = some n ∧ (h.head? = some 48 → h = [48])

/-- `Chunks wire payload`: `wire` is a sequence of zero or more non-empty chunks
`chunk-size CRLF chunk-data CRLF` whose data, concatenated, is `payload`. -/
inductive Chunks : Bytes → Bytes → Prop
  | nil : Chunks [] []
  | cons {h d w p : Bytes} : ChunkSize h d.length → d ≠ [] → Chunks w p →
      Chunks (h ++ [13, 10] ++ d ++ [13, 10] ++ w) (d ++ p)

/-- A complete chunked message without trailers: chunks, the last chunk `0 CRLF`, final `CRLF`. -/
def ChunkedMessage (wire payload : Bytes) : Prop :=
  ∃ w, Chunks w payload ∧ wire = w ++ [48, 13, 10, 13, 10]

end Tophat.Spec
