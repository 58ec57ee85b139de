import Verif.Spec.ChunkedBody
/-!
# Specification: chunk sequences whose framing fits into the decoder's 4096-byte buffer

Used only as hypotheses of the partial completeness theorems (C13, C15, C16, C57, C60, C63).
-/

namespace Tophat.Spec

/-- Buffer space a chunk takes up at most: its size line and its CRLF, plus its data unless the data
alone fills the buffer. -/
def chunkCost (l d : Bytes) : Nat := l.length + 2 + (if d.length < 4096 then d.length else 0)

/-- `Within f b w p`: `w` is a sequence of complete chunks with data `p`; with a budget of `b` bytes
every size line starts within the budget left by the chunks before it, and at least `f` bytes are
left at the end. -/
inductive Within (f : Nat) : Nat → Bytes → Bytes → Prop
  | nil {b} : f ≤ b → Within f b [] []
  | cons {b l d w p} : SizeLine l d.length → d ≠ [] → l.length ≤ b →
      Within f (b - chunkCost l d) w p → Within f b (l ++ (d ++ (13 :: 10 :: w))) (d ++ p)

/-- `Roomy s p fs`: the byte string `s` is a complete chunked body (see `Body`) with the data `p` and the
trailer fields `fs`, and its framing takes at most 4096 bytes: there may be chunks of any size, but the
size lines, the line ends, the trailer section and the chunks of less than 4096 bytes are that short
together.  Every chunked body of at most 4096 bytes is one (`roomy_of_length`), and every body with a single
chunk and a short trailer section (`roomy_one_chunk`). -/
def Roomy (s p : Bytes) (fs : List (Bytes × Bytes)) : Prop :=
  ∃ w l t, s = w ++ (l ++ t) ∧ Within (l.length + t.length) 4096 w p ∧ SizeLine l 0 ∧ FieldSection t fs

/-- `BrokenWithin b s p`: the stream `s` is malformed right behind the data `p` (see `Malformed`), and what is
needed to see that - the framing up to there, and the malformed bytes `r` - takes at most `b` bytes. -/
inductive BrokenWithin : Nat → Bytes → Bytes → Prop
  | size {b r x} : NoSizeLine r → r.length ≤ b → BrokenWithin b (r ++ x) []
  | noCrlf {b l d r x} : SizeLine l d.length → d ≠ [] → r.length = 2 → r ≠ [13, 10] → chunkCost l d ≤ b →
      BrokenWithin b (l ++ (d ++ (r ++ x))) d
  | trailer {b l r x} : SizeLine l 0 → NoTrailer r → l.length + r.length ≤ b → BrokenWithin b (l ++ (r ++ x)) []
  | cons {b l d w p} : SizeLine l d.length → d ≠ [] → chunkCost l d ≤ b → BrokenWithin (b - chunkCost l d) w p →
      BrokenWithin b (l ++ (d ++ (13 :: 10 :: w))) (d ++ p)

end Tophat.Spec
