import Verif.Model.ChunkedDecoder
import Verif.Spec.ChunkedBody
/-!
# Memory for chunked bodies
-/

namespace Tophat.Spec

/-- How many bytes of memory a chunked body that is being read holds between two reads. -/
def held {ρ : Type} (d : ChunkedDecoder ρ) : Nat := d.buffer.data.length

/-- `Unfinished s w`: the bytes `w` are in the stream `s` where a size line or the trailer section has to be, and this size line or trailer section is longer than `w`: no
part at the beginning of `w` is one. -/
inductive Unfinished : Bytes → Bytes → Prop
  | size {c p w r} : Frames c p → (∀ l n, SizeLine l n → ¬ l <+: w) → Unfinished (c ++ (w ++ r)) w
  | trailer {c p l w r} : Frames c p → SizeLine l 0 → (∀ t fs, FieldSection t fs → fs.length ≤ 16 → ¬ t <+: w) → Unfinished (c ++ (l ++ (w ++ r))) w

/-- A complete chunked body in which no size line and no trailer section is longer than `f`; the chunks may be as long as they like, and there may be any number of them. -/
inductive ShortLines (f : Nat) : Bytes → Prop
  | last {l t fs} : SizeLine l 0 → l.length ≤ f → FieldSection t fs → fs.length ≤ 16 → t.length ≤ f → ShortLines f (l ++ t)
  | chunk {l d s} : SizeLine l d.length → d ≠ [] → l.length ≤ f → ShortLines f s → ShortLines f (l ++ (d ++ (13 :: 10 :: s)))

end Tophat.Spec
