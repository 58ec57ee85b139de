import Verif.Spec.Connection
/-!
# Specification: what has been flushed

A transport may keep bytes it has accepted until it is flushed (as a TLS stream or a `BufWriter` does).  What the peer of such a transport is sure to see are the bytes that had been accepted when it was
last flushed.
-/

namespace Tophat

/-- Everything that was accepted has been flushed. -/
def Writer.Flushed (w : Writer) : Prop := w.flushed = w.got.length

/-- What the peer of a transport that buffers is sure to see. -/
def Writer.seen (w : Writer) : Bytes := w.got.take w.flushed

theorem Writer.seen_flushed {w : Writer} (h : w.Flushed) : w.seen = w.got := by
  unfold Writer.seen
  rw [h, List.take_length]

end Tophat
