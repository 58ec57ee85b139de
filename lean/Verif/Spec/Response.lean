import Verif.Spec.Chunked
import Verif.Spec.Head
/-!
# Specification: a whole response on the wire
-/

namespace Tophat.Spec

/-- `msg` is a complete response with the given head and body bytes: the head, then the first `n`
bytes of the body if the length `n` was declared, or a complete chunked message carrying the body if
no length was declared. -/
def IsResponse (head : Bytes) : Option Nat → Bytes → Bytes → Prop
  | some n, body, msg => msg = head ++ body.take n
  | none, body, msg => ∃ wire, msg = head ++ wire ∧ ChunkedMessage wire body

/-- `msg` is a complete response, sent at time `now`. -/
def WholeResponse (now msg : Bytes) : Prop :=
  ∃ v st hs len body, IsResponse (responseHead v st hs len now) len body msg ∧ ∀ k, len = some k → k ≤ body.length

end Tophat.Spec
