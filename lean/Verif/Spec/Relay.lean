import Verif.Spec.Within
import Verif.Spec.Head
/-!
# Specification: passing on the body of a request

Used by C76.
-/

namespace Tophat.Spec

/-- `q` can be passed on as the body of a request, of which the declared length and the bytes `s` behind the head are given: it is the first `k` bytes of these if `k` is declared, and otherwise
data that is carried by the chunks at their beginning. -/
def PartOfBody (s : Bytes) : Option Nat → Bytes → Prop
  | some k, q => q = s.take k
  | none, q => Carries s q

/-- The bytes `s` behind the head begin with a whole body `p`: as many bytes as declared, or a chunked body whose framing fits into 4096 bytes, with at most 16 trailers. -/
def WholeBody (s : Bytes) : Option Nat → Bytes → Prop
  | some k, p => p.length = k ∧ p <+: s
  | none, p => ∃ b x fs, Roomy b p fs ∧ fs.length ≤ 16 ∧ s = b ++ x

/-- What the response is sent with, apart from its body: the length of the request, and everything that is not the endpoint's choice. -/
def relayHead (a : StatusCode × HeaderMap) (len : Option Nat) (now : Bytes) : Bytes := responseHead .http11 a.1 a.2 len now

end Tophat.Spec
