import Verif.Spec.Case
import Verif.Spec.Fields
/-!
# Specification: the fields that matter

Used by C95 and C96.
-/

namespace Tophat.Spec

/-- The names of the header fields that the server heeds. -/
def heeded : List Bytes := [ascii "host", ascii "content-length", ascii "transfer-encoding", ascii "expect"]

/-- The fields with these names, in their order; the names in lower case. -/
def heededOf (fs : List (Bytes × Bytes)) : List (Bytes × Bytes) := (fs.filter fun f => heeded.contains (lower f.1)).map fun f => (lower f.1, f.2)

/-- What is observed is the same, but for the header fields of the request, which are `fs` and `gs`. -/
def AlikeBut (fs gs : List (Bytes × Bytes)) : Event → Event → Prop
  | .call h len, .call h' len' => h.method = h'.method ∧ h.uri = h'.uri ∧ len = len' ∧ MapOf h.headers fs ∧ MapOf h'.headers gs
  | e, e' => e = e'

/-- The request asks for the connection to be closed: one of its Connection fields is `close`. -/
def AsksToClose (fs : List (Bytes × Bytes)) : Prop := ∃ v ∈ valuesOf (ascii "connection") fs, SameText v (ascii "close")

end Tophat.Spec
