import Verif.Model.Http
/-!
# Specification: a header map with given fields
-/

namespace Tophat.Spec

/-- `m` holds exactly the fields `fs`: under each (lower-case) name the values of the fields of that
name, compared without case, in their order; distinct names, and no name without value. -/
def MapOf (m : HeaderMap) (fs : List (Bytes × Bytes)) : Prop :=
  m.WF ∧ ∀ k, m.getAll k = (fs.filter fun f => lower f.1 == k).map (·.2)

end Tophat.Spec
