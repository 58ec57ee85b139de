import Verif.Model.Reader
/-! # Specification: what is left of a connection after reads -/

namespace Tophat

/-- `r'` is `r` after some reads. -/
inductive Reach {ρ : Type} [AsyncRead ρ] : ρ → ρ → Prop
  | refl {r : ρ} : Reach r r
  | step {r r1 r' : ρ} {k : Nat} {p : RPoll} : pollRead r k = .ret (r1, p) → Reach r1 r' → Reach r r'

/-- The number of bytes of a script, those after an error included. -/
def Script.total : Script → Nat
  | [] => 0
  | .data bs :: s => bs.length + Script.total s
  | _ :: s => Script.total s

end Tophat
