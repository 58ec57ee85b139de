import Verif.Spec.Endpoint
/-!
# Specification: endpoints that return an error
-/

namespace Tophat

/-- The endpoint returns the error `g` and has not sent anything, if what is left of the body are the bytes `left`, delivered in any pieces and with at most `m` delays. -/
def Prog.FailsTo {σ : Type} (g : Glitch) : Prog σ → Nat → Bytes → Prop
  | .read k next, m, left => (0 < m → (next .pending).FailsTo g (m - 1) left) ∧
      ∀ bs rest, left = bs ++ rest → bs.length ≤ k → (bs = [] → k = 0 ∨ rest = []) → (next (.data bs)).FailsTo g m rest
  | .send _ _ _, _, _ => False
  | .sendFor _ _ _ _ _, _, _ => False
  | .glitch g', _, _ => g' = g

end Tophat
