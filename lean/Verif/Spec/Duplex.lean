import Verif.Model.Duplex
import Verif.Spec.Endpoint
/-!
# Specification: an exchange over pipes of finite capacity
-/

namespace Tophat

/-- The endpoint, which is still going to be given the bytes `left` of the request's body, takes all of them, in whatever pieces they come, and then answers with a response that fulfils `P`, without giving up.
(It may, but need not, read until it sees the end.) -/
def Prog.Collects {σ : Type} (P : InnerResponse σ → Prop) : Prog σ → Bytes → Prop
  | .read k next, left => 0 < k ∧ ∀ bs rest, left = bs ++ rest → bs.length ≤ k → (bs = [] → rest = []) → (next (.data bs)).Collects P rest
  | .send resp _ _, left => left = [] ∧ P resp
  | .sendFor _ _ _ _ _, _ => False
  | .glitch _, _ => False

/-- Each of the two is polled again and again. -/
def Fair (sched : Nat → Who) : Prop := ∀ who n, ∃ m, n ≤ m ∧ sched m = who

/-- The exchange is over: the server has sent its response, and the client, which has sent its request, has all of it, which is `msg`. -/
def Duplex.Over {α β : Type} (s : Duplex α β) (msg : Bytes) : Prop := (∃ io, s.srv = .done io) ∧ s.cli = .listening msg ∧ s.down = []

end Tophat
