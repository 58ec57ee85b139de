import Verif.Spec.Connection
import Verif.Spec.Fields
/-!
# Specification: the course of a connection
-/

namespace Tophat.Spec

/-- `Conversation uriOk now reliable n s ev`: `ev` is what may be observed on a connection on which the peer is going to
send the bytes `s` and then close, watched for any length of time; `n` is the number of requests before.

Each request head is the first one behind the previous one (behind any of the bytes that follow the previous one: how many
of them belong to its body, or were dropped with it, is left open).  Each request is judged and then either answered with one error response (no
call of the endpoint), or handed to the endpoint by exactly one `call`; all that is observed of it comes before anything of the
next one.  `reliable` says that the transport takes all that is written; if it does not, what is written of a response may be
only the beginning of it. -/
inductive Conversation (uriOk : Bytes → Bool) (now : Nat → Bytes) (reliable : Prop) : Nat → Bytes → List Event → Prop
  /-- Nothing (more): the peer closes, the timeout fires, or we stop watching. -/
  | done {n s} : Conversation uriOk now reliable n s []
  /-- The timeout fires while the interim response is being written. -/
  | timeout {n s h x} : FirstHead s h → x ≠ [] → x <+: continueResponse → Conversation uriOk now reliable n s [.wrote x]
  /-- The transport fails while the interim response is being written. -/
  | cut {n s h s' x ev} : FirstHead s h → ¬ reliable → (x = [] ∨ ∃ y, y <+: continueResponse ∧ x = [.wrote y]) → s' <:+ s.drop h.length →
      Conversation uriOk now reliable (n + 1) s' ev → Conversation uriOk now reliable n s (x ++ ev)
  /-- The request is answered with an error response. -/
  | refused {n s h i st s' x ev} : FirstHead s h → Judged uriOk h (.refuse i st) →
      x <+: errorResponse st (now n) → (reliable → x = errorResponse st (now n)) → s' <:+ s.drop h.length →
      Conversation uriOk now reliable (n + 1) s' ev → Conversation uriOk now reliable n s (interim i ++ .wrote x :: ev)
  /-- The request is answered 501, and the connection is given up. -/
  | gaveUp {n s h x} : FirstHead s h → Judged uriOk h .giveUp →
      x <+: errorResponse 501 (now n) → (reliable → x = errorResponse 501 (now n)) → Conversation uriOk now reliable n s [.wrote x]
  /-- The request is handed to the endpoint, which may read and write (`own`) until it is done. -/
  | served {n s h i m t fs len hm own s' ev} : FirstHead s h → Judged uriOk h (.serve i m t fs len) → MapOf hm fs →
      calls own = [] → s' <:+ s.drop h.length → Conversation uriOk now reliable (n + 1) s' ev →
      Conversation uriOk now reliable n s (interim i ++ .call ⟨m, t, hm⟩ len :: (own ++ ev))

end Tophat.Spec
