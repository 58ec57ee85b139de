import Verif.Spec.Request
import Verif.Spec.Reads
import Verif.Spec.Head
import Verif.Spec.Stall
import Verif.Model.Accept
/-!
# Specification: vocabulary for what is observed on a connection
-/

namespace Tophat

/-- The transport takes what is written, sooner or later: no errors, and no write of zero bytes. -/
def Writer.Reliable (w : Writer) : Prop := ∀ e ∈ w.script, e ≠ .accept 0 ∧ ∀ x, e ≠ .err x

/-- There is no timeout, or the timer does not fire. -/
def NoTimeout {ρ : Type} (opts : ServerOpts) (c : Conn ρ) : Prop := opts.timeout = false ∨ ∀ t ∈ c.clock, t = false

/-- The same connection, but where the peer would close it, the peer is silent for `N` polls first (`Stall`). -/
def Conn.silent {ρ : Type} (c : Conn ρ) (N : Nat) : Conn (Stall ρ) := ⟨.talk c.rd N, c.wr, c.clock⟩

/-- The requests handed to the endpoint. -/
def calls : List Event → List (ReqHead × Option Nat)
  | [] => []
  | .call h len :: ev => (h, len) :: calls ev
  | _ :: ev => calls ev

/-- The bytes the transport accepted. -/
def written : List Event → Bytes
  | [] => []
  | .wrote bs :: ev => bs ++ written ev
  | _ :: ev => written ev

/-- The reads of the body by the endpoint: buffer size and answer. -/
def bodyReads : List Event → List (Nat × RPoll)
  | [] => []
  | .got k p :: ev => (k, p) :: bodyReads ev
  | _ :: ev => bodyReads ev

/-- The reads up to and including the first error. -/
def untilErr : List (Nat × RPoll) → List (Nat × RPoll)
  | [] => []
  | (k, .err e) :: _ => [(k, .err e)]
  | x :: l => x :: untilErr l

/-- The events up to and including the first call of the endpoint. -/
def upToCall : List Event → List Event
  | [] => []
  | .call h len :: _ => [.call h len]
  | e :: ev => e :: upToCall ev

/-- The interim response a client asks for with `Expect: 100-continue`. -/
def Spec.continueResponse : Bytes := ascii "HTTP/1.1 100 Continue\r\n\r\n"

/-- The interim response as an event, if there is to be one. -/
def Spec.interim (b : Bool) : List Event := if b then [.wrote Spec.continueResponse] else []

/-- The empty error response with the given status, sent at time `now`. -/
def Spec.errorResponse (status : StatusCode) (now : Bytes) : Bytes := Spec.responseHead .http11 status [] (some 0) now

end Tophat
