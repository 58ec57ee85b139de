import Verif.Spec.Connection
import Verif.Spec.Fields
import Verif.Spec.Within
import Verif.Spec.Endpoint
/-!
# Specification: several requests on one connection
-/

namespace Tophat.Spec

/-- A request as a client means it. -/
structure Sent where
  method : Bytes
  target : Bytes
  fields : List (Bytes × Bytes)
  body : Bytes
  chunked : Bool

/-- The length that the request declares. -/
def Sent.length (r : Sent) : Option Nat := if r.chunked then none else some r.body.length

/-- `b` carries the body of `r`: it is the body, or (for a chunked request) a complete chunked body, whose framing takes at most 4096 bytes, with at most 16 trailer fields. -/
def Sent.Carried (r : Sent) (b : Bytes) : Prop :=
  if r.chunked then ∃ fs, Roomy b r.body fs ∧ fs.length ≤ 16 else b = r.body

/-- What the endpoint has to do with the body of `r`: read all of it before it answers; and if it is chunked, read until its end is reported, and not again.
There may be `m` delays. -/
def Sent.TakenBy {σ : Type} (r : Sent) (a : Prog σ) (m : Nat) : Prop :=
  if r.chunked then a.ReadsOut m r.body.length else a.Drains m r.body.length

/-- The events `g` (fragments and pauses, no error) deliver one request, and nothing else. -/
def Delivers (uriOk : Bytes → Bool) (g : Script) (r : Sent) : Prop :=
  Script.ending g = none ∧ ∃ h i b, Script.bytes g = h ++ b ∧ FirstHead h h ∧ Judged uriOk h (.serve i r.method r.target r.fields r.length) ∧ r.Carried b

/-- The observed events are those of serving `r`: exactly one call, with the request, in which all of the body is read. -/
def ServesIt (r : Sent) (ev : List Event) : Prop :=
  (∃ hm, MapOf hm r.fields ∧ calls ev = [(⟨r.method, r.target, hm⟩, r.length)]) ∧ received ((bodyReads ev).map (·.2)) = r.body

end Tophat.Spec
