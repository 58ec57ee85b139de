import Verif.Spec.Relay
import Verif.Spec.Recipient
import Verif.Spec.Fields
/-!
# Specification: passing on a response

Used by C79.
-/

namespace Tophat.Spec

/-- Fields that a gateway may change: the framing, which belongs to one connection, and those that tophat adds where they are missing. -/
def adjusted : List Bytes := [ascii "content-length", ascii "transfer-encoding", ascii "date", ascii "content-type"]

/-- `vs` is `ws`, or, if that is empty, perhaps the one value `d`. -/
def SameOr (d : Bytes) (ws vs : List Bytes) : Prop := vs = ws ∨ (ws = [] ∧ vs = [d])

/-- The header fields of a response that is passed on: as received, apart from framing; a missing date and a missing content type may be filled in. -/
structure SameFields (now : Bytes) (received sent : List (Bytes × Bytes)) : Prop where
  others : ∀ k, k ∉ adjusted → valuesOf k sent = valuesOf k received
  date : SameOr now (valuesOf (ascii "date") received) (valuesOf (ascii "date") sent)
  contentType : SameOr (ascii "application/octet-stream") (valuesOf (ascii "content-type") received) (valuesOf (ascii "content-type") sent)

/-- The response head `h` announces a body of `k` bytes: by Content-Length, or, for a response that has no body, by nothing. -/
def Announced (method : Bytes) (code : Nat) (fs : List (Bytes × Bytes)) (k : Nat) : Prop :=
  valuesOf (ascii "transfer-encoding") fs = [] ∧
    ((∃ v, (valuesOf (ascii "content-length") fs).head? = some v ∧ IsLength v k) ∨ (valuesOf (ascii "content-length") fs = [] ∧ k = 0)) ∧ (Bodiless method code → k = 0)

/-- What is passed on, by the verdict of the client on the received head. -/
inductive PassedAs (now : Bytes) : Reply → StatusCode × HeaderMap → Option Nat → Prop
  /-- The status and the fields received, and a date. -/
  | fixed {code fs k hs} : MapOf hs (withDate fs now) → PassedAs now (.fixed code fs k) (code, hs) (some k)
  /-- The status and the fields received, and a date; no body. -/
  | bare {code fs hs} : MapOf hs (withDate fs now) → PassedAs now (.bare code fs) (code, hs) (some 0)
  /-- Status 200 and no fields. -/
  | chunked : PassedAs now .chunked (200, []) none

/-- The declared length of the response that the client returns; chunked responses have none. -/
def Reply.length : Reply → Option Nat
  | .fixed _ _ k => some k
  | .bare _ _ => some 0
  | _ => none

end Tophat.Spec
