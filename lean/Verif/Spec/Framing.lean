import Verif.Spec.Recipient
/-!
# Specification: where a request ends

RFC 7230 section 3.3.3, as far as it is about requests: how any recipient (a proxy in front of the server, for example) finds out which bytes are the body of a request.  Independent of the
model of the server.
-/

namespace Tophat.Spec

/-- The parts of a text between its commas. -/
def commaParts : Bytes → List Bytes
  | [] => [[]]
  | b :: r =>
    if b = 44 then [] :: commaParts r
    else match commaParts r with
      | [] => [[b]]
      | p :: ps => (b :: p) :: ps

/-- A text without the blanks and tabs at both ends. -/
def stripped (v : Bytes) : Bytes := (trimmed (trimmed v).reverse).reverse

/-- The elements of a header that is a list: the fields of that name are one list, in which commas separate the elements, and empty elements do not count (RFC 7230 sections 3.2.2 and 7). -/
def elements (name : Bytes) (fs : List (Bytes × Bytes)) : List Bytes :=
  (((valuesOf name fs).flatMap commaParts).map stripped).filter fun e => !e.isEmpty

/-- `Framing fs len`: the header fields say that the body of the request is chunked (`none`) or has the given length.  Item 3: with Transfer-Encoding the last coding has to be chunked, and
Content-Length does not count.  Items 4 and 5: otherwise all the lengths given have to be valid, and the same.  Item 6: otherwise there is no body.  In all the other cases a server has to
refuse the request. -/
inductive Framing (fs : List (Bytes × Bytes)) : Option Nat → Prop
  | chunked {c} : (elements (ascii "transfer-encoding") fs).getLast? = some c → lower c = ascii "chunked" → Framing fs none
  | length {n} : valuesOf (ascii "transfer-encoding") fs = [] → elements (ascii "content-length") fs ≠ [] → (∀ v ∈ elements (ascii "content-length") fs, Decimal v n) → Framing fs (some n)
  | nothing : valuesOf (ascii "transfer-encoding") fs = [] → valuesOf (ascii "content-length") fs = [] → Framing fs (some 0)

/-- `Encloses len b body`: the bytes `b` are a whole body of that framing, and carry `body`. -/
inductive Encloses : Option Nat → Bytes → Bytes → Prop
  | length {body : Bytes} : Encloses (some body.length) body body
  | chunked {b body fs} : Body b body fs → Encloses none b body

/-- `s` is one whole request. -/
def OneRequest (s m t : Bytes) (fs : List (Bytes × Bytes)) (body : Bytes) : Prop :=
  ∃ h b len, s = h ++ b ∧ RequestHead h m t 1 fs ∧ Framing fs len ∧ Encloses len b body

end Tophat.Spec
