import Verif.Spec.RequestHead
/-!
# Specification: what the server makes of a received head

`Judged uriOk h v`: the head `h` (all bytes up to and including the first CRLF CRLF) gets the verdict `v`.
`uriOk` says which request targets the `http` crate accepts.  The reader of heads takes at most 16 header
fields.  A head may end early with a blank line made of bare LFs; what follows in `h` is then ignored.
-/

namespace Tophat.Spec

/-- What happens with a request. -/
inductive Verdict
  /-- It is answered with an empty response of that status, after an interim response or not. -/
  | refuse (interim : Bool) (status : Nat)
  /-- It is answered 501, and the connection is given up. -/
  | giveUp
  /-- The endpoint is called: method, target, fields, and the length of the body (`none`: chunked), after an interim
  response or not. -/
  | serve (interim : Bool) (method target : Bytes) (fields : List (Bytes × Bytes)) (length : Option Nat)

/-- The field is a Content-Length that is no number. -/
def BadLength (f : Bytes × Bytes) : Prop := lower f.1 = ascii "content-length" ∧ ∀ n, ¬ IsLength f.2 n

/-- The coding is one the server knows. -/
def KnownCoding (v : Bytes) : Prop := lower v = ascii "chunked" ∨ lower v = ascii "identity"

/-- The field is a Transfer-Encoding that the server does not know. -/
def BadCoding (f : Bytes × Bytes) : Prop := lower f.1 = ascii "transfer-encoding" ∧ ¬ KnownCoding f.2

/-- Neither of these. -/
def GoodField (f : Bytes × Bytes) : Prop := ¬ BadLength f ∧ ¬ BadCoding f

/-- The first Expect field is exactly `100-continue`. -/
def Expects (fs : List (Bytes × Bytes)) : Bool := (valuesOf (ascii "expect") fs).head? == some (ascii "100-continue")

/-- The length of the body according to the fields: chunked if the last Transfer-Encoding says so, otherwise the last
Content-Length, otherwise 0. -/
def BodyLength (fs : List (Bytes × Bytes)) (len : Option Nat) : Prop :=
  match (valuesOf (ascii "transfer-encoding") fs).getLast? with
  | some c => if lower c = ascii "chunked" then len = none else Plain len
  | none => Plain len
where
  /-- The length without regard to transfer codings. -/
  Plain (len : Option Nat) : Prop :=
    match (valuesOf (ascii "content-length") fs).getLast? with
    | some v => ∃ n, IsLength v n ∧ len = some n
    | none => len = some 0

/-- `h` begins with a request head. -/
def HasHead (h m t : Bytes) (v : Nat) (fs : List (Bytes × Bytes)) : Prop :=
  ∃ hd junk, h = hd ++ junk ∧ RequestHead hd m t v fs ∧ fs.length ≤ 16

/-- The verdicts. -/
inductive Judged (uriOk : Bytes → Bool) (h : Bytes) : Verdict → Prop
  | malformed : (∀ m t v fs, ¬ HasHead h m t v fs) → Judged uriOk h (.refuse false 400)
  | noMethod {t v fs} : HasHead h [] t v fs → Judged uriOk h (.refuse false 400)
  | version {m t v fs} : HasHead h m t v fs → m ≠ [] → v ≠ 1 → Judged uriOk h (.refuse false 505)
  | length {m t pre f post} : HasHead h m t 1 (pre ++ f :: post) → m ≠ [] → (∀ g ∈ pre, GoodField g) → BadLength f →
      Judged uriOk h (.refuse false 400)
  | coding {m t pre f post} : HasHead h m t 1 (pre ++ f :: post) → m ≠ [] → (∀ g ∈ pre, GoodField g) → BadCoding f →
      Judged uriOk h .giveUp
  | noHost {m t fs} : HasHead h m t 1 fs → m ≠ [] → (∀ f ∈ fs, GoodField f) → valuesOf (ascii "host") fs = [] →
      Judged uriOk h (.refuse (Expects fs) 400)
  | badTarget {m t fs} : HasHead h m t 1 fs → m ≠ [] → (∀ f ∈ fs, GoodField f) → valuesOf (ascii "host") fs ≠ [] →
      uriOk t = false → Judged uriOk h (.refuse (Expects fs) 400)
  | serve {m t fs len} : HasHead h m t 1 fs → m ≠ [] → (∀ f ∈ fs, GoodField f) → valuesOf (ascii "host") fs ≠ [] →
      uriOk t = true → BodyLength fs len → Judged uriOk h (.serve (Expects fs) m t fs len)

end Tophat.Spec
