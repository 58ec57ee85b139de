import Verif.Model.Identity
/-!
# Specification: cookies and sessions
-/

namespace Tophat

/-- What a `Cookie` header (or the part of a `Set-Cookie` header before the attributes) says about its first cookie: the text starts with
`name=value`, up to blanks around name and value, followed by nothing or a semicolon. -/
def FirstCookie (text name value : Bytes) : Prop :=
  ∃ n v rest, text = n ++ ascii "=" ++ v ++ rest ∧ (rest = [] ∨ rest.head? = some 59) ∧ 61 ∉ n ∧ 59 ∉ n ∧ 59 ∉ v ∧ trim n = name ∧ trim v = value ∧ name ≠ []

/-- A cookie name that user agents send back as it is and that can be recognised: not empty, visible characters, no `=` or `;`, no blanks around
it. -/
def CookieName (name : Bytes) : Prop := name ≠ [] ∧ toStr name = some name ∧ 61 ∉ name ∧ 59 ∉ name ∧ trim name = name

/-- Readable text. -/
def Readable (text : Bytes) : Prop := toStr text = some text

/-- The request carries the cookie in first place: of some `Cookie` header, before which there are only readable ones whose first
cookie has another name. -/
def SendsFirst (headers : HeaderMap) (name value : Bytes) : Prop :=
  ∃ before text after, headers.getAll (ascii "cookie") = before ++ text :: after ∧ Readable text ∧ FirstCookie text name value ∧
    ∀ t ∈ before, Readable t ∧ ∃ n v, FirstCookie t n v ∧ n ≠ name

/-- What happens to the responses of a server with a given identity. -/
inductive AuthCall
  | set (time : Nat) (user : Bytes)
  | forget (time : Nat)
  deriving DecidableEq, Repr

/-- The text of the cookie with a given token and maximal age: name, value and attributes. -/
def Identity.cookieWith (id : Identity) (token : Bytes) (maxAge : Nat) : Bytes :=
  id.cookieName ++ ascii "=" ++ token ++ (if id.cookieHttpOnly then ascii "; HttpOnly" else []) ++ (if id.cookieSecure then ascii "; Secure" else []) ++
    ascii "; Path=" ++ id.cookiePath ++ ascii "; Max-Age=" ++ decimal maxAge

/-- The token is made by the call: it is the value of the cookie that the call adds to some response. -/
def AuthCall.Makes (lib : JwtLib) (id : Identity) (token : Bytes) (call : AuthCall) : Prop :=
  ∃ (resp resp' : Response Script) (text : Bytes), resp.headers.WF ∧
    (match call with
      | .set time user => id.setAuthToken lib time user resp
      | .forget time => id.forget lib time resp) = .ret resp' ∧
    resp'.headers.getAll (ascii "set-cookie") = resp.headers.getAll (ascii "set-cookie") ++ [text] ∧ FirstCookie text id.cookieName token

/-- The last answer that the calls give. -/
def lastGiven {α : Type} (f : IdentityOp → Option α) (ops : List IdentityOp) : Option α := (ops.filterMap f).getLast?

end Tophat
