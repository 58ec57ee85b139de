import Verif.Model.Cors
/-!
# Model of `src/server/identity.rs`

Strings are represented by their UTF-8 bytes, times by whole seconds since 1970 (before that the code panics,
src/server/identity.rs:253-260).  The crates `jsonwebtoken` and `cookie` are not tophat code: of the first, laws are assumed (`JwtLib`), of
the second the formatting and parsing that is used is modelled.
-/

namespace Tophat

namespace H
/-- src/server/identity.rs:239. -/
def cookie : Bytes := ascii "cookie"
/-- src/server/identity.rs:99, 118. -/
def setCookie : Bytes := ascii "set-cookie"
end H

/-- src/server/identity.rs:263-269 `Claims`. -/
structure Claims where
  exp : Nat
  iss : Bytes
  sub : Bytes
  deriving DecidableEq, Repr

/-- The bytes of a token: letters, digits, `-`, `_` and the dots between the parts.  Of what `encode` returns, src/server/identity.rs:137. -/
def jwtByte (b : UInt8) : Bool :=
  let n := b.toNat
  (48 ≤ n && n ≤ 57) || (65 ≤ n && n ≤ 90) || (97 ≤ n && n ≤ 122) || n == 45 || n == 95 || n == 46

/-- `jsonwebtoken` 7.2 with the default header (HS256): `encode` makes a token; `verify` checks everything but the times (signature, algorithm, form of
the claims).  A token made with a key verifies under that key and gives the claims it was made from.  Not in /repo; used at src/server/identity.rs:70-74, 137-141. -/
structure JwtLib where
  encode : (key : Bytes) → Claims → Bytes
  verify : (key token : Bytes) → Option Claims
  verify_encode : ∀ key c, verify key (encode key c) = some c
  encode_bytes : ∀ key c, ∀ b ∈ encode key c, jwtByte b = true

/-- `jsonwebtoken::decode` with `Validation::default()`: no leeway, the expiration time is checked, the issuer is not.  Not in /repo; used at src/server/identity.rs:70-75. -/
def JwtLib.decode (lib : JwtLib) (key : Bytes) (now : Nat) (token : Bytes) : Option Claims :=
  match lib.verify key token with
  | none => none
  | some c => if c.exp < now then none else some c

/-- src/server/identity.rs:32-53 `Identity`; of the expiration time, the whole seconds. -/
structure Identity where
  serverKey : Bytes
  issuer : Option Bytes
  expirationTime : Nat
  cookieName : Bytes
  cookiePath : Bytes
  cookieSecure : Bool
  cookieHttpOnly : Bool
  deriving DecidableEq, Repr

/-- src/server/identity.rs:150-158 `IdentityBuilder`. -/
structure IdentityBuilder where
  serverKey : Bytes
  issuer : Option Bytes
  expirationTime : Nat
  cookieName : Option Bytes
  cookiePath : Option Bytes
  cookieSecure : Bool
  cookieHttpOnly : Bool
  deriving DecidableEq, Repr

/-- The calls one can make on a builder.  src/server/identity.rs:160-235. -/
inductive IdentityOp
  | cookieName (name : Bytes)
  | cookiePath (path : Bytes)
  | cookieSecure (secure : Bool)
  | cookieHttpOnly (httpOnly : Bool)
  | issuer (issuer : Bytes)
  | expirationTime (seconds : Nat)
  deriving DecidableEq, Repr

namespace IdentityBuilder

/-- src/server/identity.rs:164-174 `new`, 59-61 `Identity::build`. -/
def new (serverKey : Bytes) : IdentityBuilder := ⟨serverKey, none, 60 * 60 * 24, none, none, true, true⟩

/-- One call: src/server/identity.rs:179-182 `cookie_name`, 186-189 `cookie_path`, 194-197 `cookie_secure`, 202-205
`cookie_http_only`, 210-213 `issuer`, 218-221 `expiration_time`. -/
def apply (b : IdentityBuilder) : IdentityOp → IdentityBuilder
  | .cookieName n => { b with cookieName := some n }
  | .cookiePath p => { b with cookiePath := some p }
  | .cookieSecure s => { b with cookieSecure := s }
  | .cookieHttpOnly h => { b with cookieHttpOnly := h }
  | .issuer i => { b with issuer := some i }
  | .expirationTime t => { b with expirationTime := t }

/-- src/server/identity.rs:224-234 `finish`. -/
def finish (b : IdentityBuilder) : Identity :=
  { serverKey := b.serverKey
    issuer := b.issuer
    expirationTime := b.expirationTime
    cookieName := b.cookieName.getD (ascii "jwt")
    cookiePath := b.cookiePath.getD (ascii "/")
    cookieSecure := b.cookieSecure
    cookieHttpOnly := b.cookieHttpOnly }

end IdentityBuilder

/-- `Identity::build(key)`, the calls, `finish()`.  src/server/identity.rs:59-61, 224-234. -/
def buildIdentity (key : Bytes) (ops : List IdentityOp) : Identity := (ops.foldl IdentityBuilder.apply (.new key)).finish

/-- The blanks that `str::trim` removes from a text without control characters other than tabs.  Part of `Cookie::parse`, src/server/identity.rs:240. -/
def blank (b : UInt8) : Bool := b == 32 || b == 9

/-- `str::trim`, on such a text.  Part of `Cookie::parse`, src/server/identity.rs:240. -/
def trim (s : Bytes) : Bytes := ((s.dropWhile blank).reverse.dropWhile blank).reverse

/-- `Cookie::parse` of the `cookie` crate (0.14), up to the attributes, which cannot make it fail: name and value of what comes before
the first semicolon.  Not in /repo; used at src/server/identity.rs:240. -/
def parseCookie (s : Bytes) : Option (Bytes × Bytes) :=
  let kv := s.takeWhile (· ≠ 59)
  match kv.dropWhile (· ≠ 61) with
  | [] => none
  | _ :: value =>
    let name := trim (kv.takeWhile (· ≠ 61))
    if name = [] then none else some (name, trim value)

/-- `Display` for a `Cookie` (0.14) with these attributes.  Not in /repo; used at src/server/identity.rs:93-99, 112-118. -/
def cookieText (name value path : Bytes) (maxAge : Nat) (httpOnly secure : Bool) : Bytes :=
  name ++ ascii "=" ++ value ++ (if httpOnly then ascii "; HttpOnly" else []) ++ (if secure then ascii "; Secure" else []) ++
    ascii "; Path=" ++ path ++ ascii "; Max-Age=" ++ decimal maxAge

/-- src/server/identity.rs:238-246 `get_cookie`: the loop over the `Cookie` headers. -/
def getCookie (name : Bytes) : List Bytes → Option Bytes
  | [] => none
  | v :: vs =>
    match toStr v with
    | none => none
    | some s =>
      match parseCookie s with
      | none => none
      | some (n, value) => if n = name then some value else getCookie name vs

namespace Identity

/-- src/server/identity.rs:64-82 `authorized_user`. -/
def authorizedUser (lib : JwtLib) (id : Identity) (now : Nat) (headers : HeaderMap) : Option Bytes :=
  match getCookie id.cookieName (headers.getAll H.cookie) with
  | none => none
  | some token =>
    match lib.decode id.serverKey now token with
    | none => none
    | some c => some c.sub

/-- src/server/identity.rs:121-143 `make_token`.  The addition overflows with a panic in a debug build; in a release build it wraps around
(but then the expiration time is too large for line 95, which panics). -/
def makeToken (lib : JwtLib) (id : Identity) (now : Nat) (user : Option Bytes) (expiration : Option Nat) : Run Bytes := do
  let exp ← match expiration with
    | some e => .ret e
    | none => if id.expirationTime + now < 2 ^ 64 then .ret (id.expirationTime + now) else .panic
  .ret (lib.encode id.serverKey ⟨exp, id.issuer.getD [], user.getD []⟩)

/-- The end of `set_auth_token` and of `forget`, src/server/identity.rs:93-99, 112-118. -/
def setCookie {σ : Type} (id : Identity) (token : Bytes) (maxAge : Nat) (resp : Response σ) : Run (Response σ) :=
  match headerValueFromBytes (cookieText id.cookieName token id.cookiePath maxAge id.cookieHttpOnly id.cookieSecure) with
  | some v => .ret (resp.appendHeader H.setCookie v)
  | none => .panic

/-- src/server/identity.rs:85-100 `set_auth_token`; line 95 panics if the time does not fit an `i64`. -/
def setAuthToken {σ : Type} (lib : JwtLib) (id : Identity) (now : Nat) (user : Bytes) (resp : Response σ) : Run (Response σ) := do
  let token ← id.makeToken lib now (some user) none
  if id.expirationTime < 2 ^ 63 then id.setCookie token id.expirationTime resp else .panic

/-- src/server/identity.rs:104-119 `forget`. -/
def forget {σ : Type} (lib : JwtLib) (id : Identity) (now : Nat) (resp : Response σ) : Run (Response σ) := do
  let token ← id.makeToken lib now none (some 0)
  id.setCookie token 0 resp

end Identity

end Tophat
