import Verif.Model.Router
/-!
# Model of `src/server/cors.rs`

A `HashSet` is a list without repetitions; in which order it is iterated over is a parameter.
-/

namespace Tophat

namespace H
/-- src/server/cors.rs:311. -/
def options : Bytes := ascii "OPTIONS"
/-- src/server/cors.rs:308. -/
def origin : Bytes := ascii "origin"
/-- src/server/cors.rs:321. -/
def acRequestMethod : Bytes := ascii "access-control-request-method"
/-- src/server/cors.rs:334. -/
def acRequestHeaders : Bytes := ascii "access-control-request-headers"
/-- src/server/cors.rs:362, 376. -/
def acAllowOrigin : Bytes := ascii "access-control-allow-origin"
/-- src/server/cors.rs:415. -/
def acAllowMethods : Bytes := ascii "access-control-allow-methods"
/-- src/server/cors.rs:414. -/
def acAllowHeaders : Bytes := ascii "access-control-allow-headers"
/-- src/server/cors.rs:425. -/
def acAllowCredentials : Bytes := ascii "access-control-allow-credentials"
/-- src/server/cors.rs:430. -/
def acExposeHeaders : Bytes := ascii "access-control-expose-headers"
/-- src/server/cors.rs:418. -/
def acMaxAge : Bytes := ascii "access-control-max-age"
end H

/-- `HashSet::insert`.  src/server/cors.rs:87, 122, 157. -/
def setInsert (s : List Bytes) (x : Bytes) : List Bytes := if x ∈ s then s else s ++ [x]

/-- `HashSet::extend`.  src/server/cors.rs:105, 140, 175, 219. -/
def setExtend (s : List Bytes) (xs : List Bytes) : List Bytes := xs.foldl setInsert s

/-- Conversion of all items of an iterator, panicking on the first that cannot be converted: the `map` calls of
src/server/cors.rs:101-104, 136-139, 171-174, 209-217.  (Items before it are inserted, into a builder that
the panic destroys.) -/
def convertAll (f : Bytes → Option Bytes) : List Bytes → Run (List Bytes)
  | [] => .ret []
  | x :: xs =>
    match f x with
    | none => .panic
    | some y => do
      let ys ← convertAll f xs
      .ret (y :: ys)

/-- `Method::try_from` on a text.  src/server/cors.rs:83-86, 101-104, 392. -/
def toMethod (m : Bytes) : Option Bytes := if methodOk m then some m else none

/-- src/server/cors.rs:51-65 `CorsBuilder`. -/
structure CorsBuilder where
  credentials : Bool
  allowedHeaders : List Bytes
  exposedHeaders : List Bytes
  maxAge : Option Nat
  methods : List Bytes
  origins : Option (List Bytes)
  deriving DecidableEq, Repr

/-- src/server/cors.rs:255-276 `Cors`.  The typed headers are represented by the header value they encode to. -/
structure Cors where
  credentials : Bool
  allowedHeadersSet : List Bytes
  allowedHeaders : Bytes
  exposedHeaders : Option Bytes
  maxAge : Option Nat
  methodsSet : List Bytes
  methods : Bytes
  origins : Option (List Bytes)
  deriving DecidableEq, Repr

/-- The values of a comma separated header as the `headers` crate (0.3) collects them into one value
(`FlatCsv`): separated by a comma and a blank.  src/server/cors.rs:235, 240, 244. -/
def joinCsv : List Bytes → Bytes
  | [] => []
  | [x] => x
  | x :: y :: l => x ++ [44, 32] ++ joinCsv (y :: l)

/-- The conversion `IntoOrigin for &str`, src/server/cors.rs:442-448: `splitn(2, "://")`.  `tryFromParts` is
`Origin::try_from_parts` of the `headers` crate followed by `to_string`.  `none` is a panic. -/
def strIntoOrigin (tryFromParts : Bytes → Bytes → Option Bytes) (s : Bytes) : Option Bytes :=
  go [] s
where
  go (scheme : Bytes) : Bytes → Option Bytes
    | 58 :: 47 :: 47 :: rest => tryFromParts scheme rest
    | b :: s => go (scheme ++ [b]) s
    | [] => none

/-- The calls one can make on a builder. The argument of `allow_origin(s)` are things that `IntoOrigin` converts,
represented by texts.  src/server/cors.rs:67-249. -/
inductive CorsOp
  | allowCredentials (allow : Bool)
  | allowMethod (m : Bytes)
  | allowMethods (ms : List Bytes)
  | allowHeader (h : Bytes)
  | allowHeaders (hs : List Bytes)
  | exposeHeader (h : Bytes)
  | exposeHeaders (hs : List Bytes)
  | allowAnyOrigin
  | allowOrigin (o : Bytes)
  | allowOrigins (os : List Bytes)
  | maxAge (seconds : Nat)
  deriving DecidableEq, Repr

namespace CorsBuilder

/-- src/server/cors.rs:280-289 `Cors::build`. -/
def new : CorsBuilder := ⟨false, [], [], none, [], none⟩

/-- src/server/cors.rs:96-107 `allow_methods`. -/
def allowMethods (b : CorsBuilder) (ms : List Bytes) : Run CorsBuilder := do
  let ms ← convertAll toMethod ms
  .ret { b with methods := setExtend b.methods ms }

/-- src/server/cors.rs:79-89 `allow_method`. -/
def allowMethod (b : CorsBuilder) (m : Bytes) : Run CorsBuilder :=
  match toMethod m with
  | none => .panic
  | some m => .ret { b with methods := setInsert b.methods m }

/-- src/server/cors.rs:131-142 `allow_headers`. -/
def allowHeaders (b : CorsBuilder) (hs : List Bytes) : Run CorsBuilder := do
  let hs ← convertAll headerNameFromBytes hs
  .ret { b with allowedHeaders := setExtend b.allowedHeaders hs }

/-- src/server/cors.rs:114-124 `allow_header`. -/
def allowHeader (b : CorsBuilder) (h : Bytes) : Run CorsBuilder :=
  match headerNameFromBytes h with
  | none => .panic
  | some h => .ret { b with allowedHeaders := setInsert b.allowedHeaders h }

/-- src/server/cors.rs:166-177 `expose_headers`. -/
def exposeHeaders (b : CorsBuilder) (hs : List Bytes) : Run CorsBuilder := do
  let hs ← convertAll headerNameFromBytes hs
  .ret { b with exposedHeaders := setExtend b.exposedHeaders hs }

/-- src/server/cors.rs:149-159 `expose_header`. -/
def exposeHeader (b : CorsBuilder) (h : Bytes) : Run CorsBuilder :=
  match headerNameFromBytes h with
  | none => .panic
  | some h => .ret { b with exposedHeaders := setInsert b.exposedHeaders h }

/-- src/server/cors.rs:204-222 `allow_origins`.  `originOf` is `IntoOrigin::into_origin` followed by
`to_string`. -/
def allowOrigins (originOf : Bytes → Option Bytes) (b : CorsBuilder) (os : List Bytes) : Run CorsBuilder := do
  let os ← convertAll originOf os
  .ret { b with origins := some (setExtend (b.origins.getD []) os) }

/-- One call.  Also src/server/cors.rs:69-72 `allow_credentials`, 185-188 `allow_any_origin`, 195-197 `allow_origin`, 225-228
`max_age`. -/
def apply (originOf : Bytes → Option Bytes) (b : CorsBuilder) : CorsOp → Run CorsBuilder
  | .allowCredentials a => .ret { b with credentials := a }
  | .allowMethod m => b.allowMethod m
  | .allowMethods ms => b.allowMethods ms
  | .allowHeader h => b.allowHeader h
  | .allowHeaders hs => b.allowHeaders hs
  | .exposeHeader h => b.exposeHeader h
  | .exposeHeaders hs => b.exposeHeaders hs
  | .allowAnyOrigin => .ret { b with origins := none }
  | .allowOrigin o => b.allowOrigins originOf [o]
  | .allowOrigins os => b.allowOrigins originOf os
  | .maxAge n => .ret { b with maxAge := some n }

/-- A sequence of calls.  Calls of the methods of src/server/cors.rs:67-228, one after the other. -/
def applyAll (originOf : Bytes → Option Bytes) : CorsBuilder → List CorsOp → Run CorsBuilder
  | b, [] => .ret b
  | b, op :: ops => do
    let b ← b.apply originOf op
    applyAll originOf b ops

/-- src/server/cors.rs:231-248 `finish`.  `order` is the order in which sets are iterated over. -/
def finish (order : List Bytes → List Bytes) (b : CorsBuilder) : Cors :=
  { credentials := b.credentials
    allowedHeaders := joinCsv (order b.allowedHeaders)
    allowedHeadersSet := b.allowedHeaders
    exposedHeaders := if b.exposedHeaders = [] then none else some (joinCsv (order b.exposedHeaders))
    maxAge := b.maxAge
    methods := joinCsv (order b.methods)
    methodsSet := b.methods
    origins := b.origins }

end CorsBuilder

/-- `Cors::build()`, the calls, `finish()`.  src/server/cors.rs:280-289, 231-248. -/
def buildCors (originOf : Bytes → Option Bytes) (order : List Bytes → List Bytes) (ops : List CorsOp) : Run Cors := do
  let b ← CorsBuilder.new.applyAll originOf ops
  .ret (b.finish order)

/-- `HeaderValue::to_str`: succeeds on visible ASCII, blanks and tabs.  src/server/cors.rs:339, src/server/identity.rs:240. -/
def toStr (v : Bytes) : Option Bytes := if v.all (fun b => (32 ≤ b.toNat && b.toNat < 127) || b.toNat == 9) then some v else none

/-- `str::split(',')`; first argument: the part read so far of the current element.  src/server/cors.rs:343. -/
def splitComma : Bytes → Bytes → List Bytes
  | cur, [] => [cur]
  | cur, b :: s => if b = 44 then cur :: splitComma [] s else splitComma (cur ++ [b]) s

namespace Cors

/-- src/server/cors.rs:391-395 `is_method_allowed`. -/
def isMethodAllowed (c : Cors) (v : Bytes) : Bool :=
  match toMethod v with
  | some m => decide (m ∈ c.methodsSet)
  | none => false

/-- src/server/cors.rs:397-401 `is_header_allowed`. -/
def isHeaderAllowed (c : Cors) (h : Bytes) : Bool :=
  match headerNameFromBytes h with
  | some h => decide (h ∈ c.allowedHeadersSet)
  | none => false

/-- src/server/cors.rs:403-409 `is_origin_allowed`. -/
def isOriginAllowed (c : Cors) (origin : Bytes) : Bool :=
  match c.origins with
  | some allowed => decide (origin ∈ allowed)
  | none => true

/-- src/server/cors.rs:422-432 `append_common_headers`.  (`typed_insert` of a header with one value is `insert`.) -/
def appendCommonHeaders (c : Cors) (headers : HeaderMap) : HeaderMap :=
  let headers := if c.credentials then headers.insert H.acAllowCredentials (ascii "true") else headers
  match c.exposedHeaders with
  | some v => headers.insert H.acExposeHeaders v
  | none => headers

/-- src/server/cors.rs:411-420 `append_preflight_headers`. -/
def appendPreflightHeaders (c : Cors) (headers : HeaderMap) : HeaderMap :=
  let headers := c.appendCommonHeaders headers
  let headers := headers.insert H.acAllowHeaders c.allowedHeaders
  let headers := headers.insert H.acAllowMethods c.methods
  match c.maxAge with
  | some n => headers.insert H.acMaxAge (decimal n)
  | none => headers

/-- src/server/cors.rs:343-349: the loop over the elements of `access-control-request-headers`. -/
def headersAllowed (c : Cors) : List Bytes → Bool
  | [] => true
  | h :: hs => if c.isHeaderAllowed h then headersAllowed c hs else false

/-- src/server/cors.rs:334-350: the check of `access-control-request-headers`. -/
def requestHeadersAllowed (c : Cors) (headers : HeaderMap) : Bool :=
  match headers.get H.acRequestHeaders with
  | none => true
  | some v =>
    match toStr v with
    | none => false
    | some s => c.headersAllowed (splitComma [] s)

/-- src/server/cors.rs:321-332: the check of `access-control-request-method`.  (The `println!` is not modelled.) -/
def requestMethodAllowed (c : Cors) (headers : HeaderMap) : Bool :=
  match headers.get H.acRequestMethod with
  | some m => c.isMethodAllowed m
  | none => false

/-- src/server/cors.rs:303-389 `validate`: the response under construction afterwards, and the result. -/
def validate {σ : Type} (c : Cors) (method : Bytes) (reqHeaders : HeaderMap) (resp : Response σ) : Response σ × Except Glitch Unit :=
  match reqHeaders.get H.origin with
  | some origin =>
    if method = H.options then
      if !c.isOriginAllowed origin then (resp, .error .badRequest)
      else if !c.requestMethodAllowed reqHeaders then (resp, .error .badRequest)
      else if !c.requestHeadersAllowed reqHeaders then (resp, .error .badRequest)
      else
        let headers := c.appendPreflightHeaders []
        let headers := headers.insert H.acAllowOrigin origin
        (resp, .error { Glitch.new with status := some 200, headers := some headers })
    else if c.isOriginAllowed origin then
      let resp := { resp with headers := c.appendCommonHeaders resp.headers }
      (resp.insertHeader H.acAllowOrigin origin, .ok ())
    else (resp, .error .badRequest)
  | none => (resp, .ok ())

/-- `validate` as middleware, as in examples/cors.rs:47-53: `cors.validate(&req, &mut resp_wtr)?`, then the application, which
goes on with that response. -/
def guard {σ : Type} (c : Cors) (app : Response σ → Endpoint (BodyReader σ)) : Endpoint (BodyReader σ) := fun head len =>
  match c.validate head.method head.headers freshResponse with
  | (resp, .ok ()) => app resp head len
  | (_, .error g) => .glitch g

end Cors

end Tophat
