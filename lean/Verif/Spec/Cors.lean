import Verif.Model.Cors
/-!
# Specification: CORS configurations and decisions
-/

namespace Tophat

/-! ## What builder calls ask for -/

/-- The call allows the method. -/
def CorsOp.AllowsMethod (m : Bytes) : CorsOp → Prop
  | .allowMethod m' => m' = m
  | .allowMethods ms => m ∈ ms
  | _ => False

/-- The call allows the header, whose name is given in lower case. -/
def CorsOp.AllowsHeader (h : Bytes) : CorsOp → Prop
  | .allowHeader h' => lower h' = h
  | .allowHeaders hs => ∃ h' ∈ hs, lower h' = h
  | _ => False

/-- The call exposes the header, whose name is given in lower case. -/
def CorsOp.Exposes (h : Bytes) : CorsOp → Prop
  | .exposeHeader h' => lower h' = h
  | .exposeHeaders hs => ∃ h' ∈ hs, lower h' = h
  | _ => False

/-- The call allows the origin. -/
def CorsOp.AllowsOrigin (originOf : Bytes → Option Bytes) (o : Bytes) : CorsOp → Prop
  | .allowOrigin o' => originOf o' = some o
  | .allowOrigins os => ∃ o' ∈ os, originOf o' = some o
  | _ => False

/-- The call restricts the origins. -/
def CorsOp.Restricts : CorsOp → Prop
  | .allowOrigin _ => True
  | .allowOrigins _ => True
  | _ => False

/-- What the call says about credentials. -/
def CorsOp.credentials? : CorsOp → Option Bool
  | .allowCredentials a => some a
  | _ => none

/-- What the call says about the maximal age. -/
def CorsOp.maxAge? : CorsOp → Option Nat
  | .maxAge n => some n
  | _ => none

/-- The arguments of the call are valid. -/
def CorsOp.Legal (originOf : Bytes → Option Bytes) : CorsOp → Prop
  | .allowMethod m => methodOk m
  | .allowMethods ms => ∀ m ∈ ms, methodOk m
  | .allowHeader h => headerNameFromBytes h ≠ none
  | .allowHeaders hs => ∀ h ∈ hs, headerNameFromBytes h ≠ none
  | .exposeHeader h => headerNameFromBytes h ≠ none
  | .exposeHeaders hs => ∀ h ∈ hs, headerNameFromBytes h ≠ none
  | .allowOrigin o => originOf o ≠ none
  | .allowOrigins os => ∀ o ∈ os, originOf o ≠ none
  | _ => True

/-- The last answer that the calls give. -/
def lastSaid {α : Type} (f : CorsOp → Option α) (ops : List CorsOp) : Option α := (ops.filterMap f).getLast?

/-- `since` are the calls since `allow_any_origin` was last called, or all if it was not. -/
def SinceAnyOrigin (ops since : List CorsOp) : Prop :=
  (ops = since ∨ ∃ before, ops = before ++ .allowAnyOrigin :: since) ∧ .allowAnyOrigin ∉ since

/-- The text lists the names that satisfy `p`, each once, in some order. -/
def Lists (text : Bytes) (p : Bytes → Prop) : Prop := ∃ l : List Bytes, l.Nodup ∧ (∀ x, x ∈ l ↔ p x) ∧ text = List.intercalate (ascii ", ") l

/-! ## Decisions about requests -/

/-- The origin is allowed. -/
def Cors.AllowsOrigin (c : Cors) (o : Bytes) : Prop := ∀ l, c.origins = some l → o ∈ l

/-- The elements of a list separated by commas. -/
def CommaSeparated (text : Bytes) (elements : List Bytes) : Prop :=
  elements ≠ [] ∧ (∀ e ∈ elements, 44 ∉ e) ∧ text = List.intercalate (ascii ",") elements

/-- The preflight request is to be granted: its method is allowed, and all elements of the list of headers, if there is one,
are allowed. -/
structure Cors.Grants (c : Cors) (headers : HeaderMap) (origin : Bytes) : Prop where
  origin : c.AllowsOrigin origin
  method : ∃ m, (headers.getAll (ascii "access-control-request-method")).head? = some m ∧ m ∈ c.methodsSet
  headers : ∀ v, (headers.getAll (ascii "access-control-request-headers")).head? = some v → ∃ es, CommaSeparated v es ∧ ∀ e ∈ es, lower e ∈ c.allowedHeadersSet

/-- The headers that a simple request adds to a response. -/
def Cors.simpleField (c : Cors) (origin : Bytes) (k : Bytes) : Option Bytes :=
  if k = ascii "access-control-allow-origin" then some origin
  else if k = ascii "access-control-allow-credentials" ∧ c.credentials then some (ascii "true")
  else if k = ascii "access-control-expose-headers" then c.exposedHeaders
  else none

/-- The headers of the response to a granted preflight request. -/
def Cors.preflightField (c : Cors) (origin : Bytes) (k : Bytes) : Option Bytes :=
  if k = ascii "access-control-allow-methods" then some c.methods
  else if k = ascii "access-control-allow-headers" then some c.allowedHeaders
  else if k = ascii "access-control-max-age" then c.maxAge.map decimal
  else c.simpleField origin k

/-- What holds of every `Cors` there is: the allowed methods are methods, the names of allowed headers are in lower case. -/
structure Cors.Ok (c : Cors) : Prop where
  methods : ∀ m ∈ c.methodsSet, methodOk m
  headers : ∀ h ∈ c.allowedHeadersSet, headerNameFromBytes h = some h

end Tophat
