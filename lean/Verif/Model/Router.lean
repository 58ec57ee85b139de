import Verif.Model.PathTree
import Verif.Model.Accept
import Verif.Model.ResponseWriter
/-!
# Model of `src/server/router.rs`

Types (the keys of a `TypeMap`) are represented by `Ty`, values by bytes.
-/

namespace Tophat

/-- Rust types, as far as they matter as keys of a type map: `Data<T>` is a type different from `T`.  The types `T` of src/server/router.rs:129, 137, 235. -/
inductive Ty
  | base (n : Nat)
  | data (t : Ty)
  deriving DecidableEq, Repr

/-- `type_map::concurrent::TypeMap`: at most one value per type.  Not in /repo; used at src/server/router.rs:94, 222. -/
abbrev TypeMap := List (Ty × Bytes)

/-- `TypeMap::insert`.  Not in /repo; used at src/server/router.rs:142. -/
def TypeMap.insert (m : TypeMap) (t : Ty) (v : Bytes) : TypeMap := (t, v) :: m.filter fun e => e.1 ≠ t

/-- `TypeMap::get`.  Not in /repo; used at src/server/router.rs:238. -/
def TypeMap.get (m : TypeMap) (t : Ty) : Option Bytes := (m.find? fun e => e.1 = t).map (·.2)

/-- The extensions of a request that the router uses: those of type `DataMap` and of type `Params`
(src/server/router.rs:33,222). -/
structure Extensions where
  data : Option TypeMap
  params : Option (List (Bytes × Bytes))
  deriving DecidableEq, Repr

/-- src/server/router.rs:89-95 `RouterBuilder`.  The tree is the list of insertions made. -/
structure RouterBuilder (ε : Type) where
  tree : List (Bytes × ε)
  data : Option TypeMap

/-- src/server/router.rs:37-43 `Router`. -/
structure Router (ε : Type) where
  tree : List (Bytes × ε)
  data : Option TypeMap

section
variable {ε : Type}

namespace RouterBuilder

/-- src/server/router.rs:101-106 `RouterBuilder::new`, 50-52 `Router::build`. -/
def new : RouterBuilder ε := ⟨[], none⟩

/-- src/server/router.rs:116-123 `at`. -/
def «at» (b : RouterBuilder ε) (method path : Bytes) (endpoint : ε) : RouterBuilder ε :=
  { b with tree := b.tree ++ [([47] ++ method ++ path, endpoint)] }

/-- src/server/router.rs:137-145 `wrapped_data::<T>`. -/
def wrappedData (b : RouterBuilder ε) (t : Ty) (v : Bytes) : RouterBuilder ε :=
  { b with data := some ((b.data.getD []).insert t v) }

/-- src/server/router.rs:129-131 `data::<T>`. -/
def data' (b : RouterBuilder ε) (t : Ty) (v : Bytes) : RouterBuilder ε := b.wrappedData (.data t) v

/-- src/server/router.rs:148-153 `finish`. -/
def finish (b : RouterBuilder ε) : Router ε := ⟨b.tree, b.data⟩

end RouterBuilder

/-- The calls one can make on a builder.  src/server/router.rs:116-145. -/
inductive BuildOp (ε : Type)
  | «at» (method path : Bytes) (endpoint : ε)
  | data (t : Ty) (v : Bytes)
  | wrappedData (t : Ty) (v : Bytes)

/-- One call.  src/server/router.rs:116-145. -/
def RouterBuilder.apply (b : RouterBuilder ε) : BuildOp ε → RouterBuilder ε
  | .at m p e => b.at m p e
  | .data t v => b.data' t v
  | .wrappedData t v => b.wrappedData t v

/-- `Router::build()`, the calls, `finish()`.  src/server/router.rs:50-52, 148-153. -/
def buildRouter (ops : List (BuildOp ε)) : Router ε := (ops.foldl RouterBuilder.apply .new).finish

/-- What `Router::route` does: call an endpoint with the request whose extensions are given, or send a response.  src/server/router.rs:62-84. -/
inductive Routed (ε σ : Type)
  | call (endpoint : ε) (ext : Extensions)
  | send (resp : Response σ)

/-- src/server/router.rs:55-85 `Router::route`, up to the call of the endpoint or of `send`.  `path` is what
`req.uri().path()` gives. -/
def Router.route {σ : Type} (lib : PathTree) (r : Router ε) (method path : Bytes) (ext : Extensions) (resp : Response σ) : Routed ε σ :=
  match lib.find r.tree ([47] ++ method ++ path) with
  | some (e, params) =>
    let ext := match r.data with
      | some d => { ext with data := some d }
      | none => ext
    .call e { ext with params := some params }
  | none => .send (resp.setStatus 404)

namespace Extensions

/-- src/server/router.rs:235-240 `RouterRequestExt::data::<T>`. -/
def getData (x : Extensions) (t : Ty) : Option Bytes := x.data.bind fun m => m.get (.data t)

/-- src/server/router.rs:248-253: the loop of `get_param`. -/
def findParam (key : Bytes) : List (Bytes × Bytes) → Option Bytes
  | [] => none
  | (k, v) :: l => if key = k then some v else findParam key l

/-- src/server/router.rs:246-256 `get_param`. -/
def getParam (x : Extensions) (key : Bytes) : Option Bytes :=
  match x.params with
  | some ps => findParam key ps
  | none => none

end Extensions

end

/-- The endpoint `|req, resp_wtr| router.route(req, resp_wtr)`, as in the documentation and the examples (for instance
examples/routing.rs).  The endpoints of the router are functions of the request and its extensions.  `pathOf` is
`Uri::path` of the `http` crate.  `text` is the text of an error; an error of `send` becomes a `Glitch`
(src/server/response_writer.rs:132). -/
def Router.endpoint {σ : Type} (lib : PathTree) (pathOf : Bytes → Bytes) (text : IoErr → Bytes)
    (r : Router (ReqHead → Option Nat → Extensions → Prog (BodyReader σ))) : Endpoint (BodyReader σ) := fun head len =>
  match r.route lib head.method (pathOf head.uri) ⟨none, none⟩ (freshResponse : Response σ) with
  | .call e ext => e head len ext
  | .send resp => .send resp.toInner (fun _ => .ok) fun x => .glitch (.newWithErr (text x))

end Tophat
