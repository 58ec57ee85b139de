import Verif.Model.Router
/-!
# Model of `examples/middleware.rs`

An endpoint that lets something of its own look at the request and at the `ResponseWriter` before the router gets them.
-/

namespace Tophat
variable {σ : Type}

/-- examples/middleware.rs:106-117 `Cors::simple_cors`: what becomes of the response of the `ResponseWriter`.  (`allow_origin.parse().unwrap()` panics for a text that is not a header value; here `allow` is the value.) -/
def simpleCors (allow : Bytes) (head : ReqHead) (resp : Response σ) : Response σ :=
  if (head.headers.get (ascii "origin")).isSome then resp.insertHeader (ascii "access-control-allow-origin") allow else resp

/-- examples/middleware.rs:76-89: the text of the answer of `hello_user`.  `data` of a type `&str` is of the type number 0. -/
def helloText (ext : Extensions) : Bytes :=
  ascii "Hello, " ++ (match ext.params with | some ps => ps.flatMap fun p => p.1 ++ ascii " = " ++ p.2 | none => []) ++
    (match ext.getData (.base 0) with | some d => ascii " and " ++ d | none => [])

/-- A handler of a router that is given the `ResponseWriter` as it is (src/server/router.rs:55-85): the response in it, as far as it has been set. -/
abbrev Handler (σ : Type) := ReqHead → Option Nat → Extensions → Response σ → Prog (BodyReader σ)

/-- examples/middleware.rs:70-92 `hello_user`; `text` is the text of an error, an error of `send` becomes a `Glitch` (src/server/response_writer.rs:132). -/
def helloUser (text : IoErr → Bytes) : Handler σ := fun _ _ ext resp =>
  .send (resp.setBody (.fromBytes (helloText ext))).toInner (fun _ => .ok) fun x => .glitch (.newWithErr (text x))

/-- An endpoint `|req, mut w| async { before(&req, &mut w); router.route(req, w).await }`, examples/middleware.rs:44-57. -/
def Router.behind (lib : PathTree) (pathOf : Bytes → Bytes) (text : IoErr → Bytes) (before : ReqHead → Response σ → Response σ) (r : Router (Handler σ)) : Endpoint (BodyReader σ) := fun head len =>
  match r.route lib head.method (pathOf head.uri) ⟨none, none⟩ (before head freshResponse) with
  | .call e ext => e head len ext (before head freshResponse)
  | .send resp => .send resp.toInner (fun _ => .ok) fun x => .glitch (.newWithErr (text x))

/-- The router of examples/middleware.rs:28-31. -/
def greetRouter (text : IoErr → Bytes) (data : Bytes) : List (BuildOp (Handler σ)) := [.data (.base 0) data, .at (ascii "GET") (ascii "/:name") (helloUser text)]

end Tophat
