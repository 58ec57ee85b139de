import Verif.Model.Middleware
import Verif.Model.Identity
/-!
# Model of `examples/identity.rs`

The router has an `Identity` among its data; its three handlers look it up.  Data are bytes in the model of the router: `idOf` is the `Identity` that such bytes stand for.  `time` is the time of the
call, in seconds.  `Prog` has no word for an endpoint that panics; where the code would (because the data or the parameter are missing, or in `set_auth_token` and `forget`), the handlers end here with
an empty error.  The theorems are about cases where that does not happen: they say that something else does.
-/

namespace Tophat
variable {σ : Type}

/-- `resp_wtr.send().await` at the end of a handler; an error of `send` becomes a `Glitch` with its text.  examples/identity.rs:77, 94, 110, 115, src/server/response_writer.rs:132. -/
def sendIt (text : IoErr → Bytes) : Run (Response σ) → Prog (BodyReader σ)
  | .ret resp => .send resp.toInner (fun _ => .ok) fun x => .glitch (.newWithErr (text x))
  | _ => .glitch .new

/-- examples/identity.rs:61-78 `login_user`. -/
def loginUser (jwt : JwtLib) (idOf : Bytes → Identity) (time : Nat) (text : IoErr → Bytes) : Handler σ := fun _ _ ext resp =>
  match ext.getData (.base 0), ext.getParam (ascii "user") with
  | some d, some user => sendIt text ((idOf d).setAuthToken jwt time user resp)
  | _, _ => .glitch .new

/-- examples/identity.rs:80-95 `logout_user`. -/
def logoutUser (jwt : JwtLib) (idOf : Bytes → Identity) (time : Nat) (text : IoErr → Bytes) : Handler σ := fun _ _ ext resp =>
  match ext.getData (.base 0) with
  | some d => sendIt text ((idOf d).forget jwt time resp)
  | none => .glitch .new

/-- examples/identity.rs:98-116 `hello_user`. -/
def helloIdentity (jwt : JwtLib) (idOf : Bytes → Identity) (time : Nat) (text : IoErr → Bytes) : Handler σ := fun head _ ext resp =>
  match ext.getData (.base 0) with
  | some d =>
    match (idOf d).authorizedUser jwt time head.headers with
    | some u => sendIt text (.ret (resp.setText (ascii "Hello " ++ u)))
    | none => sendIt text (resp.setCode 400)
  | none => .glitch .new

/-- The router of examples/identity.rs:28-33, with any `Identity`: the one that `data` stands for. -/
def loginRouter (jwt : JwtLib) (idOf : Bytes → Identity) (data : Bytes) (time : Nat) (text : IoErr → Bytes) : List (BuildOp (Handler σ)) :=
  [.data (.base 0) data, .at (ascii "GET") (ascii "/login/:user") (loginUser jwt idOf time text), .at (ascii "GET") (ascii "/logout") (logoutUser jwt idOf time text),
    .at (ascii "GET") (ascii "/") (helloIdentity jwt idOf time text)]

/-- The endpoint of examples/identity.rs:45-48, called at `time`. -/
def loginServer (lib : PathTree) (pathOf : Bytes → Bytes) (jwt : JwtLib) (idOf : Bytes → Identity) (data : Bytes) (time : Nat) (text : IoErr → Bytes) : Endpoint (BodyReader σ) :=
  (buildRouter (loginRouter jwt idOf data time text : List (BuildOp (Handler σ)))).behind lib pathOf text fun _ resp => resp

end Tophat
