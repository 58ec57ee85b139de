import Verif.Model.Login
import Verif.Model.Glitch
/-!
# Model of `examples/errors.rs` and `examples/errors_verbose.rs`

The handlers ask a database, which fails in the examples.  Here the result is any: the text of an error, or that there is none; something that is found, or not.
-/

namespace Tophat
variable {σ : Type}

/-- examples/errors.rs:50-61, examples/errors_verbose.rs:64-75 `database_error`: `failed_db?`. -/
def databaseError (db : Except Bytes Unit) (text : IoErr → Bytes) : Handler σ := fun _ _ _ resp =>
  match db with
  | .ok _ => sendIt text (.ret resp)
  | .error e => .glitch (.newWithErr e)

/-- examples/errors_verbose.rs:77-91 `database_error_context`: `failed_db.glitch_ctx(S_500, context)?`. -/
def databaseErrorContext (db : Except Bytes Unit) (context : Bytes) (text : IoErr → Bytes) : Handler σ := fun _ _ _ resp =>
  match Glitch.onResultCtx db 500 context with
  | .ok _ => sendIt text (.ret resp)
  | .error g => .glitch g

/-- examples/errors.rs:63-75, examples/errors_verbose.rs:93-104 `missing_data`: `failed_db.ok_or_else(|| Glitch::bad_request())?`. -/
def missingData (found : Option Unit) (text : IoErr → Bytes) : Handler σ := fun _ _ _ resp =>
  match found with
  | some _ => sendIt text (.ret resp)
  | none => .glitch .badRequest

/-- The router of examples/errors_verbose.rs:26-35 (that of examples/errors.rs:19-23 has two of the three routes). -/
def errorsRouter (db : Except Bytes Unit) (context : Bytes) (found : Option Unit) (text : IoErr → Bytes) (data : Bytes) : List (BuildOp (Handler σ)) :=
  [.data (.base 0) data, .at (ascii "GET") (ascii "/database_error") (databaseError db text), .at (ascii "GET") (ascii "/database_error_context") (databaseErrorContext db context text),
    .at (ascii "GET") (ascii "/missing_data") (missingData found text)]

/-- The endpoint of examples/errors_verbose.rs:48-51. -/
def errorsServer (lib : PathTree) (pathOf : Bytes → Bytes) (db : Except Bytes Unit) (context : Bytes) (found : Option Unit) (text : IoErr → Bytes) (data : Bytes) : Endpoint (BodyReader σ) :=
  (buildRouter (errorsRouter db context found text data : List (BuildOp (Handler σ)))).behind lib pathOf text fun _ resp => resp

end Tophat
