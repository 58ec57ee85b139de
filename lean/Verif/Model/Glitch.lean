import Verif.Model.BufReader
import Verif.Model.ServerEncode
/-!
# Model of `src/server/glitch.rs`

Strings are represented by their UTF-8 bytes.  Errors and contexts are represented by the text their
`to_string()` gives.
-/

namespace Tophat

/-- src/server/glitch.rs:48-57 `struct Glitch`. -/
structure Glitch where
  status : Option StatusCode
  headers : Option HeaderMap
  version : Option Version
  message : Option Bytes
  trace : Option Bytes
  deriving DecidableEq, Repr

namespace Glitch

/-- src/server/glitch.rs:82-90 `Glitch::new`; also lines 68-78 `Default` and 189-197
`internal_server_error`, and the macros `glitch!()` and `glitch_code!()` of lines 290-292 and 319-321. -/
def new : Glitch := ⟨none, none, none, none, none⟩

/-- src/server/glitch.rs:92-103 `new_with_err`; lines 59-66 `From<E>`, which `?` uses. -/
def newWithErr (error : Bytes) : Glitch := ⟨none, none, none, none, some error⟩

/-- src/server/glitch.rs:105-116 `new_with_status_context`. -/
def newWithStatusContext (status : StatusCode) (context : Bytes) : Glitch :=
  ⟨some status, none, none, some context, none⟩

/-- src/server/glitch.rs:118-134 `new_with_status_err_context`. -/
def newWithStatusErrContext (status : StatusCode) (error context : Bytes) : Glitch :=
  ⟨some status, none, none, some context, some error⟩

/-- src/server/glitch.rs:168-170 `set_status`. -/
def setStatus (g : Glitch) (status : StatusCode) : Glitch := { g with status := some status }

/-- src/server/glitch.rs:173-175 `set_message`. -/
def setMessage (g : Glitch) (message : Bytes) : Glitch := { g with message := some message }

/-- src/server/glitch.rs:178-186 `bad_request`. -/
def badRequest : Glitch := ⟨some 400, none, none, none, none⟩

/-- src/server/glitch.rs:235-239 and 260-264, the closures of `glitch`; also the macro `glitch!(code)` of lines 293-299. -/
def ofStatus (status : StatusCode) : Glitch := new.setStatus status

/-- The macro `glitch!(code, message)`, src/server/glitch.rs:300-307. -/
def ofStatusMessage (status : StatusCode) (message : Bytes) : Glitch := (new.setStatus status).setMessage message

/-- The macro `glitch_code!(code, message)`, src/server/glitch.rs:329-336: panics on a code that is not
a status code.  (`glitch_code!(code)`, lines 322-328, calls a method that does not exist and does not
compile when used.) -/
def ofCodeMessage (code : Nat) (message : Bytes) : Run Glitch :=
  match statusFromU16 code with
  | some s => .ret (ofStatusMessage s message)
  | none => .panic

/-- src/server/glitch.rs:234-240 `GlitchExt::glitch` on a `Result`; the error is dropped. -/
def onResult {α : Type} (r : Except Bytes α) (status : StatusCode) : Except Glitch α :=
  match r with
  | .ok a => .ok a
  | .error _ => .error (ofStatus status)

/-- src/server/glitch.rs:242-247 `GlitchExt::glitch_ctx` on a `Result`. -/
def onResultCtx {α : Type} (r : Except Bytes α) (status : StatusCode) (context : Bytes) : Except Glitch α :=
  match r with
  | .ok a => .ok a
  | .error e => .error (newWithStatusErrContext status e context)

/-- src/server/glitch.rs:249-255 `GlitchExt::glitch_with_ctx` on a `Result`; the closure, which may panic or not return, is
called for an `Err` only. -/
def onResultWithCtx {α : Type} (r : Except Bytes α) (status : StatusCode) (f : Unit → Run Bytes) : Run (Except Glitch α) :=
  match r with
  | .ok a => .ret (.ok a)
  | .error e => do
    let context ← f ()
    .ret (.error (newWithStatusErrContext status e context))

/-- src/server/glitch.rs:259-265 `GlitchExt::glitch` on an `Option`. -/
def onOption {α : Type} (o : Option α) (status : StatusCode) : Except Glitch α :=
  match o with
  | some a => .ok a
  | none => .error (ofStatus status)

/-- src/server/glitch.rs:267-272 `GlitchExt::glitch_ctx` on an `Option`. -/
def onOptionCtx {α : Type} (o : Option α) (status : StatusCode) (context : Bytes) : Except Glitch α :=
  match o with
  | some a => .ok a
  | none => .error (newWithStatusContext status context)

/-- src/server/glitch.rs:274-280 `GlitchExt::glitch_with_ctx` on an `Option`. -/
def onOptionWithCtx {α : Type} (o : Option α) (status : StatusCode) (f : Unit → Run Bytes) : Run (Except Glitch α) :=
  match o with
  | some a => .ret (.ok a)
  | none => do
    let context ← f ()
    .ret (.error (newWithStatusContext status context))

/-- src/server/glitch.rs:137-150: the text of the body. -/
def bodyText (g : Glitch) (verbose : Bool) : Bytes :=
  let msg := g.message.getD []
  if verbose then
    match g.trace with
    | some trace => if msg ≠ [] then msg ++ [10] ++ trace else trace
    | none => msg
  else msg

/-- src/server/glitch.rs:136-165 `into_inner_response`. -/
def intoInnerResponse (g : Glitch) (verbose : Bool) : InnerResponse Cursor :=
  let msg := g.bodyText verbose
  let headers := g.headers.getD []
  let headers := if msg ≠ [] then headers.insert H.contentType (ascii "text/plain") else headers
  { status := g.status.getD 500
    headers := headers
    version := g.version.getD .http11
    body := ⟨msg⟩
    length := some msg.length }

end Glitch

end Tophat
