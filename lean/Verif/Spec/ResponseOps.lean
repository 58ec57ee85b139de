import Verif.Model.ResponseWriter
/-!
# Specification: what the operations of a `ResponseWriter` are meant to do
-/

namespace Tophat

/-- What an operation does to the headers. -/
inductive HeaderEffect
  | none
  | replaces (name value : Bytes)
  | adds (name value : Bytes)
  deriving DecidableEq, Repr

namespace RespOp
variable {σ : Type}

/-- The effect on the headers, as documented: `insert_header` replaces, `append_header` adds, and the two convenience
methods for bodies set the content type. -/
def onHeaders : RespOp σ → HeaderEffect
  | .insertHeader n v => .replaces n v
  | .appendHeader n v => .adds n v
  | .setText _ => .replaces (ascii "content-type") (ascii "text/plain")
  | .setSse _ => .replaces (ascii "content-type") (ascii "text/event-stream")
  | _ => .none

/-- The status it sets. -/
def onStatus : RespOp σ → Option Nat
  | .setStatus s => some s
  | .setCode c => some c
  | _ => Option.none

/-- The body it sets. -/
def onBody : RespOp σ → Option (RespBody σ)
  | .setBody b => some b
  | .setText t => some (.fromBytes t)
  | .setSse s => some (.fromReader s Option.none)
  | _ => Option.none

/-- It replaces the whole response. -/
def IsReplace : RespOp σ → Prop
  | .replace _ => True
  | _ => False

/-- A response that is put in place of the old one has a header map. -/
def Ok : RespOp σ → Prop
  | .replace r => r.headers.WF
  | _ => True

/-- The values the operations add to the header `name`, in order. -/
def added (name : Bytes) : List (RespOp σ) → List Bytes
  | [] => []
  | op :: ops => match op.onHeaders with
    | .adds n v => if n = name then v :: added name ops else added name ops
    | _ => added name ops

end RespOp

end Tophat
