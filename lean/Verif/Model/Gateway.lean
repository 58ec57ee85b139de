import Verif.Model.Relay
import Verif.Model.Client
/-!
# An endpoint that answers with a response it has fetched

`|req, mut resp_wtr| async { *resp_wtr.response_mut() = connect(upstream, upstream_req).await?; resp_wtr.send().await }`, as the documentation of `response_mut` (src/server/response_writer.rs:197-214) suggests.
-/

namespace Tophat

section
variable {ρ : Type} [AsyncRead ρ]

/-- `*resp_wtr.response_mut() = res` and `resp_wtr.send()`: status, headers, body and declared length are those of `res`; the version of a response that `connect` returns is HTTP/1.1.
src/server/response_writer.rs:122-133, 212-214.  (The request head given to `passOn` is not used by it.) -/
def forward (env : Env) (fuel n : Nat) (res : ClientResponse ρ) (w : Writer) : Run (Writer × CopyRes) :=
  match res.body with
  | .empty => sendFully env fuel n ⟨res.status, res.headers, .http11, (⟨[]⟩ : Cursor), res.length⟩ w
  | .stream b => do
    let (_, w, r) ← passOn env fuel n res.status res.headers ⟨⟨[], [], []⟩, b, res.length⟩ w
    .ret (w, r)

/-- How the endpoint ends: `connect` failed (and `?` makes a Glitch of the error, src/server/glitch.rs:59-66), or the response was sent, with the result of `send`. -/
inductive GatewayRes
  | failed (e : ClientErr)
  | sent (r : CopyRes)
  deriving DecidableEq, Repr

/-- The endpoint, stopped after `fuel` steps of the request and of the response to it, or `fuel'` of sending.  `now` is the time at which the response arrives, `up` the write half of the connection to the other server, `io` its read half, `w` the connection to the client.
src/client/mod.rs:15-26, src/server/response_writer.rs:122-133. -/
def gateway {σ : Type} [AsyncRead σ] (env : Env) (now : Bytes) (fuel fuel' n : Nat) (req : ClientRequest σ) (io : ρ) (up w : Writer) : Run (Writer × Writer × GatewayRes) := do
  let (up, x) ← connect now (env.pool n) fuel fuel req io up
  match x with
  | .done (.ok res) => do
    let (w, r) ← forward env fuel' n res w
    .ret (up, w, .sent r)
  | .done (.err e) => .ret (up, w, .failed e)
  | _ => .diverge

end

end Tophat
