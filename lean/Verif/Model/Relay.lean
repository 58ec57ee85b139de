import Verif.Model.Accept
/-!
# An endpoint that answers with the body of the request

`Prog` (Model/Accept.lean) has response bodies that are independent of the connection.  Here is the endpoint whose response body *is* the body of the request, passed on while
it arrives: `|req, mut resp_wtr| async { …; resp_wtr.set_body(req.into_body()); resp_wtr.send().await? }`.
-/

namespace Tophat

section
variable {σ : Type} [AsyncBufRead σ]

/-- `InnerResponse::send` to its end, and what is left of the body then.  Models src/server/response_writer.rs:59-76, as `sendFully` does. -/
def sendBody (env : Env) (fuel n : Nat) (resp : InnerResponse σ) (w : Writer) : Run (σ × Writer × CopyRes) := do
  let (s, r) ← copyGo (Encoder.poll env.hexLen (env.now n)) fuel (CopyState.init (Encoder.encode resp) w)
  if r = .running then .diverge else .ret (s.enc.resp.body, s.writer, r)

end

section
variable {ρ : Type} [AsyncRead ρ]

/-- `resp_wtr.set_body(req.into_body())` and `resp_wtr.send()`: the body keeps its declared length (src/body.rs:17, src/server/response_writer.rs:168-171).  `io` is the connection after the
response, and with it the body and its buffers, has been dropped.  src/server/response_writer.rs:122-137. -/
def passOn (env : Env) (fuel n : Nat) (status : StatusCode) (hs : HeaderMap) (req : Request ρ) (w : Writer) : Run (ρ × Writer × CopyRes) :=
  match req.body with
  | .fixed t => do
    let (t, w, r) ← sendBody env fuel n ⟨status, hs, .http11, t, req.length⟩ w
    .ret ((ReqBody.fixed t).io, w, r)
  | .chunked b => do
    let (b, w, r) ← sendBody env fuel n ⟨status, hs, .http11, b, req.length⟩ w
    .ret ((ReqBody.chunked b).io, w, r)

/-- `resp_wtr.send().await?`, src/server/glitch.rs:59-66: an error of `send` becomes the endpoint's `Glitch`. -/
def orGlitch (fails : IoErr → Glitch) : CopyRes → Option Glitch
  | .err e => some (fails e)
  | _ => none

/-- src/server/mod.rs:59-102, one iteration of the loop of `accept_with_opts`, for the endpoint that passes the body on with a status and headers of its choice (`answer`), and turns an error of `send` into
a `Glitch` (`fails`). -/
def relayStep (env : Env) (opts : ServerOpts) (answer : ReqHead → StatusCode × HeaderMap) (fails : IoErr → Glitch) (fuel n : Nat) (c : Conn ρ) :
    Run (Conn ρ × List Event × Option AcceptRes) := do
  let (w, clock, a) ← awaitDecode env opts fuel (env.pool n) fuel (DecFut.start c.rd) c.wr c.clock
  match a with
  | .timedOut io => .ret (⟨io, w, clock⟩, interimEvent c.wr w, some .ok)
  | .ready (.none io) => .ret (⟨io, w, clock⟩, interimEvent c.wr w, some .ok)
  | .ready (.fail f io) => do
    let (w', ev) ← answerFail env fuel n f w
    .ret (⟨io, w', clock⟩, interimEvent c.wr w ++ ev, (failError f).map .err)
  | .ready (.request req) => do
    let (io, w1, r) ← passOn env fuel n (answer req.head).1 (answer req.head).2 req w
    let (w2, ev2) ← answerGlitch env opts fuel n (orGlitch fails r) w1
    .ret (⟨io, w2, clock⟩, interimEvent c.wr w ++ .call req.head req.length :: wroteSince w w1 :: ev2, none)

end

end Tophat
