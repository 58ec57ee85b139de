import Verif.Spec.KeepAlive
import Verif.Spec.Response
import Verif.Spec.Within
import Verif.Spec.Reply
import Verif.Model.Client
import Verif.Model.Body
/-!
# Specification: a client that makes several requests on one connection
-/

namespace Tophat.Spec

/-- The events `g` (fragments and pauses, no error) deliver the bytes `b`, and nothing else. -/
def Brings (g : Script) (b : Bytes) : Prop := Script.ending g = none ∧ Script.bytes g = b

/-- What the server wrote, one entry for each time that it sent a response. -/
def responses : List Event → List Bytes
  | [] => []
  | .wrote bs :: ev => bs :: responses ev
  | _ :: ev => responses ev

/-- A response as an application means it, and as another application has it after `into_bytes`. -/
structure Fetched where
  status : StatusCode
  headers : HeaderMap
  body : Bytes

/-- The application sends `r`, with its length. -/
def Fetched.SentAs {σ : Type} [AsyncBufRead σ] [LawfulBufRead σ] (r : Fetched) (resp : InnerResponse σ) : Prop :=
  resp.version = .http11 ∧ resp.status = r.status ∧ resp.headers = r.headers ∧ resp.length = some r.body.length ∧ rem resp.body = r.body ∧ fin resp.body = none

/-- The application sends `r` without declaring its length. -/
def Fetched.StreamedAs {σ : Type} [AsyncBufRead σ] [LawfulBufRead σ] (r : Fetched) (resp : InnerResponse σ) : Prop :=
  resp.version = .http11 ∧ resp.status = r.status ∧ resp.headers = r.headers ∧ resp.length = none ∧ rem resp.body = r.body ∧ fin resp.body = none

/-- The response `bs`, with the body `body`, has little framing: it has at most 4096 bytes, or the chunk headers behind its head fit into 4096 bytes together with the bytes that come in between (`Roomy`). -/
def SmallFraming (body bs : Bytes) : Prop := bs.length ≤ 4096 ∨ ∃ head wire, bs = head ++ wire ∧ FirstReply bs head ∧ Roomy wire body []

/-- The client has got `r`, sent at some time of the server's clock: status, body, and all headers, with those that tophat adds. -/
def Fetched.GotAs (r : Fetched) (clock : Nat → Bytes) (got : Fetched) : Prop :=
  got.status = r.status ∧ got.body = r.body ∧ ∃ n, MapOf got.headers (sentFields r.headers (some r.body.length) (clock n))

section
variable {α : Type} [AsyncRead α]

/-- What a client writes for its requests, one after the other; `none` if writing one of them fails or is not done after `fuel` steps. -/
def clientSends (fuel : Nat) : List (ClientRequest α) → Writer → Run (Option (List Bytes))
  | [], _ => .ret (some [])
  | req :: reqs, w => do
    let (w', r) ← clientSend fuel req w
    match r with
    | .sent => do
      let rest ← clientSends fuel reqs w'
      .ret (rest.map (w'.got.drop w.got.length :: ·))
    | _ => .ret none

/-- A client that makes requests one after the other on handles of the same connection: it calls `connect`, reads the body of the response with `into_bytes`, and then goes on, with what is
left of the connection.  `none` if one of the calls fails, or is not done after so many steps.  (The body that is not connected to the stream does not come from a tophat server.)
Models no code of tophat but the way of using it, src/client/mod.rs:14-26, src/body.rs:67-73. -/
def clientTalks (now : Bytes) (pool : Pool) (grow : Nat → Nat → Nat) (fuel fuel' fuel'' : Nat) : List (ClientRequest α) → Script → Writer → Run (Option (List Fetched))
  | [], _, _ => .ret (some [])
  | req :: reqs, io, w => do
    let (w, r) ← connect now pool fuel fuel' req io w
    match r with
    | .done (.ok rsp) => do
      let (b, x) ← rsp.toBody.intoBytes grow fuel''
      match b, x with
      | .stream b, .ok bs => do
        let rest ← clientTalks now pool grow fuel fuel' fuel'' reqs b.io w
        .ret (rest.map (⟨rsp.status, rsp.headers, bs⟩ :: ·))
      | _, _ => .ret none
    | _ => .ret none

end

end Tophat.Spec
