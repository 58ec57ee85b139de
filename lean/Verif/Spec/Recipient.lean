import Verif.Spec.Reply
import Verif.Spec.Endpoint
import Verif.Spec.Glitch
/-!
# Specification: what a recipient reads out of a stream of responses

RFC 7230 section 3.3.3: how the recipient of a response finds out where it ends.  Independent of the model of the client.
-/

namespace Tophat.Spec

/-- The response ends with its head, whatever the head says (RFC 7230 section 3.3.3, items 1 and 2): the answer to HEAD, the statuses 1xx, 204 and 304, and a successful answer to CONNECT. -/
def Bodiless (method : Bytes) (code : Nat) : Prop :=
  method = ascii "HEAD" ∨ code < 200 ∨ code = 204 ∨ code = 304 ∨ (method = ascii "CONNECT" ∧ 200 ≤ code ∧ code < 300)

/-- A header value without the blanks in front of it, which are not part of it (RFC 7230 section 3.2.4). -/
def trimmed (v : Bytes) : Bytes := v.dropWhile fun b => b == 32 || b == 9

/-- A decimal number. -/
def Decimal (v : Bytes) (n : Nat) : Prop := v ≠ [] ∧ (∀ b ∈ v, 48 ≤ b.toNat ∧ b.toNat ≤ 57) ∧ decNum v = n

/-- `OneReply method s code fs body`: for a recipient that has asked with the given method, the bytes `s` are one complete response, with the status `code`, the header fields `fs` and the
given body.  (The responses that end only with the connection, item 7 of RFC 7230 section 3.3.3, are left out: nothing tells their end.) -/
inductive OneReply (method : Bytes) : Bytes → Nat → List (Bytes × Bytes) → Bytes → Prop
  | bodiless {h code fs} : ReplyHead h 1 code fs → Bodiless method code → OneReply method h code fs []
  | chunked {h code fs v b body trailer} : ReplyHead h 1 code fs → ¬ Bodiless method code →
      (valuesOf (ascii "transfer-encoding") fs).getLast? = some v → lower v = ascii "chunked" → Body b body trailer →
      OneReply method (h ++ b) code fs body
  | length {h code fs body} : ReplyHead h 1 code fs → ¬ Bodiless method code → valuesOf (ascii "transfer-encoding") fs = [] →
      valuesOf (ascii "content-length") fs ≠ [] → (∀ v ∈ valuesOf (ascii "content-length") fs, Decimal v body.length) →
      OneReply method (h ++ body) code fs body

/-- A response as it is read. -/
structure Answer where
  code : Nat
  fields : List (Bytes × Bytes)
  body : Bytes
  deriving DecidableEq

/-- `Replies ms s as`: a recipient that has asked with the methods `ms` (`none`: with any method) reads the byte stream `s` as exactly the final responses `as`, one for each request, each possibly
preceded by interim responses (status 1xx). -/
inductive Replies : List (Option Bytes) → Bytes → List Answer → Prop
  | nil : Replies [] [] []
  | interim {m ms s code fs r as} : code < 200 → (∀ m', (m = none ∨ m = some m') → OneReply m' s code fs []) → Replies (m :: ms) r as → Replies (m :: ms) (s ++ r) as
  | final {m ms s code fs b r as} : 200 ≤ code → (∀ m', (m = none ∨ m = some m') → OneReply m' s code fs b) → Replies ms r as →
      Replies (m :: ms) (s ++ r) (⟨code, fs, b⟩ :: as)

/-- The header fields of a response sent at time `now`, as they are read. -/
def seenFields (hs : HeaderMap) (len : Option Nat) (now : Bytes) : List (Bytes × Bytes) :=
  (sentFields hs len now).map fun f => (f.1, trimmed f.2)

/-- The bytes of the body that belong to the response. -/
def sentBody (len : Option Nat) (body : Bytes) : Bytes :=
  match len with
  | some n => body.take n
  | none => body

end Tophat.Spec

namespace Tophat
open Spec

section
variable {σ : Type} [AsyncBufRead σ] [LawfulBufRead σ]

/-- The response is an HTTP/1.1 response that can be told from what follows it: a final status, headers that the `http` crate can represent, and no body where the recipient does not expect one. -/
structure Legible (method : Bytes) (resp : InnerResponse σ) : Prop where
  version : resp.version = .http11
  status : 200 ≤ resp.status ∧ resp.status < 1000
  wf : resp.headers.WF
  valid : resp.headers.Valid
  limit : ∀ n, resp.length = some n → 8192 + n < usizeLimit
  stream : resp.length = none → (rem resp.body).length < 2 ^ 64
  bodiless : Bodiless method resp.status → resp.length = some 0

/-- The same for a `Glitch`. -/
structure Glitch.Legible (method : Bytes) (verbose : Bool) (g : Glitch) : Prop where
  ok : g.Ok
  version : g.version = none ∨ g.version = some .http11
  status : ∀ st, g.status = some st → 200 ≤ st ∧ st < 1000
  valid : ∀ hs, g.headers = some hs → hs.Valid
  bodiless : Bodiless method (g.status.getD 500) → Spec.glitchBody verbose g.message g.trace = []

/-- All that the endpoint may answer a request with the given method is legible, the body of its response does not fail, it does not give up sending it, and it does not fail once its response is sent. -/
def Prog.Legible (method : Bytes) (verbose : Bool) : Prog σ → Prop
  | .read _ next => ∀ p, (next p).Legible method verbose
  | .send resp onOk _ => Tophat.Legible method resp ∧ fin resp.body = none ∧ ∀ a, (onOk a).Quiet
  | .sendFor _ _ _ _ _ => False
  | .glitch g => g.Legible method verbose

/-- `msg` is what the endpoint has answered to a request with the given method, having done the reads `rs` of the body (some of them possibly after it had sent its response): the recipient reads
exactly the response that the endpoint sent (status, headers and what tophat adds to them, body), or that of the `Glitch` it returned. -/
def Answered (m : Bytes) (verbose : Bool) (now : Bytes) (a : Prog σ) (rs : List (Nat × RPoll)) (msg : Bytes) : Prop :=
  (∃ before after resp onOk onErr, rs = before ++ after ∧ a.afterReads before = some (.send resp onOk onErr) ∧
    OneReply m msg resp.status (seenFields resp.headers resp.length now) (sentBody resp.length (rem resp.body))) ∨
  ∃ g hs, a.afterReads rs = some (.glitch g) ∧ GlitchHeaders (g.headers.getD []) (glitchBody verbose g.message g.trace) hs ∧
    OneReply m msg (g.status.getD 500) (seenFields hs (some (glitchBody verbose g.message g.trace).length) now) (glitchBody verbose g.message g.trace)

end

end Tophat
