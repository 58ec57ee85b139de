import Verif.Spec.Connection
import Verif.Spec.Response
import Verif.Spec.Reach
/-!
# Specification: what is asked of an endpoint

Conditions on the application that some theorems need.
-/

namespace Tophat

section
variable {σ : Type} [AsyncBufRead σ] [LawfulBufRead σ]

/-- The response can be sent at time `now`: its header map is one, a declared length is not larger than the body (and
together with a head fits into `usize`), and it is not one of those with an empty streamed body that trip C03. -/
def Sendable (now : Bytes) (resp : InnerResponse σ) : Prop :=
  resp.headers.WF ∧
  match resp.length with
  | some n => 8192 + n < usizeLimit ∧ n ≤ (rem resp.body).length
  | none => rem resp.body ≠ [] ∨
      (Spec.responseHead resp.version resp.status resp.headers none now).length % 8192 ∉ [8188, 8189]

end

/-- The error response of a `Glitch` can be sent. -/
def Glitch.Ok (g : Glitch) : Prop :=
  (∀ hs, g.headers = some hs → hs.WF) ∧ 8192 + ((g.message.getD []).length + 1 + (g.trace.getD []).length) < usizeLimit

/-- The answer is not an error. -/
def RPoll.good : RPoll → Bool
  | .err _ => false
  | _ => true

/-- The answer to a read with a buffer of `k` bytes has at most `k` bytes. -/
def RPoll.Fits (k : Nat) : RPoll → Prop
  | .data bs => bs.length ≤ k
  | _ => True

/-- The number of bytes handed out. -/
def RPoll.size : RPoll → Nat
  | .data bs => bs.length
  | _ => 0

/-- The rest of an endpoint is well-behaved as long as the body has no more than `B` bytes left: it does not read the body again after a read has failed, and its
`Glitch`es can be sent.  `alive`: no read has failed yet. -/
def After.Tame : {b : Bool} → After b → Bool → Nat → Prop
  | _, .read k next, alive, B => alive = true ∧ ∀ p, p.Fits k → p.size ≤ B → (next p).Tame p.good (B - p.size)
  | _, .ok, _, _ => True
  | _, .glitch g, _, _ => g.Ok

section
variable {σ : Type} [AsyncBufRead σ] [LawfulBufRead σ]

/-- An endpoint is well-behaved as long as the body has no more than `B` bytes left: it does not read the body again after a read has failed, and what it sends can be sent. -/
def Prog.Tame (now : Bytes) : Prog σ → Bool → Nat → Prop
  | .read k next, alive, B => alive = true ∧ ∀ p, p.Fits k → p.size ≤ B → (next p).Tame now p.good (B - p.size)
  | .send resp onOk onErr, alive, B => Sendable now resp ∧ (∀ a, (onOk a).Tame alive B) ∧ ∀ e, (onErr e).Tame alive B
  | .sendFor _ resp onOk onErr onDrop, alive, B => Sendable now resp ∧ (∀ a, (onOk a).Tame alive B) ∧ (∀ e, (onErr e).Tame alive B) ∧ onDrop.Tame alive B
  | .glitch g, _, _ => g.Ok

/-- The endpoint is well-behaved for all requests whose bodies have no more than `B` bytes. -/
def Endpoint.Tame (env : Env) (endpoint : Endpoint σ) (B : Nat) : Prop := ∀ n head len, (endpoint head len).Tame (env.now n) true B

/-- The endpoint is well-behaved for all requests whose bodies have no more bytes than the connection `r` has to give, now or after any number of reads. -/
def Endpoint.TameOn {ρ : Type} [AsyncRead ρ] [LawfulRead ρ] (env : Env) (endpoint : Endpoint σ) (r : ρ) : Prop :=
  ∀ r', Reach r r' → endpoint.Tame env (rem r').length

end

/-- Once its response is sent, the endpoint does not end with a `Glitch`. -/
def After.Quiet : {b : Bool} → After b → Prop
  | _, .read _ next => ∀ p, (next p).Quiet
  | _, .ok => True
  | _, .glitch _ => False

section
variable {σ : Type} [AsyncBufRead σ] [LawfulBufRead σ]

/-- The endpoint does not fail once a response of its own has been sent, does not give up sending it, and the bodies of its responses do not fail and
are as long as declared. -/
def Prog.OneAnswer : Prog σ → Prop
  | .read _ next => ∀ p, (next p).OneAnswer
  | .send resp onOk _ => resp.headers.WF ∧ fin resp.body = none ∧ (∀ n, resp.length = some n → 8192 + n < usizeLimit) ∧ ∀ a, (onOk a).Quiet
  | .sendFor _ _ _ _ _ => False
  | .glitch g => g.Ok

end

/-- The endpoint answers with a response that fulfils `P`, unless a read of the body fails, does not give up sending it, and does not fail afterwards. -/
def Prog.Answers {σ : Type} (P : InnerResponse σ → Prop) : Prog σ → Prop
  | .read _ next => ∀ p, (∀ e, p ≠ .err e) → (next p).Answers P
  | .send resp onOk _ => P resp ∧ ∀ a, (onOk a).Quiet
  | .sendFor _ _ _ _ _ => False
  | .glitch _ => False

/-- The endpoint answers with a response that fulfils `P`, without giving up, and does not fail afterwards, if what is left of the body are the bytes `left`, delivered in any pieces and with at most `m` delays. -/
def Prog.AnswersTo {σ : Type} (P : InnerResponse σ → Prop) : Prog σ → Nat → Bytes → Prop
  | .read k next, m, left => (0 < m → (next .pending).AnswersTo P (m - 1) left) ∧
      ∀ bs rest, left = bs ++ rest → bs.length ≤ k → (bs = [] → k = 0 ∨ rest = []) → (next (.data bs)).AnswersTo P m rest
  | .send resp onOk _, _, _ => P resp ∧ ∀ a, (onOk a).Quiet
  | .sendFor _ _ _ _ _, _, _ => False
  | .glitch _, _, _ => False

/-- If the endpoint ends with a `Glitch`, its error response can be sent. -/
def After.GlitchOk : {b : Bool} → After b → Prop
  | _, .read _ next => ∀ p, (next p).GlitchOk
  | _, .ok => True
  | _, .glitch g => g.Ok

/-- Whatever it finds when it reads the body, the endpoint sends a response that fulfils `P`; and if sending fails, it ends with an error whose response can be sent. -/
def Prog.Tries {σ : Type} (P : InnerResponse σ → Prop) : Prog σ → Prop
  | .read _ next => ∀ p, (next p).Tries P
  | .send resp _ onErr => P resp ∧ ∀ e, (onErr e).GlitchOk
  | .sendFor _ _ _ _ _ => False
  | .glitch _ => False

/-- Whatever it finds when it reads the body, the endpoint sends a response that fulfils `P`, but may give up before it is sent; if sending fails or it gives up, it ends with an error whose response can be sent;
and it does not fail once its response is sent. -/
def Prog.Hurries {σ : Type} (P : InnerResponse σ → Prop) : Prog σ → Prop
  | .read _ next => ∀ p, (next p).Hurries P
  | .send resp onOk onErr => P resp ∧ (∀ a, (onOk a).Quiet) ∧ ∀ e, (onErr e).GlitchOk
  | .sendFor _ resp onOk onErr onDrop => P resp ∧ (∀ a, (onOk a).Quiet) ∧ (∀ e, (onErr e).GlitchOk) ∧ onDrop.GlitchOk
  | .glitch _ => False

/-- The endpoint does not answer before it has read `left` more bytes of the body.  (It may be put off by at most `m`
`Pending`s.) -/
def Prog.Drains {σ : Type} : Prog σ → Nat → Nat → Prop
  | .read k next, m, left => 0 < k ∧ (0 < m → (next .pending).Drains (m - 1) left) ∧
      ∀ bs, (bs ≠ [] ∨ left = 0) → bs.length ≤ left → bs.length ≤ k → (next (.data bs)).Drains m (left - bs.length)
  | .send _ _ _, _, left => left = 0
  | .sendFor _ _ _ _ _, _, left => left = 0
  | .glitch _, _, left => left = 0

/-- The endpoint does not read the body, once its response is sent or has failed. -/
def After.Shut : {b : Bool} → After b → Prop
  | _, .read _ _ => False
  | _, .ok => True
  | _, .glitch _ => True

/-- The endpoint does not read the body any more. -/
def Prog.Shut {σ : Type} : Prog σ → Prop
  | .read _ _ => False
  | .send _ onOk onErr => (∀ a, (onOk a).Shut) ∧ ∀ e, (onErr e).Shut
  | .sendFor _ _ onOk onErr onDrop => (∀ a, (onOk a).Shut) ∧ (∀ e, (onErr e).Shut) ∧ onDrop.Shut
  | .glitch _ => True

/-- The endpoint reads the body, of which `left` bytes are left, with non-empty buffers until its end is reported, and then not again; it may be put off by at most `m` `Pending`s. -/
def Prog.ReadsOut {σ : Type} : Prog σ → Nat → Nat → Prop
  | .read k next, m, left => 0 < k ∧ (0 < m → (next .pending).ReadsOut (m - 1) left) ∧
      (∀ bs, bs ≠ [] → bs.length ≤ left → bs.length ≤ k → (next (.data bs)).ReadsOut m (left - bs.length)) ∧ (left = 0 → (next (.data [])).Shut)
  | .send _ _ _, _, _ => False
  | .sendFor _ _ _ _ _, _, _ => False
  | .glitch _, _, _ => False

end Tophat
