import Verif.Proofs.Glitch
import Verif.Props.ServerDecode
/-!
# Properties C34 – C36: error responses
-/

set_option linter.unusedSectionVars false
set_option synthInstance.maxSize 1000

namespace Tophat
open Spec

section
variable {ρ : Type} [AsyncRead ρ] [LawfulRead ρ] {σ : Type} [AsyncBufRead σ]

/-! ## C34 and C36 -/

/-- **C34, C36**: if the endpoint was called and, after the reads it did, returned the Glitch `g` without having sent a
response, then (on a transport that does not fail) exactly this was written after the call: one response with the status
of `g` or else 500, the version of `g` or else HTTP/1.1, the headers of `g` with content type `text/plain` if there is a
body, the exact content length, and as body the message and (in verbose mode only) the error text.  On a transport that
fails, a prefix of that was written.  The connection is kept open. -/
theorem C34_response {env : Env} (hx : HexLenOk env.hexLen) {opts : ServerOpts} {endpoint : Endpoint σ} {fuel n : Nat} {c c' : Conn ρ}
    {ev : List Event} {res : Option AcceptRes} (hs : acceptStep env opts endpoint fuel n c = .ret (c', ev, res)) {head : ReqHead} {len : Option Nat}
    (hc : .call head len ∈ ev) {g : Glitch} (hg : g.Ok) (hf : (endpoint head len).afterReads (bodyReads ev) = some (.glitch g)) :
    res = none ∧ ∃ i after hs, ev = interim i ++ .call head len :: after ∧
      GlitchHeaders (g.headers.getD []) (glitchBody opts.verboseGlitch g.message g.trace) hs ∧
      let response := responseHead (g.version.getD .http11) (g.status.getD 500) hs (some (glitchBody opts.verboseGlitch g.message g.trace).length) (env.now n) ++
        glitchBody opts.verboseGlitch g.message g.trace
      written after <+: response ∧ (c.wr.Reliable → written after = response) := by
  obtain ⟨r0, h, i, fs, hv⟩ := call_inv (acceptStep_spec hx hs) hc
  obtain ⟨used, body, body', w1, w2, ev1, g', ev2, a1, a2, a3, a4, a5, a6, a7⟩ := hv.run
  have e2 : bodyReads ev2 = [] := by
    unfold answerGlitch at a5
    split at a5
    · simp only [Run.ret.injEq, Prod.mk.injEq] at a5; rw [← a5.2]; rfl
    · obtain ⟨⟨w3, r⟩, _, h2⟩ := Run.bind_eq_ret.1 a5
      simp only [Run.ret.injEq, Prod.mk.injEq] at h2; rw [← h2.2]; rfl
  have e3 : bodyReads ev = bodyReads ev1 := by
    rw [a7, bodyReads_append]
    have : bodyReads (Spec.interim i) = [] := by cases i <;> rfl
    rw [this, List.nil_append]
    show bodyReads (ev1 ++ ev2) = _
    rw [bodyReads_append, e2, List.append_nil]
  rw [e3] at hf
  obtain ⟨rfl, rfl, f3⟩ := runProg_glitch _ _ _ _ _ _ _ a4 hf
  refine ⟨r0, _, _, _, a7, glitch_headers hg.1 opts.verboseGlitch, ?_⟩
  rw [written_append, f3, List.nil_append]
  simp only [answerGlitch] at a5
  obtain ⟨⟨w3, r⟩, h1, h2⟩ := Run.bind_eq_ret.1 a5
  simp only [Run.ret.injEq, Prod.mk.injEq] at h2
  obtain ⟨rfl, rfl⟩ := h2
  rcases sendFully_memory hx (glitch_memory hg opts.verboseGlitch) fuel n w2 with ⟨k, _⟩ | ⟨w', r', k1, k2, _⟩
  · rw [h1] at k; cases k
  · rw [h1] at k1
    simp only [Run.ret.injEq, Prod.mk.injEq] at k1
    obtain ⟨rfl, rfl⟩ := k1
    obtain ⟨d1, d2, d3, d4⟩ := k2
    rename_i sent used'
    have e4 : written [wroteSince w2 c'.wr] = sent := by
      simp only [written, wroteSince, d1, List.drop_left, List.append_nil]
    have e5 : wireOf (g.intoInnerResponse opts.verboseGlitch) (env.now n) =
        responseHead (g.version.getD .http11) (g.status.getD 500) (g.intoInnerResponse opts.verboseGlitch).headers
          (some (glitchBody opts.verboseGlitch g.message g.trace).length) (env.now n) ++ glitchBody opts.verboseGlitch g.message g.trace := by
      rw [← glitchBody_eq]; rfl
    rw [e4, ← e5]
    refine ⟨d2, fun hr => d4 fun e he => hr e ?_⟩
    rw [a2]
    exact List.mem_append_right _ he

/-! ## C35 -/

/-- **C35**: unless `verbose_glitch` is set, nothing observable depends on the errors: with two endpoints that behave alike
but for the texts of the errors their Glitches were made from, every connection, however it behaves, sees the same. -/
theorem C35_no_leak {env : Env} {opts : ServerOpts} (ho : opts.verboseGlitch = false) {endpoint endpoint' : Endpoint σ}
    (he : ∀ head len, (endpoint head len).SameButErrors (endpoint' head len)) (fuel it n : Nat) (c : Conn ρ) :
    acceptGo env opts endpoint fuel it n c = acceptGo env opts endpoint' fuel it n c :=
  acceptGo_same ho he fuel it n c

end

/-- How the Glitches of the two endpoints below come about: `?` on an error with the given text. -/
def failing (error : Bytes) : Endpoint Cursor := fun _ _ => .read 1 fun _ => .glitch (.newWithErr error)

/-- `failing` with two error texts meets the hypothesis of `C35_no_leak`. -/
example (head : ReqHead) (len : Option Nat) : (failing (ascii "db password wrong: hunter2") head len).SameButErrors (failing (ascii "disk full") head len) :=
  .read _ _ _ fun _ => .glitch ⟨rfl, rfl, rfl, rfl⟩

/-! ## How Glitches are made (C34) -/

/-- **C34**: the status that a Glitch is answered with, the message and the error text, for each way to make one. -/
theorem C34_constructors (status : StatusCode) (error context : Bytes) :
    (let g := Glitch.new; g.status.getD 500 = 500 ∧ g.message = none ∧ g.trace = none) ∧
    (let g := Glitch.badRequest; g.status.getD 500 = 400 ∧ g.message = none ∧ g.trace = none) ∧
    (let g := Glitch.newWithErr error; g.status.getD 500 = 500 ∧ g.message = none ∧ g.trace = some error) ∧
    (let g := Glitch.ofStatus status; g.status.getD 500 = status ∧ g.message = none ∧ g.trace = none) ∧
    (let g := Glitch.ofStatusMessage status context; g.status.getD 500 = status ∧ g.message = some context ∧ g.trace = none) := by
  simp [Glitch.new, Glitch.badRequest, Glitch.newWithErr, Glitch.ofStatus, Glitch.ofStatusMessage, Glitch.setStatus, Glitch.setMessage]

/-- **C34**: `glitch_code!(code, message)` panics exactly for numbers outside 100 to 999. -/
theorem C34_code (code : Nat) (message : Bytes) :
    (Glitch.ofCodeMessage code message = .panic ↔ ¬ (100 ≤ code ∧ code ≤ 999)) ∧
    ∀ g, Glitch.ofCodeMessage code message = .ret g → g.status = some code ∧ g.message = some message ∧ g.headers = none ∧ g.version = none ∧ g.trace = none := by
  unfold Glitch.ofCodeMessage statusFromU16
  by_cases h : 100 ≤ code ∧ code < 1000
  · have h' : 100 ≤ code ∧ code ≤ 999 := by omega
    simp only [h, and_self, if_true, h', not_true_eq_false, iff_false]
    refine ⟨by simp, fun g hg => ?_⟩
    simp only [Run.ret.injEq] at hg
    subst hg
    exact ⟨rfl, rfl, rfl, rfl, rfl⟩
  · have h' : ¬ (100 ≤ code ∧ code ≤ 999) := by omega
    simp [h, h']

/-- **C34**: the methods of `GlitchExt` leave an `Ok` or `Some` alone, without computing the context; otherwise they give a
Glitch with the given status and context as message; that of an `Err` with context also has the text of the error. -/
theorem C34_ext {α : Type} (status : StatusCode) (context : Bytes) (f : Unit → Run Bytes) (a : α) (e : Bytes) :
    (Glitch.onResult (.ok a) status = .ok a ∧ Glitch.onResultCtx (.ok a) status context = .ok a ∧ Glitch.onResultWithCtx (.ok a) status f = .ret (.ok a) ∧
     Glitch.onOption (some a) status = .ok a ∧ Glitch.onOptionCtx (some a) status context = .ok a ∧ Glitch.onOptionWithCtx (some a) status f = .ret (.ok a)) ∧
    (Glitch.onResult (.error e : Except Bytes α) status = .error ⟨some status, none, none, none, none⟩ ∧
     Glitch.onResultCtx (.error e : Except Bytes α) status context = .error ⟨some status, none, none, some context, some e⟩ ∧
     Glitch.onOption (none : Option α) status = .error ⟨some status, none, none, none, none⟩ ∧
     Glitch.onOptionCtx (none : Option α) status context = .error ⟨some status, none, none, some context, none⟩) ∧
    (f () = .ret context →
     Glitch.onResultWithCtx (.error e : Except Bytes α) status f = .ret (.error ⟨some status, none, none, some context, some e⟩) ∧
     Glitch.onOptionWithCtx (none : Option α) status f = .ret (.error ⟨some status, none, none, some context, none⟩)) ∧
    (f () = .panic → Glitch.onResultWithCtx (.error e : Except Bytes α) status f = .panic ∧ Glitch.onOptionWithCtx (none : Option α) status f = .panic) := by
  refine ⟨⟨rfl, rfl, rfl, rfl, rfl, rfl⟩, ⟨rfl, rfl, rfl, rfl⟩, fun h => ?_, fun h => ?_⟩ <;>
    simp [Glitch.onResultWithCtx, Glitch.onOptionWithCtx, h, Glitch.newWithStatusErrContext, Glitch.newWithStatusContext]

/-! ## C36 -/

/-- **C36**: without verbose mode the body is the message; in verbose mode it is the message, newline, error text; just the
error text if there is no (or an empty) message; just the message if there is no error text. -/
theorem C36_body (g : Glitch) (m e : Bytes) :
    (g.message = some m → (g.intoInnerResponse false).body.left = m) ∧
    (g.message = none → (g.intoInnerResponse false).body.left = []) ∧
    (g.message = some m → m ≠ [] → g.trace = some e → (g.intoInnerResponse true).body.left = m ++ [10] ++ e) ∧
    (g.message = none ∨ g.message = some [] → g.trace = some e → (g.intoInnerResponse true).body.left = e) ∧
    (g.message = some m → g.trace = none → (g.intoInnerResponse true).body.left = m) ∧
    (∀ v, (g.intoInnerResponse v).length = some (g.intoInnerResponse v).body.left.length) := by
  have hb : ∀ v, (g.intoInnerResponse v).body.left = g.bodyText v := fun v => rfl
  simp only [hb, Glitch.bodyText]
  refine ⟨?_, ?_, ?_, ?_, ?_, fun v => rfl⟩
  · intro h; simp [h]
  · intro h; simp [h]
  · intro h h' h''; simp [h, h', h'']
  · rintro (h | h) h' <;> simp [h, h']
  · intro h h'; simp [h, h']

/-- **C36**: the content type of the error response is `text/plain` exactly if the body is non-empty or the Glitch's own
headers say so. -/
theorem C36_content_type {g : Glitch} (hg : ∀ hs, g.headers = some hs → hs.WF) (v : Bool) :
    (g.intoInnerResponse v).headers.getAll (ascii "content-type") = [ascii "text/plain"] ↔
      (g.intoInnerResponse v).body.left ≠ [] ∨ (g.headers.getD []).getAll (ascii "content-type") = [ascii "text/plain"] := by
  rw [(glitch_headers hg v).2, show (g.intoInnerResponse v).body.left = glitchBody v g.message g.trace from glitchBody_eq g v]
  by_cases h : glitchBody v g.message g.trace = [] <;> simp [h]

/-! ## A case -/

/-- An endpoint that reads once and then fails with a context. -/
def failsAfterRead : Endpoint Cursor := fun _ _ => .read 4 fun p =>
  match p with
  | .data bs => .glitch (.newWithStatusErrContext 409 (ascii "secret") (ascii "got " ++ bs))
  | _ => .glitch .new

/-- A POST request with three bytes of body; the transport takes 5 bytes, then pauses. -/
def failConn : Conn Script := ⟨[.data (ascii "POST / HTTP/1.1\r\nHost: x\r\nContent-Length: 3\r\n\r\nabc")], ⟨[.accept 5, .pending], [], 0⟩, []⟩

/-- What is observed in one step with `failsAfterRead`. -/
def failEvents (verbose : Bool) : Run (List Event) := do
  let (_, ev, _) ← acceptStep demoEnv ⟨false, verbose⟩ failsAfterRead 500 0 failConn
  .ret ev

/-- The hypotheses of `C34_response` are met, and this is what it says. -/
example : failEvents false = .ret [.call ⟨ascii "POST", ascii "/", [(ascii "host", [ascii "x"]), (ascii "content-length", [ascii "3"])]⟩ (some 3), .got 4 (.data (ascii "abc")),
      .wrote (responseHead .http11 409 [(ascii "content-type", [ascii "text/plain"])] (some 7) (demoEnv.now 0) ++ ascii "got abc")] ∧
    (failsAfterRead ⟨ascii "POST", ascii "/", []⟩ (some 3)).afterReads [(4, .data (ascii "abc"))] =
      some (.glitch (.newWithStatusErrContext 409 (ascii "secret") (ascii "got abc"))) ∧
    (Glitch.newWithStatusErrContext 409 (ascii "secret") (ascii "got abc")).Ok := by
  refine ⟨by decide +kernel, rfl, by simp [Glitch.newWithStatusErrContext], by decide⟩

/-- With `verbose_glitch`, the error text is shown. -/
example : failEvents true = .ret [.call ⟨ascii "POST", ascii "/", [(ascii "host", [ascii "x"]), (ascii "content-length", [ascii "3"])]⟩ (some 3), .got 4 (.data (ascii "abc")),
      .wrote (responseHead .http11 409 [(ascii "content-type", [ascii "text/plain"])] (some 14) (demoEnv.now 0) ++ ascii "got abc\nsecret")] := by
  decide +kernel

/-- `C36_content_type` with headers of its own. -/
example : ∀ hs, (⟨none, some [(ascii "content-type", [ascii "text/html"])], none, none, none⟩ : Glitch).headers = some hs → hs.WF := by
  intro hs h; injection h with h; subst h; exact ⟨by decide, by decide⟩

end Tophat
