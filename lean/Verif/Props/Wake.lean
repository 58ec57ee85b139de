import Verif.Proofs.Wake
import Verif.Props.Accept
import Verif.Props.ClientEncode
/-!
# Property C73: a task that waits is going to be woken
-/

set_option linter.unusedSectionVars false

namespace Tophat

section
variable {ρ : Type} [AsyncRead ρ]

/-- **C73**, reading the body of a request: if the answer is `Pending`, then the transport was asked during this very poll and its last answer
was `Pending`, so it wakes the task.  Also for reading through the buffer. -/
theorem C73_request_body {b b' : ReqBody (Noted ρ)} (hb : b.io.willWake = false) :
    (∀ k, pollRead b k = .ret (b', .pending) → b'.io.willWake = true) ∧ (pollFill b = .ret (b', .pending) → b'.io.willWake = true) := by
  have e : ∀ b : ReqBody (Noted ρ), b.io.willWake = dozes b := fun b => by cases b <;> rfl
  simp only [e] at hb ⊢
  exact ⟨fun k h => Dozing.read_doze h hb, fun h => DozingBuf.fill_doze h hb⟩

/-- **C73**, and if the transport's last answer was not `Pending`, the task is not left waiting: the read is answered. -/
theorem C73_request_body_ready {b b' : ReqBody (Noted ρ)} {k : Nat} {p : RPoll} (hb : b.io.willWake = false)
    (h : pollRead b k = .ret (b', p)) (hr : b'.io.willWake = false) : p ≠ .pending := by
  rintro rfl
  rw [(C73_request_body hb).1 k h] at hr
  cases hr

/-- **C73**, reading the body of a response. -/
theorem C73_response_body {b b' : ReplyBody (Noted ρ)} (hb : ∀ io, b.source = some io → io.willWake = false) :
    (∀ k, pollRead b k = .ret (b', .pending) → ∃ io, b'.source = some io ∧ io.willWake = true) ∧
      (pollFill b = .ret (b', .pending) → ∃ io, b'.source = some io ∧ io.willWake = true) := by
  cases b with
  | empty =>
    refine ⟨fun k h => ?_, fun h => ?_⟩
    · have h : (Run.ret (ReplyBody.empty, RPoll.data []) : Run (ReplyBody (Noted ρ) × RPoll)) = .ret (b', .pending) := h
      simp only [Run.ret.injEq, Prod.mk.injEq] at h
      exact nomatch h.2
    · have h : (Run.ret (ReplyBody.empty, RPoll.data []) : Run (ReplyBody (Noted ρ) × RPoll)) = .ret (b', .pending) := h
      simp only [Run.ret.injEq, Prod.mk.injEq] at h
      exact nomatch h.2
  | stream b =>
    have hb := hb _ rfl
    refine ⟨fun k h => ?_, fun h => ?_⟩
    · obtain ⟨⟨r, q⟩, h1, h2⟩ := Run.bind_eq_ret.1 (show (pollRead b k >>= ReplyBody.ofStream) = _ from h)
      simp only [ReplyBody.ofStream, Run.ret.injEq, Prod.mk.injEq] at h2
      obtain ⟨rfl, rfl⟩ := h2
      exact ⟨_, rfl, (C73_request_body hb).1 k h1⟩
    · obtain ⟨⟨r, q⟩, h1, h2⟩ := Run.bind_eq_ret.1 (show (pollFill b >>= ReplyBody.ofStream) = _ from h)
      simp only [ReplyBody.ofStream, Run.ret.injEq, Prod.mk.injEq] at h2
      obtain ⟨rfl, rfl⟩ := h2
      exact ⟨_, rfl, (C73_request_body hb).2 h1⟩

/-- **C73**, decoding a request: if the future is `Pending`, then either the last answer of the reading half, given during this very poll, was
`Pending`, or the writing half answered the write of the interim response with `Pending` and was not called again. -/
theorem C73_decode {uriOk : Bytes → Bool} {pool : Pool} {fuel : Nat} {f f' : DecFut (Noted ρ)} {w w' : Writer}
    (hf : f.io.willWake = false) (h : f.poll uriOk pool fuel w = .ret (w', .pending f')) : f'.io.willWake = true ∨ w.Blocked w' :=
  decFut_doze h hf

end

section
variable {σ : Type} [AsyncBufRead σ]

/-- **C73**, encoding a response: if the answer is `Pending`, then the body was asked during this very poll and its last answer was `Pending`. -/
theorem C73_response {hexLen : Nat → Nat} {now : Bytes} {e e' : Encoder (Noted σ)} {buf buf' : Bytes} (hb : e.resp.body.willWake = false)
    (h : e.poll hexLen now buf = .ret (e', buf', .pending)) : e'.resp.body.willWake = true :=
  encoder_doze h hb

end

/-- **C73**, encoding a request. -/
theorem C73_request {σ : Type} [AsyncRead σ] {e e' : ClientEncoder (Noted σ)} {buf buf' : Bytes} (hb : e.body.willWake = false)
    (h : e.poll buf = .ret (e', buf', .pending)) : e'.body.willWake = true :=
  clientEncoder_doze h hb

/-- **C73**, server-sent events: if reading is `Pending`, then the stream of the application answered `Pending` and was not polled again. -/
theorem C73_sse {r r' : IntoAsyncRead} :
    (∀ k, r.read k = (r', .pending) → ∃ before, r.stream = before ++ .pending :: r'.stream) ∧
      (r.fill = (r', .pending) → ∃ before, r.stream = before ++ .pending :: r'.stream) :=
  ⟨fun _ => into_read_pending, into_fill_pending⟩

/-! ## Cases that meet the hypotheses -/

/-- A reader that delivers the given fragments, with a note. -/
def notedScript (s : Script) : Noted Script := ⟨s, false⟩

/-- A chunked body: the size line has arrived, but not the chunk. -/
def halfChunk : ReqBody (Noted Script) :=
  .chunked (BufRd.new (ChunkedDecoder.new (BufRd.new (notedScript [.data (ascii "5\r\n"), .pending, .data (ascii "hello\r\n0\r\n\r\n")])) zeroPool))

/-- The answer and the note. -/
def answerAndNote (b : ReqBody (Noted Script)) (k : Nat) : Run (Bool × RPoll) := do
  let (b, p) ← pollRead b k
  .ret (b.io.willWake, p)

/-- The read is `Pending` after the size line was read and decoded in the same poll. -/
example : halfChunk.io.willWake = false ∧ ∃ b', pollRead halfChunk 8 = .ret (b', .pending) ∧ b'.io.willWake = true := by
  refine ⟨rfl, ?_⟩
  have key : answerAndNote halfChunk 8 = .ret (true, .pending) := by decide +kernel
  obtain ⟨⟨b, p⟩, h1, h2⟩ := Run.bind_eq_ret.1 key
  simp only [Run.ret.injEq, Prod.mk.injEq] at h2
  obtain ⟨h3, rfl⟩ := h2
  exact ⟨b, h1, h3⟩

/-- The same as the body of a response. -/
example : ∃ b', pollRead (ReplyBody.stream halfChunk) 8 = .ret (b', .pending) := by
  have key : (pollRead (ReplyBody.stream halfChunk) 8 >>= fun x => .ret (decide (x.2 = .pending))) = .ret true := by decide +kernel
  obtain ⟨⟨b, p⟩, h1, h2⟩ := Run.bind_eq_ret.1 key
  simp only [Run.ret.injEq, decide_eq_true_eq] at h2
  subst h2
  exact ⟨b, h1⟩

/-- Decoding waits for the rest of a head, and for the transport to take the interim response. -/
example : (∃ f' w', (DecFut.start (notedScript [.data getA.dropLast, .pending])).poll (fun _ => true) zeroPool 10 ⟨[], [], 0⟩ = .ret (w', .pending f')) ∧
    ∃ f' w', (DecFut.start (notedScript [.data (ascii "GET / HTTP/1.1\r\nHost: x\r\nExpect: 100-continue\r\n\r\n")])).poll (fun _ => true) zeroPool 10 ⟨[.accept 5, .pending], [], 0⟩ =
      .ret (w', .pending f') := by
  have pick : ∀ {x : Run (Writer × DecPoll (Noted Script))},
      (x >>= fun x => .ret (match x.2 with | .pending _ => true | .ready _ => false)) = .ret true → ∃ f' w', x = .ret (w', .pending f') := by
    intro x h
    obtain ⟨⟨w, p⟩, h1, h2⟩ := Run.bind_eq_ret.1 h
    cases p with
    | pending f => exact ⟨f, w, h1⟩
    | ready r => cases h2
  exact ⟨pick (by decide +kernel), pick (by decide +kernel)⟩

/-- A response whose body is not ready, after the head was sent. -/
example : (Encoder.encode (⟨200, [], .http11, notedScript [.pending, .data (ascii "x")], none⟩ : InnerResponse (Noted Script))).resp.body.willWake = false ∧
    (((Encoder.encode (⟨200, [], .http11, notedScript [.pending, .pending, .data (ascii "x")], none⟩ : InnerResponse (Noted Script))).poll exactHexLen (ascii "NOW") (List.replicate 200 0) >>= fun x =>
      ({ x.1 with resp := { x.1.resp with body := { x.1.resp.body with willWake := false } } }).poll exactHexLen (ascii "NOW") (List.replicate 200 0)) >>=
        fun x => .ret (decide (x.2.2 = .pending))) = .ret true := by
  refine ⟨rfl, ?_⟩
  decide +kernel

/-- A request whose body is not ready, after the headers were sent. -/
example : ∃ e' buf', ClientEncoder.poll (⟨4, ascii "GET ", true, notedScript [.pending], false, 0⟩ : ClientEncoder (Noted Script)) [0, 0, 0] = .ret (e', buf', .pending) :=
  ⟨_, _, rfl⟩

/-- A stream of events that is not ready, behind an empty item. -/
example : (IntoAsyncRead.new [.data [], .pending, .data (ascii "x")]).read 5 = (IntoAsyncRead.new [.data (ascii "x")], .pending) := by decide

end Tophat
