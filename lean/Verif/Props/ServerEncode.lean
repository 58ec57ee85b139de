import Verif.Proofs.EncodeLive
import Verif.Proofs.ChunkGrammar
import Verif.Proofs.HeadLines
/-!
# Properties C01–C09: sending a response

`observe hexLen now resp bufs` is what a consumer sees that polls the sender of `resp` once with each
of the buffers `bufs` (any number, any lengths, any contents), ignoring `Pending`s.  `rem resp.body`
is what the body reader yields and `fin resp.body` how it ends (`none` = end of data).
-/

set_option linter.unusedSectionVars false

namespace Tophat
open Spec

variable {ρ : Type} [AsyncBufRead ρ] [LawfulBufRead ρ]

theorem observe_ret {hexLen : Nat → Nat} {now : Bytes} {resp : InnerResponse ρ} {bufs : List Bytes}
    {out : Bytes} {st : Status} : observe hexLen now resp bufs = .ret (out, st) ↔
      ∃ e', (Encoder.encode resp).drive hexLen now bufs = .ret (e', out, st) := by
  unfold observe
  cases h : (Encoder.encode resp).drive hexLen now bufs with
  | ret x =>
    obtain ⟨e, o, s⟩ := x
    simp only [Run.ret_bind, Run.ret.injEq, Prod.mk.injEq]
    constructor
    · rintro ⟨rfl, rfl⟩; exact ⟨e, rfl, rfl, rfl⟩
    · rintro ⟨_, _, rfl, rfl⟩; exact ⟨rfl, rfl⟩
  | panic => simp
  | diverge => simp

theorem observe_panic {hexLen : Nat → Nat} {now : Bytes} {resp : InnerResponse ρ} {bufs : List Bytes} :
    observe hexLen now resp bufs = .panic ↔ (Encoder.encode resp).drive hexLen now bufs = .panic := by
  unfold observe
  cases h : (Encoder.encode resp).drive hexLen now bufs <;> simp

theorem observe_diverge {hexLen : Nat → Nat} {now : Bytes} {resp : InnerResponse ρ} {bufs : List Bytes} :
    observe hexLen now resp bufs = .diverge ↔ (Encoder.encode resp).drive hexLen now bufs = .diverge := by
  unfold observe
  cases h : (Encoder.encode resp).drive hexLen now bufs <;> simp

/-- The head of `resp` as specified. -/
abbrev headOf (resp : InnerResponse ρ) (now : Bytes) : Bytes :=
  responseHead resp.version resp.status resp.headers resp.length now

/-! ## A concrete response used to show that hypotheses can be met -/

/-- A streaming response in three pieces, the second of which is not ready at once. -/
def demoStream : InnerResponse Script where
  status := 200
  headers := [(ascii "x-a", [ascii "1", ascii "2"])]
  version := .http11
  body := [.data (ascii "hello"), .pending, .data (ascii " world")]
  length := none

/-- The same with a declared length of 8. -/
def demoFixed : InnerResponse Script := { demoStream with length := some 8 }

theorem demo_wf : demoStream.headers.WF := ⟨by decide, by decide⟩
theorem demo_valid : demoStream.headers.Valid := ⟨by decide, by decide⟩

/-- Some buffers. -/
def demoBufs : List Bytes :=
  [List.replicate 80 0, List.replicate 60 7, List.replicate 7 0, List.replicate 7 0, List.replicate 20 0,
   List.replicate 20 0, List.replicate 20 0]

/-! ## C01 -/

/-- **C01.** At every moment what follows the head is a sequence of well-formed non-empty chunks
carrying a prefix of the body, or the complete message; an error reported to the consumer is the
body reader's; and if the sender reports end of stream (polled with buffers of at least 7 bytes, as
`io::copy` does, which uses 8192) the consumer has the head and a complete chunked message whose
payload is the whole body. -/
theorem C01_chunked_framing {hexLen : Nat → Nat} (hx : HexLenOk hexLen) {resp : InnerResponse ρ} {now : Bytes}
    (hl : resp.length = none) (hw : resp.headers.WF) {bufs : List Bytes} {out : Bytes} {st : Status}
    (h : observe hexLen now resp bufs = .ret (out, st)) :
    (out <+: headOf resp now ∨
      (∃ wire payload, out = headOf resp now ++ wire ∧ Chunks wire payload ∧ payload <+: rem resp.body) ∨
      (∃ wire, out = headOf resp now ++ wire ∧ ChunkedMessage wire (rem resp.body) ∧ fin resp.body = none)) ∧
    (∀ x, st = .failed x → fin resp.body = some x) ∧
    ((∀ b ∈ bufs, 7 ≤ b.length) → st = .eof →
      ∃ wire, out = headOf resp now ++ wire ∧ ChunkedMessage wire (rem resp.body) ∧ fin resp.body = none) := by
  obtain ⟨e', he⟩ := observe_ret.1 h
  rcases Encoder.drive_ch hx hl hw bufs _ [] (Encoder.chInv_start resp now) with ⟨e1, o, s, h1, h2, h3, h4⟩ | ⟨h1, _⟩
  · rw [he] at h1
    simp only [Run.ret.injEq, Prod.mk.injEq] at h1
    obtain ⟨_, rfl, rfl⟩ := h1
    refine ⟨h2, h3, fun h7 hst => ?_⟩
    exact h4 h7 (by simp [Encoder.encode]) (.inl hst)
  · rw [he] at h1; simp at h1

/-- **C01**, liveness: a consumer that polls often enough with buffers of at least 7 bytes sees the
end of the response or the reader's error. -/
theorem C01_chunked_completes {hexLen : Nat → Nat} (hx : HexLenOk hexLen) {resp : InnerResponse ρ} {now : Bytes}
    (hl : resp.length = none) (hw : resp.headers.WF) {bufs : List Bytes} {out : Bytes} {st : Status}
    (h : observe hexLen now resp bufs = .ret (out, st)) (h7 : ∀ b ∈ bufs, 7 ≤ b.length)
    (hn : (headOf resp now).length + (rem resp.body).length + meas resp.body + 1 < bufs.length) :
    (∃ x, st = .failed x ∧ fin resp.body = some x) ∨
    (st = .eof ∧ ∃ wire, out = headOf resp now ++ wire ∧ ChunkedMessage wire (rem resp.body)) := by
  have h1 := C01_chunked_framing hx hl hw h
  obtain ⟨e', he⟩ := observe_ret.1 h
  have h2 := Encoder.drive_ch_ends hx hl hw bufs _ [] e' out st (Encoder.chInv_start resp now) he (by
    simp only [Encoder.chWork, Encoder.encode, ChunkedEncoder.new]
    simp only [headOf, responseHead] at hn
    simp [Encoder.specHead]
    omega)
  cases st with
  | running => exact absurd rfl h2
  | eof =>
    obtain ⟨w, h3, h4, h5⟩ := h1.2.2 h7 rfl
    exact .inr ⟨rfl, w, h3, h4⟩
  | failed x => exact .inl ⟨x, rfl, h1.2.1 x rfl⟩

/-- The hypotheses of `C01_chunked_framing` are met, with all of the message received. -/
example : demoStream.length = none ∧ demoStream.headers.WF ∧ (∀ b ∈ demoBufs, 7 ≤ b.length) ∧
    observe exactHexLen (ascii "NOW") demoStream demoBufs = .ret (ascii
      "HTTP/1.1 200 OK\r\ntransfer-encoding: chunked\r\ndate: NOW\r\nx-a: 1\r\nx-a: 2\r\ncontent-type: application/octet-stream\r\n\r\n5\r\nhello\r\n2\r\n w\r\n4\r\norld\r\n0\r\n\r\n", .eof) :=
  ⟨rfl, demo_wf, by decide, by decide +kernel⟩

/-- Why C01 asks for buffers of at least 7 bytes: with tiny ones end of stream is reported although
nothing of the body was sent. -/
theorem C01_tiny_buffer_refuted :
    observe exactHexLen (ascii "NOW") demoStream [List.replicate 114 0, List.replicate 2 0, List.replicate 20 0] =
      .ret (headOf demoStream (ascii "NOW"), .eof) := by decide +kernel

/-! ## C02 -/

/-- **C02.** If at some moment the bytes after the head contain, from their start, a complete
chunked message `m` (so: the terminating zero-size chunk was emitted), then nothing follows it, it
carries the whole body, and the body reader has really ended. -/
theorem C02_no_premature_end {hexLen : Nat → Nat} (hx : HexLenOk hexLen) {resp : InnerResponse ρ} {now : Bytes}
    (hl : resp.length = none) (hw : resp.headers.WF) {bufs : List Bytes} {out : Bytes} {st : Status}
    (h : observe hexLen now resp bufs = .ret (out, st)) {m p extra : Bytes} (hm : ChunkedMessage m p)
    (ho : out = headOf resp now ++ m ++ extra) :
    extra = [] ∧ p = rem resp.body ∧ fin resp.body = none := by
  have hne : m ≠ [] := by
    obtain ⟨w, _, rfl⟩ := hm; simp
  rcases (C01_chunked_framing hx hl hw h).1 with h1 | ⟨w, q, h1, h2, h3⟩ | ⟨w, h1, h2, h3⟩
  · have := h1.length_le
    rw [ho] at this
    simp only [List.length_append] at this
    exact absurd (List.length_eq_zero_iff.1 (by omega)) hne
  · rw [h1, List.append_assoc] at ho
    exact absurd (List.append_cancel_left ho) (h2.no_terminator hm)
  · rw [h1, List.append_assoc] at ho
    have := List.append_cancel_left ho
    obtain ⟨_, h5, h6⟩ := h2.unique hm (x := []) (x' := extra) (by simpa using this)
    exact ⟨h6.symm, h5.symm, h3⟩

/-- Further polls after the terminator: the message of `demoStream` is followed by nothing. -/
example : ∃ m p, ChunkedMessage m p ∧
    observe exactHexLen (ascii "NOW") demoStream demoBufs = .ret (headOf demoStream (ascii "NOW") ++ m ++ [], .eof) :=
  ⟨ascii "5\r\nhello\r\n2\r\n w\r\n4\r\norld\r\n0\r\n\r\n", ascii "hello world",
    ⟨_, .cons (h := ascii "5") (d := ascii "hello") ⟨by decide, by decide⟩ (by decide)
      (.cons (h := ascii "2") (d := ascii " w") ⟨by decide, by decide⟩ (by decide)
        (.cons (h := ascii "4") (d := ascii "orld") ⟨by decide, by decide⟩ (by decide) .nil)), by decide⟩, by decide +kernel⟩

/-! ## C03 -/

/-- **C03**, the part that holds: polled with buffers of one length `L ≥ 5` (`io::copy` uses 8192),
sending a chunked response does not panic, provided that the body is not empty or the head does not
end 3 or 4 bytes before the end of a buffer.

Missing: the remaining heads with an empty streamed body; there the code does panic
(`C03_refuted`). -/
theorem C03_no_panic_partial {hexLen : Nat → Nat} (hx : HexLenOk hexLen) {resp : InnerResponse ρ} {now : Bytes}
    (hl : resp.length = none) (hw : resp.headers.WF) {L : Nat} (hL : 5 ≤ L) {bufs : List Bytes}
    (hb : ∀ b ∈ bufs, b.length = L)
    (hc : ((headOf resp now).length % L ≠ L - 3 ∧ (headOf resp now).length % L ≠ L - 4) ∨ rem resp.body ≠ []) :
    ∃ out st, observe hexLen now resp bufs = .ret (out, st) := by
  have h1 := Encoder.drive_ch_uniform hx hl hw hL hc bufs hb _ [] (Encoder.chInv_start resp now) (by simp)
  rcases Encoder.drive_ch hx hl hw bufs _ [] (Encoder.chInv_start resp now) with ⟨e1, o, s, h2, _⟩ | ⟨h2, _⟩
  · exact ⟨o, s, observe_ret.2 ⟨e1, h2⟩⟩
  · exact absurd h2 h1

/-- For buffers of arbitrary lengths, a panic needs one that is left with exactly 3 or 4 bytes when
the body ends. -/
theorem C03_panic_only_if {hexLen : Nat → Nat} (hx : HexLenOk hexLen) {resp : InnerResponse ρ} {now : Bytes}
    (hl : resp.length = none) (hw : resp.headers.WF) {bufs : List Bytes} :
    observe hexLen now resp bufs ≠ .diverge ∧
    (observe hexLen now resp bufs = .panic →
      ∃ pre buf post out st, bufs = pre ++ buf :: post ∧ observe hexLen now resp pre = .ret (out, st) ∧
        fin resp.body = none ∧
        ((buf.length = 3 ∨ buf.length = 4) ∨
         rem resp.body = [] ∧ (out.length + buf.length = (headOf resp now).length + 3 ∨
           out.length + buf.length = (headOf resp now).length + 4))) := by
  rcases Encoder.drive_ch hx hl hw bufs _ [] (Encoder.chInv_start resp now) with
    ⟨e1, o, s, h2, _⟩ | ⟨h2, pre, buf, post, e', o, st, h3, h4, k, k1, k2, k3, k4⟩
  · have := observe_ret.2 ⟨e1, h2⟩
    rw [this]; simp
  · have := observe_panic.2 h2
    rw [this]
    refine ⟨by simp, fun _ => ⟨pre, buf, post, o, st, h3, observe_ret.2 ⟨e', h4⟩, k4, ?_⟩⟩
    rcases k3 with ⟨k3, _⟩ | ⟨k3, k5⟩
    · left; omega
    · right
      simp only [List.nil_append, Encoder.specHead] at k3
      simp only [headOf, responseHead]
      exact ⟨k5, by omega⟩

/-- The hypotheses of `C03_no_panic_partial` are met by `demoStream` and `io::copy`'s buffer size. -/
example : (headOf demoStream (ascii "NOW")).length % 8192 = 114 ∧ rem demoStream.body ≠ [] := by
  constructor
  · decide +kernel
  · decide

theorem chunkedEncoder_panics (hexLen : Nat → Nat) {buf : Bytes} (h : buf.length = 3 ∨ buf.length = 4) :
    ChunkedEncoder.new.encode hexLen ([] : Script) buf = .panic := by
  have h2 := ChunkedEncoder.encodeChunksEos_panic (e := ⟨0, .endOfChunks⟩) (buf := buf) rfl rfl h
  have h3 : pollFill ([] : Script) = .ret (([] : Script), .data []) := rfl
  simp only [ChunkedEncoder.encode, ChunkedEncoder.new, ChunkedEncoder.init, ChunkedEncoder.setState,
    ChunkedEncoder.allowed, if_true, Run.ret_bind, ChunkedEncoder.encodeChunks, h3, List.length_nil, h2,
    Run.panic_bind]

/-- A streaming response whose head leaves 3 or 4 bytes of the first buffer and whose body is empty. -/
theorem C03_panics {hexLen : Nat → Nat} {resp : InnerResponse Script} {now : Bytes}
    (hl : resp.length = none) (hw : resp.headers.WF) (hb : resp.body = []) {buf : Bytes}
    (h : buf.length = (headOf resp now).length + 3 ∨ buf.length = (headOf resp now).length + 4) :
    observe hexLen now resp [buf] = .panic := by
  rw [observe_panic, Encoder.drive_cons]
  have h0 : (Encoder.encode resp).poll hexLen now buf = (Encoder.encode resp).start hexLen now (buf.length + 1) buf := by
    simp only [Encoder.poll, Encoder.pollFuel, Encoder.encode]
  have hH : headOf resp now = Encoder.specHead resp now := rfl
  rw [hH] at h
  rw [h0, Encoder.start_eq resp buf hw]
  obtain ⟨buf', h1, h2, h3⟩ := Encoder.encodeHead_eq hexLen (buf.length + 1)
    { Encoder.encode resp with resp := { resp with headers := Encoder.storedHeaders resp.headers resp.length }, headBuf := Encoder.specHead resp now, state := .head }
    buf (Nat.zero_le _)
  rw [h3]
  have hmin : min ((Encoder.specHead resp now).length - 0) buf.length = (Encoder.specHead resp now).length := by omega
  simp only [Encoder.encode, hmin, hl, Nat.zero_add, if_true]
  unfold Encoder.encodeChunkedBody
  rw [if_pos (by simp only []; omega)]
  simp only [hb]
  rw [chunkedEncoder_panics hexLen (by simp only [List.length_drop]; omega)]
  rfl

/-- A response with an empty streamed body and one padding header. -/
def padded (m : Nat) : InnerResponse Script where
  status := 200
  headers := [(ascii "date", [ascii "now"]), (ascii "x", [List.replicate m 97])]
  version := .http11
  body := []
  length := none

theorem padded_length (m : Nat) (now : Bytes) :
    (headOf (padded m) now).length = (headOf (padded 0) now).length + m := by
  have h1 : (padded 0).headers.getAll (ascii "date") = [ascii "now"] := by decide
  have h2 : (padded m).headers.getAll (ascii "date") = [ascii "now"] := by
    simp only [padded, HeaderMap.getAll_cons]
    have : ascii "x" ≠ ascii "date" := by decide
    simp [this]
  have h3 : (padded 0).headers.getAll (ascii "content-type") = [] := by decide
  have h4 : (padded m).headers.getAll (ascii "content-type") = [] := by
    simp only [padded, HeaderMap.getAll_cons]
    have : ascii "x" ≠ ascii "content-type" := by decide
    have h' : ascii "date" ≠ ascii "content-type" := by decide
    simp [this, h']
  have h5 : ∀ k, (padded k).headers.iter = [(ascii "date", ascii "now"), (ascii "x", List.replicate k 97)] := by
    intro k; rfl
  have c1 : ascii "x" ≠ ascii "content-length" := by decide
  have c2 : ascii "x" ≠ ascii "transfer-encoding" := by decide
  have c3 : ascii "date" ≠ ascii "content-length" := by decide
  have c4 : ascii "date" ≠ ascii "transfer-encoding" := by decide
  have key : ∀ k, (padded k).headers.getAll (ascii "date") = [ascii "now"] →
      (padded k).headers.getAll (ascii "content-type") = [] →
      sentFields (padded k).headers none now = [(ascii "transfer-encoding", ascii "chunked"), (ascii "date", ascii "now"),
        (ascii "x", List.replicate k 97), (ascii "content-type", ascii "application/octet-stream")] := by
    intro k e1 e2
    simp only [sentFields, e1, e2, h5, framingField]
    simp [c1, c2, c3, c4]
  have hk : ∀ k, headOf (padded k) now = renderResponseHead .http11 200 (sentFields (padded k).headers none now) := fun _ => rfl
  rw [hk, hk, key m h2 h4, key 0 h1 h3]
  simp only [renderResponseHead, renderFields, List.flatMap_cons, List.flatMap_nil, List.length_append, List.length_replicate]
  omega

/-- **C03 is false of the code.** There is a response with valid headers (a padding header brings the
head to 8188 bytes) and an empty body of unknown length for which the very first poll with
`io::copy`'s buffer of 8192 bytes panics, whatever the clock says. -/
theorem C03_refuted (hexLen : Nat → Nat) (now : Bytes) :
    ∃ resp : InnerResponse Script, resp.length = none ∧ resp.headers.WF ∧ resp.headers.Valid ∧
      observe hexLen now resp [List.replicate 8192 0] = .panic := by
  have hp : ∀ m, (padded m).headers.WF := fun m => ⟨by simp only [padded]; simp; decide, by simp [padded]⟩
  have h0 : (headOf (padded 0) now).length = 103 := by
    have h1 : sentFields (padded 0).headers none now = [(ascii "transfer-encoding", ascii "chunked"), (ascii "date", ascii "now"),
        (ascii "x", []), (ascii "content-type", ascii "application/octet-stream")] := by
      have : (padded 0).headers.getAll (ascii "date") = [ascii "now"] := by decide
      simp only [sentFields, this]
      rfl
    have : headOf (padded 0) now = renderResponseHead .http11 200 (sentFields (padded 0).headers none now) := rfl
    rw [this, h1]
    decide +kernel
  refine ⟨padded 8085, rfl, hp _, ⟨?_, ?_⟩, ?_⟩
  · intro f hf
    have : f ∈ [(ascii "date", ascii "now"), (ascii "x", List.replicate 8085 97)] := hf
    simp only [List.mem_cons, List.not_mem_nil, or_false] at this
    rcases this with rfl | rfl
    · rfl
    · rfl
  · intro f hf
    have : f ∈ [(ascii "date", ascii "now"), (ascii "x", List.replicate 8085 97)] := hf
    simp only [List.mem_cons, List.not_mem_nil, or_false] at this
    rcases this with rfl | rfl
    · rfl
    · simp only [headerValueFromBytes, List.all_replicate]
      rw [if_pos]
      decide
  · refine C03_panics rfl (hp _) rfl ?_
    rw [padded_length, h0, List.length_replicate]
    exact .inr rfl

/-! ## C04 -/

/-- **C04.** With a declared length `n` the consumer always has a prefix of the head followed by the
first `n` bytes the body reader yields, and exactly that (with none of the `n` missing) when end of
stream is reported; an error is the reader's own, reported only if the reader failed before it
yielded more than `n` bytes. -/
theorem C04_fixed_body {hexLen : Nat → Nat} {resp : InnerResponse ρ} {now : Bytes} {n : Nat}
    (hl : resp.length = some n) (hw : resp.headers.WF) {bufs : List Bytes}
    (hlim : ∀ b ∈ bufs, b.length + n < usizeLimit) {out : Bytes} {st : Status}
    (h : observe hexLen now resp bufs = .ret (out, st)) :
    out <+: headOf resp now ++ (rem resp.body).take n ∧
    (∀ x, st = .failed x → fin resp.body = some x ∧ (rem resp.body).length ≤ n) ∧
    ((∀ b ∈ bufs, b ≠ []) → st = .eof →
      out = headOf resp now ++ (rem resp.body).take n ∧ n ≤ (rem resp.body).length) := by
  obtain ⟨e', he⟩ := observe_ret.1 h
  rcases Encoder.drive_fx hl hw bufs hlim _ [] (Encoder.fxInv_start resp now n) with ⟨e1, o, s, h1, h2, h3, h4⟩ | ⟨h1, _⟩
  · rw [he] at h1
    simp only [Run.ret.injEq, Prod.mk.injEq] at h1
    obtain ⟨_, rfl, rfl⟩ := h1
    exact ⟨h2, h3, fun h7 hst => h4 h7 (.inl hst)⟩
  · rw [he] at h1; simp at h1

example : demoFixed.length = some 8 ∧ demoFixed.headers.WF ∧ (∀ b ∈ demoBufs, b.length + 8 < usizeLimit) ∧
    (∀ b ∈ demoBufs, b ≠ []) ∧
    observe exactHexLen (ascii "NOW") demoFixed demoBufs = .ret (ascii
      "HTTP/1.1 200 OK\r\ncontent-length: 8\r\ndate: NOW\r\nx-a: 1\r\nx-a: 2\r\ncontent-type: application/octet-stream\r\n\r\nhello wo", .eof) :=
  ⟨rfl, demo_wf, by decide, by decide, by decide +kernel⟩

/-! ## C05 -/

/-- **C05**, the part that holds: if the body reader yields at least the declared number of bytes (or
fails), every poll returns and the response is finished after finitely many polls.

Missing: readers that end early, for which the code hangs (`C05_refuted`), and declared lengths so
large that an addition on `usize` overflows (`C05_overflow_refuted`). -/
theorem C05_completes_partial {hexLen : Nat → Nat} {resp : InnerResponse ρ} {now : Bytes} {n : Nat}
    (hl : resp.length = some n) (hw : resp.headers.WF) {bufs : List Bytes}
    (hlim : ∀ b ∈ bufs, b.length + n < usizeLimit)
    (hr : n ≤ (rem resp.body).length ∨ fin resp.body ≠ none) :
    ∃ out st, observe hexLen now resp bufs = .ret (out, st) ∧
      ((headOf resp now).length + n + meas resp.body < bufs.length → st ≠ .running) := by
  rcases Encoder.drive_fx hl hw bufs hlim _ [] (Encoder.fxInv_start resp now n) with ⟨e1, o, s, h1, h2, h3, h4⟩ | ⟨h1, h2, h3⟩
  · refine ⟨o, s, observe_ret.2 ⟨e1, h1⟩, fun hlen => ?_⟩
    exact Encoder.drive_fx_ends hl hw bufs hlim _ [] e1 o s (Encoder.fxInv_start resp now n) h1 (by
      simpa [Encoder.encode, Encoder.specHead, headOf, responseHead] using hlen)
  · rcases hr with hr | hr
    · omega
    · exact absurd h3 hr

example : 8 ≤ (rem demoFixed.body).length := by decide

theorem encodeFixedBody_hangs {n : Nat} (fuel : Nat) : ∀ (e : Encoder ρ) (buf : Bytes), e.contentLength = some n →
    e.bodyBytesRead + (rem e.resp.body).length < n → e.bytesRead + (rem e.resp.body).length < buf.length →
    fin e.resp.body = none → meas e.resp.body = 0 → buf.length + n < usizeLimit →
    Encoder.encodeFixedBody fuel e buf = .diverge := by
  induction fuel with
  | zero => intros; rfl
  | succ fuel ih =>
    intro e buf hcl hb hk hf hm hlim
    unfold Encoder.encodeFixedBody
    rw [if_neg (by omega)]
    split
    · rename_i h; rw [hcl] at h; cases h
    · rename_i m hm'
      rw [hcl] at hm'
      cases hm'
      rw [if_pos (by omega)]
      simp only []
      rw [if_pos (by omega)]
      obtain ⟨body', p, hp, ok⟩ := LawfulRead.read_ok e.resp.body (min (e.bytesRead + n - e.bodyBytesRead) buf.length - e.bytesRead)
      rw [hp, Run.ret_bind]
      cases ok with
      | pending a1 a2 a3 => omega
      | err a1 a2 => rw [hf] at a2; cases a2
      | data a1 a2 a3 a4 a5 =>
        rename_i bs
        have hl : (rem e.resp.body).length = bs.length + (rem body').length := by rw [a2]; simp
        obtain ⟨buf', w1, w2, w3⟩ := writeAt_ok (buf := buf) (off := e.bytesRead) (bs := bs) (by omega)
        simp only [w1, Run.ret_bind]
        rw [if_neg (by omega)]
        exact ih _ _ hcl (by simp only []; omega) (by simp only []; omega) (by simp only [a3, hf]) (by simp only []; omega) (by omega)

/-- A declared length larger than what the reader yields: the poll that has room for everything the
reader yields and more never returns (no number of recursive calls is enough).  The reader is any
lawful one that does not fail and is always ready. -/
theorem C05_short_reader_hangs {hexLen : Nat → Nat} {resp : InnerResponse ρ} {now : Bytes} {n : Nat}
    (hl : resp.length = some n) (hw : resp.headers.WF) {buf : Bytes} (hlim : buf.length + n < usizeLimit)
    (hs : (rem resp.body).length < n) (hf : fin resp.body = none) (hm : meas resp.body = 0)
    (hb : (headOf resp now).length + (rem resp.body).length < buf.length) (fuel : Nat) :
    (Encoder.encode resp).pollFuel hexLen now fuel buf = .diverge := by
  have h0 : (Encoder.encode resp).pollFuel hexLen now fuel buf = (Encoder.encode resp).start hexLen now fuel buf := by
    simp only [Encoder.pollFuel, Encoder.encode]
  have hH : headOf resp now = Encoder.specHead resp now := rfl
  rw [hH] at hb
  rw [h0, Encoder.start_eq resp buf hw]
  obtain ⟨buf', h1, h2, h3⟩ := Encoder.encodeHead_eq hexLen fuel
    { Encoder.encode resp with resp := { resp with headers := Encoder.storedHeaders resp.headers resp.length }, headBuf := Encoder.specHead resp now, state := .head }
    buf (Nat.zero_le _)
  rw [h3]
  have hmin : min ((Encoder.specHead resp now).length - 0) buf.length = (Encoder.specHead resp now).length := by omega
  simp only [Encoder.encode, hmin, hl, Nat.zero_add, if_true]
  exact encodeFixedBody_hangs fuel _ _ rfl (by simpa using hs) (by simp only []; omega) hf hm (by omega)

/-- **C05 is false of the code**: a response that declares 8 bytes and whose reader yields 5. -/
theorem C05_refuted : ∃ resp : InnerResponse Script, resp.length = some 8 ∧ resp.headers.WF ∧
    rem resp.body = ascii "hello" ∧ ∀ hexLen fuel,
      (Encoder.encode resp).pollFuel hexLen (ascii "NOW") fuel (List.replicate 8192 0) = .diverge := by
  obtain ⟨resp, hr⟩ : ∃ resp : InnerResponse Script, resp = { demoFixed with body := [.data (ascii "hello")] } := ⟨_, rfl⟩
  have h1 : resp.length = some 8 := by rw [hr]; rfl
  have h2 : resp.headers.WF := by rw [hr]; exact demo_wf
  have h3 : rem resp.body = ascii "hello" := by rw [hr]; rfl
  have h4 : (headOf resp (ascii "NOW")).length = 105 := by rw [hr]; decide +kernel
  refine ⟨resp, h1, h2, h3, fun hexLen fuel => ?_⟩
  have h5 : (ascii "hello").length = 5 := rfl
  refine C05_short_reader_hangs h1 h2 ?_ (by rw [h3]; decide) (by rw [hr]; rfl) (by rw [hr]; rfl) ?_ fuel
  · rw [List.length_replicate]; decide
  · rw [List.length_replicate, h3, h4, h5]; decide

/-- A declared length close to `usize::MAX` makes the addition of src/server/encode.rs:159 overflow
(a panic in a debug build). -/
theorem C05_overflow_refuted {hexLen : Nat → Nat} {resp : InnerResponse ρ} {now : Bytes} {n : Nat}
    (hl : resp.length = some n) (hw : resp.headers.WF) {buf : Bytes}
    (hb : (headOf resp now).length < buf.length) (hn : usizeLimit ≤ (headOf resp now).length + n) :
    observe hexLen now resp [buf] = .panic := by
  rw [observe_panic, Encoder.drive_cons]
  have h0 : (Encoder.encode resp).poll hexLen now buf = (Encoder.encode resp).start hexLen now (buf.length + 1) buf := by
    simp only [Encoder.poll, Encoder.pollFuel, Encoder.encode]
  have hH : headOf resp now = Encoder.specHead resp now := rfl
  rw [hH] at hb hn
  rw [h0, Encoder.start_eq resp buf hw]
  obtain ⟨buf', h1, h2, h3⟩ := Encoder.encodeHead_eq hexLen (buf.length + 1)
    { Encoder.encode resp with resp := { resp with headers := Encoder.storedHeaders resp.headers resp.length }, headBuf := Encoder.specHead resp now, state := .head }
    buf (Nat.zero_le _)
  rw [h3]
  have hmin : min ((Encoder.specHead resp now).length - 0) buf.length = (Encoder.specHead resp now).length := by omega
  simp only [Encoder.encode, hmin, hl, Nat.zero_add, if_true]
  unfold Encoder.encodeFixedBody
  rw [if_neg (by simp only []; omega)]
  simp only []
  rw [if_neg (by omega)]
  rfl

example : ∃ resp : InnerResponse Script, observe exactHexLen (ascii "NOW") resp [List.replicate 200 0] = .panic := by
  obtain ⟨resp, hr⟩ : ∃ resp : InnerResponse Script, resp = { demoFixed with length := some (usizeLimit - 1) } := ⟨_, rfl⟩
  have h1 : resp.length = some (usizeLimit - 1) := by rw [hr]
  have h2 : resp.headers.WF := by rw [hr]; exact demo_wf
  have h : (headOf resp (ascii "NOW")).length = 124 := by rw [hr]; decide +kernel
  refine ⟨resp, C05_overflow_refuted h1 h2 ?_ ?_⟩
  · rw [h, List.length_replicate]; decide
  · rw [h]; decide

/-! ## C06–C09: the head

`headerLines` splits the bytes of a head at CRLF and returns the lines between the start line and the
blank line; `fieldName` is the part of a line before the colon, lower-cased. -/

/-- **C09**, delivery: in whatever pieces it is handed out, a response starts with exactly its head
(see `C01_chunked_framing` and `C04_fixed_body` for what follows it). -/
theorem C09_head_delivered {hexLen : Nat → Nat} (hx : HexLenOk hexLen) {resp : InnerResponse ρ} {now : Bytes}
    (hw : resp.headers.WF) {bufs : List Bytes}
    (hlim : ∀ n, resp.length = some n → ∀ b ∈ bufs, b.length + n < usizeLimit) {out : Bytes} {st : Status}
    (h : observe hexLen now resp bufs = .ret (out, st)) :
    out <+: headOf resp now ∨ headOf resp now <+: out := by
  cases hl : resp.length with
  | none =>
    rcases (C01_chunked_framing hx hl hw h).1 with h1 | ⟨w, _, h1, _⟩ | ⟨w, h1, _⟩
    · exact .inl h1
    · exact .inr (h1 ▸ List.prefix_append _ _)
    · exact .inr (h1 ▸ List.prefix_append _ _)
  | some n =>
    have := (C04_fixed_body hl hw (hlim n hl) h).1
    exact List.prefix_or_prefix_of_prefix this (List.prefix_append _ _)

/-- **C09**, contents: the lines of the head are the status line, one line per field in order, values
verbatim, and the blank line; the fields are the framing field, the generated date if the application
set none, the application's fields other than framing ones in header-map order, each once, and the
default content type if due. -/
theorem C09_head_exact {resp : InnerResponse ρ} {now : Bytes} (hv : resp.headers.Valid) (hn : (13 : UInt8) ∉ now) :
    lines (headOf resp now) =
      [resp.version.debug ++ [32] ++ statusDisplay resp.status] ++
      ([framingField resp.length] ++
        (if resp.headers.getAll (ascii "date") = [] then [(ascii "date", now)] else []) ++
        resp.headers.iter.filter (fun f => f.1 ≠ ascii "content-length" ∧ f.1 ≠ ascii "transfer-encoding") ++
        (if resp.length ≠ some 0 ∧ resp.headers.getAll (ascii "content-type") = [] then
          [(ascii "content-type", ascii "application/octet-stream")] else [])).map
        (fun f => f.1 ++ ascii ": " ++ f.2) ++
      [[], []] := by
  have h := lines_renderResponseHead resp.version resp.status (sentFields resp.headers resp.length now)
    (fun f hf => (sentFields_clean hv hn f hf).1)
  rw [headOf, responseHead, h]
  simp only [sentFields, List.isEmpty_iff]
  rfl

/-- The reason phrase is visible. -/
theorem reason_visible (s : StatusCode) : ∀ c ∈ (canonicalReason s).getD (ascii "<unknown status code>"), 32 ≤ c.toNat ∧ c.toNat < 127 := by
  have key : ∀ r, canonicalReason s = some r → ∀ c ∈ r, 32 ≤ c.toNat ∧ c.toNat < 127 := by
    intro r hr
    unfold canonicalReason at hr
    split at hr <;> first | (cases hr; decide) | cases hr
  cases h : canonicalReason s with
  | none => simp only [Option.getD_none]; decide
  | some r => exact key r h

/-- **C09**, the status line: the first line of the head says the version and the status of the response. -/
theorem C09_status_line {resp : InnerResponse ρ} {now : Bytes} (hv : resp.headers.Valid) (hn : (13 : UInt8) ∉ now) (hs : 100 ≤ resp.status) (hs' : resp.status < 1000) :
    ∃ line, (lines (headOf resp now)).head? = some line ∧ StatusLine resp.version resp.status line := by
  refine ⟨resp.version.debug ++ [32] ++ statusDisplay resp.status, by rw [C09_head_exact hv hn]; rfl, ?_⟩
  obtain ⟨s, es⟩ : ∃ s : Nat, s = resp.status := ⟨_, rfl⟩
  rw [← es] at hs hs' ⊢
  have hs : (100 : Nat) ≤ s := hs
  have hs' : s < (1000 : Nat) := hs'
  have hd : decimal s = [UInt8.ofNat (48 + s / 100), UInt8.ofNat (48 + s / 10 % 10), UInt8.ofNat (48 + s % 10)] := by
    rw [decimal_eq, if_neg (by omega), decimal_eq, if_neg (by omega), decimal_eq, if_pos (by omega), Nat.div_div_eq_div_mul]
    rfl
  refine ⟨(versionNumber resp.version).1, (versionNumber resp.version).2, s / 100, s / 10 % 10, s % 10, _, rfl, by omega, by omega, by omega, (by omega : s = 100 * (s / 100) + 10 * (s / 10 % 10) + s % 10), ?_, reason_visible s⟩
  unfold statusDisplay
  rw [hd]
  have hb : resp.version.debug = ascii "HTTP/" ++ [UInt8.ofNat (48 + (versionNumber resp.version).1), 46, UInt8.ofNat (48 + (versionNumber resp.version).2)] := by
    cases resp.version <;> decide
  rw [hb]
  simp only [List.append_assoc, List.cons_append, List.nil_append]

/-- Version 1.1 and status 404. -/
example : StatusLine .http11 404 (ascii "HTTP/1.1 404 Not Found") :=
  ⟨1, 1, 4, 0, 4, ascii "Not Found", rfl, by decide, by decide, by decide, rfl, by decide, by decide⟩

/-- The status line that names a status with its reason phrase. -/
def statusLineNaming (v : Version) (status : Nat) (reason : Bytes) : Bytes :=
  v.debug ++ ascii " " ++ decimal status ++ ascii " " ++ reason

/-- **C09**, the reason phrase: a status of RFC 7231 is sent with the phrase of its table, but for 203, which the `http` crate spells without the hyphen. -/
theorem C09_reason_phrase {resp : InnerResponse ρ} {now : Bytes} (hv : resp.headers.Valid) (hn : (13 : UInt8) ∉ now) {r : String}
    (hr : (resp.status, r) ∈ rfc7231Reasons) (h203 : resp.status ≠ 203) :
    (lines (headOf resp now)).head? = some (statusLineNaming resp.version resp.status (ascii r)) := by
  have key : ∀ p ∈ rfc7231Reasons, p.1 ≠ 203 → statusDisplay p.1 = decimal p.1 ++ ascii " " ++ ascii p.2 := by decide +kernel
  rw [C09_head_exact hv hn]
  have := key _ hr h203
  simp only [] at this
  simp only [statusLineNaming, this, List.cons_append, List.nil_append, List.head?_cons, List.append_assoc]
  rfl

/-- **C09**, no two statuses share a phrase: the reason in the status line of a status that has one belongs to that status only. -/
theorem C09_reason_distinct {s t : StatusCode} {r : Bytes} (hs : canonicalReason s = some r) (ht : canonicalReason t = some r) : s = t := by
  let codes : List Nat := [100, 101, 102, 200, 201, 202, 203, 204, 205, 206, 207, 208, 226, 300, 301, 302, 303, 304, 305, 307, 308, 400, 401, 402, 403, 404, 405, 406, 407, 408, 409, 410, 411, 412, 413, 414, 415, 416, 417, 418, 421, 422, 423, 424, 426, 428, 429, 431, 451, 500, 501, 502, 503, 504, 505, 506, 507, 508, 510, 511]
  have bound : ∀ s r, canonicalReason s = some r → s ∈ codes := by
    intro s r h
    unfold canonicalReason at h
    split at h <;> first | decide | cases h
  have key : ∀ s ∈ codes, ∀ t ∈ codes, canonicalReason s = canonicalReason t → s = t := by decide +kernel
  exact key s (bound s r hs) t (bound t r ht) (by rw [hs, ht])

/-- Status 404, and a response that has it. -/
example : (404, "Not Found") ∈ rfc7231Reasons ∧ (404 : Nat) ≠ 203 ∧ statusLineNaming .http11 404 (ascii "Not Found") = ascii "HTTP/1.1 404 Not Found" := by
  decide +kernel
example : canonicalReason 406 = some (ascii "Not Acceptable") := rfl

theorem headerLines_headOf {resp : InnerResponse ρ} {now : Bytes} (hv : resp.headers.Valid) (hn : (13 : UInt8) ∉ now) :
    headerLines (headOf resp now) =
      (sentFields resp.headers resp.length now).map (fun f => f.1 ++ [58, 32] ++ f.2) :=
  headerLines_renderResponseHead _ _ _ (fun f hf => (sentFields_clean hv hn f hf).1)

/-- The header lines with a given name, in terms of the fields. -/
theorem headerLines_filter {resp : InnerResponse ρ} {now : Bytes} (hv : resp.headers.Valid) (hn : (13 : UInt8) ∉ now)
    (P : Bytes → Bool) :
    (headerLines (headOf resp now)).filter (fun l => P (fieldName l)) =
      ((sentFields resp.headers resp.length now).filter (fun f => P f.1)).map (fun f => f.1 ++ [58, 32] ++ f.2) := by
  rw [headerLines_headOf hv hn, List.filter_map]
  congr 1
  apply List.filter_congr
  intro f hf
  obtain ⟨_, h2, h3⟩ := sentFields_clean hv hn f hf
  simp only [Function.comp, fieldName_line h2, h3]

/-- **C06.** Whatever headers the application put on the response, the head has exactly one header
line named content-length or transfer-encoding: `content-length: n` if the body has length `n`,
`transfer-encoding: chunked` if its length is unknown. -/
theorem C06_one_framing_header {resp : InnerResponse ρ} {now : Bytes} (hv : resp.headers.Valid)
    (hn : (13 : UInt8) ∉ now) :
    (headerLines (headOf resp now)).filter
      (fun l => fieldName l = ascii "content-length" ∨ fieldName l = ascii "transfer-encoding") =
    [match resp.length with
      | some n => ascii "content-length: " ++ decimal n
      | none => ascii "transfer-encoding: chunked"] := by
  have := headerLines_filter hv hn (fun x => decide (x = ascii "content-length" ∨ x = ascii "transfer-encoding"))
  rw [this]
  have hd : ¬ (ascii "date" = ascii "content-length" ∨ ascii "date" = ascii "transfer-encoding") := by decide
  have hc : ¬ (ascii "content-type" = ascii "content-length" ∨ ascii "content-type" = ascii "transfer-encoding") := by decide
  have e1 : (sentFields resp.headers resp.length now).filter
      (fun f => decide (f.1 = ascii "content-length" ∨ f.1 = ascii "transfer-encoding")) = [framingField resp.length] := by
    simp only [sentFields, List.filter_append]
    have a1 : List.filter (fun f => decide (f.1 = ascii "content-length" ∨ f.1 = ascii "transfer-encoding")) [framingField resp.length]
        = [framingField resp.length] := by
      cases resp.length with
      | none => simp [framingField]
      | some n => simp [framingField]
    have a2 : List.filter (fun f => decide (f.1 = ascii "content-length" ∨ f.1 = ascii "transfer-encoding"))
        (if (resp.headers.getAll (ascii "date")).isEmpty then [(ascii "date", now)] else []) = [] := by
      split <;> simp [hd]
    have a3 : List.filter (fun f => decide (f.1 = ascii "content-length" ∨ f.1 = ascii "transfer-encoding"))
        (resp.headers.iter.filter fun f => f.1 ≠ ascii "content-length" ∧ f.1 ≠ ascii "transfer-encoding") = [] := by
      rw [List.filter_filter, List.filter_eq_nil_iff]
      intro f _
      by_cases h1 : f.1 = ascii "content-length" <;> by_cases h2 : f.1 = ascii "transfer-encoding" <;> simp [h1, h2]
    have a4 : List.filter (fun f => decide (f.1 = ascii "content-length" ∨ f.1 = ascii "transfer-encoding"))
        (if resp.length ≠ some 0 ∧ (resp.headers.getAll (ascii "content-type")).isEmpty then
          [(ascii "content-type", ascii "application/octet-stream")] else []) = [] := by
      split <;> simp [hc]
    rw [a1, a2, a3, a4]
    rfl
  rw [e1]
  cases resp.length with
  | none => simp only [framingField]; decide
  | some n =>
    have : ascii "content-length" ++ [58, 32] = ascii "content-length: " := by decide
    simp [framingField, ← this]

/-- An application that sets both framing headers itself. -/
def demoFraming : InnerResponse Script := { demoStream with
  headers := [(ascii "content-length", [ascii "3", ascii "5"]), (ascii "transfer-encoding", [ascii "identity"]),
    (ascii "content-type", [ascii "text/html"]), (ascii "date", [ascii "today"])] }

example : demoFraming.headers.Valid ∧ (13 : UInt8) ∉ ascii "NOW" ∧
    headerLines (headOf demoFraming (ascii "NOW")) =
      [ascii "transfer-encoding: chunked", ascii "content-type: text/html", ascii "date: today"] :=
  ⟨⟨by decide, by decide⟩, by decide, by decide +kernel⟩

theorem getAll_lines (m : HeaderMap) (k : Bytes) :
    (m.iter.filter fun f => decide (f.1 = k)).map (fun f => f.1 ++ [58, 32] ++ f.2) =
      (m.getAll k).map (fun v => k ++ [58, 32] ++ v) := by
  have hf : ∀ l : List (Bytes × Bytes), (l.filter fun f => decide (f.1 = k)) = l.filter (fun e => e.1 == k) := by
    intro l; apply List.filter_congr; intro f _; by_cases h : f.1 = k <;> simp [h]
  rw [HeaderMap.getAll, List.map_map, hf]
  apply List.map_congr_left
  intro f hf
  have := (List.mem_filter.1 hf).2
  simp only [beq_iff_eq] at this
  simp [this]

/-- **C07.** The date lines of the head: the application's if it set any, else exactly one, generated. -/
theorem C07_date {resp : InnerResponse ρ} {now : Bytes} (hv : resp.headers.Valid) (hn : (13 : UInt8) ∉ now) :
    (headerLines (headOf resp now)).filter (fun l => fieldName l = ascii "date") =
      (match resp.headers.getAll (ascii "date") with
        | [] => [now]
        | values => values).map (fun v => ascii "date: " ++ v) := by
  have h := headerLines_filter hv hn (fun x => decide (x = ascii "date"))
  rw [h]
  have a1 : List.filter (fun f => decide (f.1 = ascii "date")) [framingField resp.length] = [] := by
    have c1 : ascii "content-length" ≠ ascii "date" := by decide
    have c2 : ascii "transfer-encoding" ≠ ascii "date" := by decide
    cases resp.length <;> simp [framingField, c1, c2]
  have a3 : List.filter (fun f => decide (f.1 = ascii "date"))
      (resp.headers.iter.filter fun f => f.1 ≠ ascii "content-length" ∧ f.1 ≠ ascii "transfer-encoding") =
      resp.headers.iter.filter (fun f => decide (f.1 = ascii "date")) := by
    rw [List.filter_filter]
    apply List.filter_congr
    intro f _
    by_cases h1 : f.1 = ascii "date"
    · have c1 : ascii "date" ≠ ascii "content-length" := by decide
      have c2 : ascii "date" ≠ ascii "transfer-encoding" := by decide
      simp [h1, c1, c2]
    · simp [h1]
  have a4 : List.filter (fun f => decide (f.1 = ascii "date"))
      (if resp.length ≠ some 0 ∧ (resp.headers.getAll (ascii "content-type")).isEmpty then
        [(ascii "content-type", ascii "application/octet-stream")] else []) = [] := by
    have c : ascii "content-type" ≠ ascii "date" := by decide
    split <;> simp [c]
  have hd : ascii "date: " = ascii "date" ++ [58, 32] := by decide
  simp only [sentFields, List.filter_append, a1, a3, a4, List.nil_append, List.append_nil, List.map_append, getAll_lines, hd]
  cases resp.headers.getAll (ascii "date") with
  | nil => simp
  | cons v vs => simp

/-- **C08.** The content-type lines of the head: the application's, unchanged, if it set any;
otherwise the default if the body is non-empty or of unknown length, and none if it is known to be
empty. -/
theorem C08_content_type {resp : InnerResponse ρ} {now : Bytes} (hv : resp.headers.Valid) (hn : (13 : UInt8) ∉ now) :
    (headerLines (headOf resp now)).filter (fun l => fieldName l = ascii "content-type") =
      (match resp.headers.getAll (ascii "content-type"), resp.length with
        | [], some 0 => []
        | [], _ => [ascii "application/octet-stream"]
        | values, _ => values).map (fun v => ascii "content-type: " ++ v) := by
  have h := headerLines_filter hv hn (fun x => decide (x = ascii "content-type"))
  rw [h]
  have a1 : List.filter (fun f => decide (f.1 = ascii "content-type")) [framingField resp.length] = [] := by
    have c1 : ascii "content-length" ≠ ascii "content-type" := by decide
    have c2 : ascii "transfer-encoding" ≠ ascii "content-type" := by decide
    cases resp.length <;> simp [framingField, c1, c2]
  have a2 : List.filter (fun f => decide (f.1 = ascii "content-type"))
        (if (resp.headers.getAll (ascii "date")).isEmpty then [(ascii "date", now)] else []) = [] := by
    have c : ascii "date" ≠ ascii "content-type" := by decide
    split <;> simp [c]
  have a3 : List.filter (fun f => decide (f.1 = ascii "content-type"))
      (resp.headers.iter.filter fun f => f.1 ≠ ascii "content-length" ∧ f.1 ≠ ascii "transfer-encoding") =
      resp.headers.iter.filter (fun f => decide (f.1 = ascii "content-type")) := by
    rw [List.filter_filter]
    apply List.filter_congr
    intro f _
    by_cases h1 : f.1 = ascii "content-type"
    · have c1 : ascii "content-type" ≠ ascii "content-length" := by decide
      have c2 : ascii "content-type" ≠ ascii "transfer-encoding" := by decide
      simp [h1, c1, c2]
    · simp [h1]
  have hd : ascii "content-type: " = ascii "content-type" ++ [58, 32] := by decide
  simp only [sentFields, List.filter_append, a1, a2, a3, List.nil_append, List.append_nil, List.map_append, getAll_lines, hd]
  cases resp.headers.getAll (ascii "content-type") with
  | nil =>
    cases resp.length with
    | none => simp
    | some n => cases n <;> simp
  | cons v vs => simp

/-- An application that sets neither date nor content type, with an unknown, a positive and a zero
length. -/
example : demoStream.headers.Valid ∧
    headerLines (headOf demoStream (ascii "NOW")) =
      [ascii "transfer-encoding: chunked", ascii "date: NOW", ascii "x-a: 1", ascii "x-a: 2", ascii "content-type: application/octet-stream"] ∧
    headerLines (headOf { demoStream with length := some 0 } (ascii "NOW")) =
      [ascii "content-length: 0", ascii "date: NOW", ascii "x-a: 1", ascii "x-a: 2"] :=
  ⟨demo_valid, by decide +kernel, by decide +kernel⟩

end Tophat
