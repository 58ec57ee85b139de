import Verif.Proofs.CopyEncoder
import Verif.Props.ServerEncode
/-!
# Properties C10, C11: `ResponseWriter::send`

`sendResponse hexLen now fuel resp w` is `send`, stopped after `fuel` steps of the copy loop, on a
transport `w` whose answers to `poll_write` / `poll_flush` are `w.script` (any mixture of short
writes, `Pending`s and errors; after that it accepts everything) and which has already received
`w.got`.
-/

set_option linter.unusedSectionVars false

namespace Tophat
open Spec

variable {ρ : Type} [AsyncBufRead ρ] [LawfulBufRead ρ]

theorem sendResponse_ret {hexLen : Nat → Nat} {now : Bytes} {fuel : Nat} {resp : InnerResponse ρ} {w w' : Writer} {r : CopyRes} :
    sendResponse hexLen now fuel resp w = .ret (w', r) ↔
      ∃ s, copyGo (Encoder.poll hexLen now) fuel (CopyState.init (Encoder.encode resp) w) = .ret (s, r) ∧ s.writer = w' := by
  unfold sendResponse
  cases h : copyGo (Encoder.poll hexLen now) fuel (CopyState.init (Encoder.encode resp) w) with
  | ret x =>
    obtain ⟨s, r'⟩ := x
    simp only [Run.ret_bind, Run.ret.injEq, Prod.mk.injEq]
    constructor
    · rintro ⟨rfl, rfl⟩; exact ⟨s, ⟨rfl, rfl⟩, rfl⟩
    · rintro ⟨_, ⟨rfl, rfl⟩, rfl⟩; exact ⟨rfl, rfl⟩
  | panic => simp
  | diverge => simp

/-- Everything about a run of `send`, for either kind of body. -/
theorem sendResponse_spec {hexLen : Nat → Nat} (hx : HexLenOk hexLen) {resp : InnerResponse ρ} {now : Bytes}
    (hw : resp.headers.WF) (hlim : ∀ n, resp.length = some n → 8192 + n < usizeLimit) (fuel : Nat) (w : Writer) :
    ((sendResponse hexLen now fuel resp w = .panic ∨ sendResponse hexLen now fuel resp w = .diverge) ∧
      fin resp.body = none ∧
      match resp.length with
      | none => rem resp.body = [] ∧ ((headOf resp now).length % 8192 = 8189 ∨ (headOf resp now).length % 8192 = 8188)
      | some n => (rem resp.body).length < n) ∨
    ∃ w' r sent used, sendResponse hexLen now fuel resp w = .ret (w', r) ∧ w'.got = w.got ++ sent ∧
      w.script = used ++ w'.script ∧
      (∃ msg, IsResponse (headOf resp now) resp.length (rem resp.body) msg ∧ sent <+: msg) ∧
      CopyOutcome (fun sent => IsResponse (headOf resp now) resp.length (rem resp.body) sent ∧
          match resp.length with
          | none => fin resp.body = none
          | some n => n ≤ (rem resp.body).length)
        (fun _ x => fin resp.body = some x ∧ ∀ n, resp.length = some n → (rem resp.body).length ≤ n)
        (fuel ≤ 2 * ((headOf resp now).length +
            (match resp.length with | none => (rem resp.body).length + 1 | some n => n) + meas resp.body) + w.script.length)
        sent used r := by
  have hH : headOf resp now = Encoder.specHead resp now := rfl
  cases hl : resp.length with
  | none =>
    rcases copy_spec (Encoder.encSpec_chunked hx hl hw) fuel (Encoder.encode resp) w
      ⟨Encoder.chInv_start resp now, by simp [Encoder.encode], by simp⟩ with ⟨h1, h2⟩ | ⟨s, r, sent, used, h1, h2, h3, ⟨e, out, ⟨h4, _⟩, h5⟩, h6⟩
    · refine .inl ⟨?_, h2.2.2, ?_⟩
      · unfold sendResponse
        rcases h1 with h1 | h1
        · left; rw [h1]; rfl
        · right; rw [h1]; rfl
      · refine ⟨h2.2.1, ?_⟩
        rw [hH]; exact h2.1
    · refine .inr ⟨s.writer, r, sent, used, sendResponse_ret.2 ⟨s, h1, rfl⟩, h2, h3, ?_, ?_⟩
      · obtain ⟨msg, m1, m2⟩ := h4.prefix_response
        exact ⟨msg, by rw [hH]; exact m1, h5.trans m2⟩
      · cases r with
        | running =>
          refine ⟨?_, h6.2⟩
          have := h6.1
          simp only [Encoder.chWork, Encoder.encode, ChunkedEncoder.new] at this
          simp only [hH]
          simp at this
          omega
        | ok a =>
          obtain ⟨⟨w', a1, a2, a3⟩, a4⟩ := h6
          exact ⟨⟨⟨w', by rw [hH]; exact a1, a2⟩, a3⟩, a4⟩
        | err x =>
          rcases h6 with h6 | h6
          · exact .inl ⟨⟨h6.1.1, by simp⟩, h6.2⟩
          · exact .inr h6
  | some n =>
    rcases copy_spec (Encoder.encSpec_fixed (hexLen := hexLen) hl hw (hlim n hl)) fuel (Encoder.encode resp) w
      (Encoder.fxInv_start resp now n) with ⟨h1, h2⟩ | ⟨s, r, sent, used, h1, h2, h3, ⟨e, out, h4, h5⟩, h6⟩
    · refine .inl ⟨?_, h2.2, h2.1⟩
      unfold sendResponse
      rcases h1 with h1 | h1
      · left; rw [h1]; rfl
      · right; rw [h1]; rfl
    · refine .inr ⟨s.writer, r, sent, used, sendResponse_ret.2 ⟨s, h1, rfl⟩, h2, h3, ?_, ?_⟩
      · exact ⟨_, rfl, h5.trans h4.out⟩
      · cases r with
        | running =>
          refine ⟨?_, h6.2⟩
          have := h6.1
          simp only [Encoder.encode] at this
          simp only [hH]
          simp at this
          omega
        | ok a => exact ⟨⟨h6.1.1, h6.1.2⟩, h6.2⟩
        | err x =>
          rcases h6 with h6 | h6
          · refine .inl ⟨⟨h6.1.1, ?_⟩, h6.2⟩
            intro m hm; cases hm; exact h6.1.2
          · exact .inr h6

/-! ## C01, with the copy loop -/

/-- Everything handed to the transport by `send` of a body of unknown length. -/
theorem sendResponse_chunks {hexLen : Nat → Nat} (hx : HexLenOk hexLen) {resp : InnerResponse ρ} {now : Bytes}
    (hl : resp.length = none) (hw : resp.headers.WF) {fuel : Nat} {w w' : Writer} {r : CopyRes}
    (h : sendResponse hexLen now fuel resp w = .ret (w', r)) :
    ∃ sent, w'.got = w.got ++ sent ∧
      ((∃ wire payload, sent <+: headOf resp now ++ wire ∧ Chunks wire payload ∧ payload <+: rem resp.body) ∨
        (∃ wire, sent <+: headOf resp now ++ wire ∧ ChunkedMessage wire (rem resp.body) ∧ fin resp.body = none)) := by
  have hH : headOf resp now = Encoder.specHead resp now := rfl
  obtain ⟨s0, h0, rfl⟩ := sendResponse_ret.1 h
  rcases copy_spec (Encoder.encSpec_chunked hx hl hw) fuel (Encoder.encode resp) w
      ⟨Encoder.chInv_start resp now, by simp [Encoder.encode], by simp⟩ with ⟨h1, h2⟩ | ⟨s, r, sent, used, h1, h2, h3, ⟨e, out, ⟨h4, _⟩, h5⟩, h6⟩
  · rw [h0] at h1; simp at h1
  · rw [h0] at h1
    simp only [Run.ret.injEq, Prod.mk.injEq] at h1
    obtain ⟨rfl, rfl⟩ := h1
    refine ⟨sent, h2, ?_⟩
    rw [hH]
    rcases h4.out with g1 | ⟨v, p, rfl, g2, g3⟩ | ⟨v, rfl, g2, g3⟩
    · exact .inl ⟨[], [], by rw [List.append_nil]; exact h5.trans g1, .nil, List.nil_prefix⟩
    · exact .inl ⟨v, p, h5, g2, g3⟩
    · exact .inr ⟨v, h5, g2, g3⟩

/-- **C01**, for `ResponseWriter::send`, which is the only way to send a response: at every moment
what the transport has received is the beginning of the head followed by well-formed non-empty
chunks, whose data is a prefix of what the body reader yields; the terminator comes only if the
reader has ended without error; and if `send` returns `Ok` the transport has received the head and a
complete chunked message whose payload is exactly what the reader yields. -/
theorem C01_sent {hexLen : Nat → Nat} (hx : HexLenOk hexLen) {resp : InnerResponse ρ} {now : Bytes}
    (hl : resp.length = none) (hw : resp.headers.WF) {fuel : Nat} {w w' : Writer} {r : CopyRes}
    (h : sendResponse hexLen now fuel resp w = .ret (w', r)) :
    ∃ sent, w'.got = w.got ++ sent ∧
      ((∃ wire payload, sent <+: headOf resp now ++ wire ∧ Chunks wire payload ∧ payload <+: rem resp.body) ∨
        (∃ wire, sent <+: headOf resp now ++ wire ∧ ChunkedMessage wire (rem resp.body) ∧ fin resp.body = none)) ∧
      (∀ amt, r = .ok amt → ∃ wire, sent = headOf resp now ++ wire ∧ ChunkedMessage wire (rem resp.body) ∧ fin resp.body = none) := by
  obtain ⟨sent, h1, h2⟩ := sendResponse_chunks hx hl hw h
  refine ⟨sent, h1, h2, ?_⟩
  rintro amt rfl
  rcases sendResponse_spec (now := now) hx hw (by simp [hl]) fuel w with ⟨h3, _⟩ | ⟨w1, r1, sent', used, h3, h4, _, _, h5⟩
  · rw [h] at h3; simp at h3
  · rw [h] at h3
    simp only [Run.ret.injEq, Prod.mk.injEq] at h3
    obtain ⟨rfl, rfl⟩ := h3
    obtain rfl := List.append_cancel_left (h1.symm.trans h4)
    obtain ⟨⟨a1, a2⟩, _⟩ := h5
    rw [hl] at a1 a2
    obtain ⟨wire, b1, b2⟩ := a1
    exact ⟨wire, b1, b2, a2⟩

/-- The hypotheses of `C01_sent` are met, in the middle of sending and at the end. -/
example : demoStream.length = none ∧ demoStream.headers.WF ∧
    sendResponse exactHexLen (ascii "NOW") 3 demoStream ⟨[.accept 7, .pending], [], 0⟩ = .ret (⟨[], ascii "HTTP/1.", 0⟩, .running) ∧
    sendResponse exactHexLen (ascii "NOW") 30 demoStream ⟨[], [], 0⟩ =
      .ret (⟨[], ascii "HTTP/1.1 200 OK\r\ntransfer-encoding: chunked\r\ndate: NOW\r\nx-a: 1\r\nx-a: 2\r\ncontent-type: application/octet-stream\r\n\r\n5\r\nhello\r\n6\r\n world\r\n0\r\n\r\n", 140⟩, .ok 140) :=
  ⟨rfl, demo_wf, by decide +kernel, by decide +kernel⟩

/-! ## C10 -/

/-- **C10.** If `send` returns `Ok` with `bytes_written = amt`, the transport has accepted exactly a
complete response (for a body of unknown length: head and complete chunked message with the whole
body; for a declared length `n`: head and the first `n` bytes of the body, none missing), `amt` is its
length, and the transport reported no error. -/
theorem C10_bytes_written {hexLen : Nat → Nat} (hx : HexLenOk hexLen) {resp : InnerResponse ρ} {now : Bytes}
    (hw : resp.headers.WF) (hlim : ∀ n, resp.length = some n → 8192 + n < usizeLimit) {fuel : Nat} {w w' : Writer} {amt : Nat}
    (h : sendResponse hexLen now fuel resp w = .ret (w', .ok amt)) :
    ∃ msg, w'.got = w.got ++ msg ∧ amt = msg.length ∧
      IsResponse (headOf resp now) resp.length (rem resp.body) msg ∧
      (resp.length = none → fin resp.body = none) ∧
      (∀ n, resp.length = some n → n ≤ (rem resp.body).length) ∧
      ∃ used, w.script = used ++ w'.script ∧ ∀ x, WEv.err x ∉ used := by
  rcases sendResponse_spec (now := now) hx hw hlim fuel w with ⟨h1, _⟩ | ⟨w1, r, sent, used, h1, h2, h3, h4, h5⟩
  · rw [h] at h1; simp at h1
  · rw [h] at h1
    simp only [Run.ret.injEq, Prod.mk.injEq] at h1
    obtain ⟨rfl, rfl⟩ := h1
    obtain ⟨⟨a1, a2⟩, a3, a4⟩ := h5
    refine ⟨sent, h2, a3, a1, ?_, ?_, used, h3, a4⟩
    · intro hl; rw [hl] at a2; exact a2
    · intro n hl; rw [hl] at a2; exact a2

/-- A transport that accepts 50 bytes, is not ready, accepts 100, and then everything. -/
def demoWriter : Writer := ⟨[.accept 50, .pending, .accept 100], ascii "before", 0⟩

/-- The hypotheses of `C10_bytes_written` are met. -/
example : demoStream.headers.WF ∧ sendResponse exactHexLen (ascii "NOW") 30 demoStream demoWriter =
    .ret (⟨[], ascii "beforeHTTP/1.1 200 OK\r\ntransfer-encoding: chunked\r\ndate: NOW\r\nx-a: 1\r\nx-a: 2\r\ncontent-type: application/octet-stream\r\n\r\n5\r\nhello\r\n6\r\n world\r\n0\r\n\r\n", 146⟩, .ok 140) :=
  ⟨demo_wf, by decide +kernel⟩

/-! ## C11 -/

/-- **C11.** At every moment of `send` (also if its future is dropped there, and also when it has
returned) what the transport has received, beyond what it had before, is a prefix of a complete
response. If `send` returns an error, it is the body reader's, or the last answer of the transport,
or `WriteZero` for a transport that accepted nothing; and an error of the transport is always
returned: as long as `send` goes on or returns `Ok`, the transport has reported none. -/
theorem C11_prefix {hexLen : Nat → Nat} (hx : HexLenOk hexLen) {resp : InnerResponse ρ} {now : Bytes}
    (hw : resp.headers.WF) (hlim : ∀ n, resp.length = some n → 8192 + n < usizeLimit) {fuel : Nat} {w w' : Writer} {r : CopyRes}
    (h : sendResponse hexLen now fuel resp w = .ret (w', r)) :
    ∃ sent used msg, w'.got = w.got ++ sent ∧ w.script = used ++ w'.script ∧ sent <+: msg ∧
      IsResponse (headOf resp now) resp.length (rem resp.body) msg ∧
      (∀ x, r = .err x → fin resp.body = some x ∨ (∃ pre, used = pre ++ [.err x]) ∨
        (x = .writeZero ∧ ∃ pre, used = pre ++ [.accept 0])) ∧
      (∀ pre ev post, used = pre ++ ev :: post → (∃ x, ev = .err x) → post = [] ∧ ∃ x, ev = .err x ∧ r = .err x) := by
  rcases sendResponse_spec (now := now) hx hw hlim fuel w with ⟨h1, _⟩ | ⟨w1, r1, sent, used, h1, h2, h3, ⟨msg, h4, h4'⟩, h5⟩
  · rw [h] at h1; simp at h1
  · rw [h] at h1
    simp only [Run.ret.injEq, Prod.mk.injEq] at h1
    obtain ⟨rfl, rfl⟩ := h1
    refine ⟨sent, used, msg, h2, h3, h4', h4, ?_, ?_⟩
    · rintro x rfl
      rcases h5 with h5 | ⟨pre, h5, _⟩ | ⟨h5, pre, h6, _⟩
      · exact .inl h5.1.1
      · exact .inr (.inl ⟨pre, h5⟩)
      · exact .inr (.inr ⟨h5, pre, h6⟩)
    · rintro pre ev post hu ⟨x, rfl⟩
      have notclean : ¬ Clean used := fun hc => hc x (by rw [hu]; simp)
      cases r with
      | running => exact absurd h5.2 notclean
      | ok a => exact absurd h5.2.2 notclean
      | err y =>
        have key : ∀ pre' ev', used = pre' ++ [ev'] → Clean pre' → post = [] ∧ ev' = .err x := by
          intro pre' ev' hu' hc
          rw [hu] at hu'
          rcases List.eq_nil_or_concat post with rfl | ⟨post', z, rfl⟩
          · exact ⟨rfl, by have := (List.append_inj' hu' rfl).2; simpa using this.symm⟩
          · exfalso
            have : pre ++ .err x :: post' ++ [z] = pre' ++ [ev'] := by simpa using hu'
            have := (List.append_inj' this rfl).1
            exact hc x (by rw [← this]; simp)
        rcases h5 with h5 | ⟨pre', h5, hc⟩ | ⟨h5, pre', h6, hc⟩
        · exact absurd h5.2 notclean
        · obtain ⟨k1, k2⟩ := key _ _ h5 hc
          exact ⟨k1, x, rfl, by cases k2; rfl⟩
        · obtain ⟨k1, k2⟩ := key _ _ h6 hc
          cases k2

/-- The hypotheses of `C11_prefix` are met by a transport that fails half-way. -/
example : sendResponse exactHexLen (ascii "NOW") 30 demoStream ⟨[.accept 8, .pending, .err (.transport 7), .pending], [], 0⟩ =
    .ret (⟨[.pending], ascii "HTTP/1.1", 0⟩, .err (.transport 7)) := by decide +kernel

/-- **C11**, what a recipient can tell: if the body reader fails (for a declared length: before it has
yielded that many bytes), then at no moment of `send`, nor after it, the transport has received a
complete response, whatever body one might take it to carry. A broken response is never mistaken for
a whole one. -/
theorem C11_never_whole {hexLen : Nat → Nat} (hx : HexLenOk hexLen) {resp : InnerResponse ρ} {now : Bytes}
    (hw : resp.headers.WF) (hlim : ∀ n, resp.length = some n → 8192 + n < usizeLimit) {fuel : Nat} {w w' : Writer} {r : CopyRes}
    (h : sendResponse hexLen now fuel resp w = .ret (w', r)) {x : IoErr} (hf : fin resp.body = some x)
    (hn : ∀ n, resp.length = some n → (rem resp.body).length < n) {sent : Bytes} (hg : w'.got = w.got ++ sent) :
    ¬ ∃ body msg more, IsResponse (headOf resp now) resp.length body msg ∧ sent = msg ++ more ∧
      ∀ n, resp.length = some n → n ≤ body.length := by
  rintro ⟨body, msg, more, hr, rfl, hb⟩
  cases hl : resp.length with
  | none =>
    obtain ⟨sent', g1, g2⟩ := sendResponse_chunks hx hl hw h
    obtain rfl := List.append_cancel_left (hg.symm.trans g1)
    rcases g2 with ⟨wire, p, ⟨y, g2⟩, g3, _⟩ | ⟨_, _, _, g3⟩
    · rw [hl] at hr
      obtain ⟨v, rfl, hv⟩ := hr
      simp only [List.append_assoc] at g2
      exact g3.no_terminator hv (x := more ++ y) (List.append_cancel_left g2).symm
    · rw [hf] at g3; cases g3
  | some n =>
    rw [hl] at hr
    obtain ⟨sent', used, msg', g1, _, g3, g4, _⟩ := C11_prefix hx hw hlim h
    obtain rfl := List.append_cancel_left (hg.symm.trans g1)
    rw [hl] at g4
    have := g3.length_le
    have h1 := hn n hl
    have h2 := hb n hl
    rw [show msg = headOf resp now ++ body.take n from hr, show msg' = headOf resp now ++ (rem resp.body).take n from g4] at this
    simp at this
    omega

/-- A body of unknown length that fails after five bytes. -/
def failingStream : InnerResponse Script :=
  { status := 200, headers := [], version := .http11, length := none, body := [.data (ascii "hello"), .err (.transport 3)] }

/-- The hypotheses of `C11_never_whole` are met. -/
example : failingStream.headers.WF ∧ fin failingStream.body = some (.transport 3) ∧
    sendResponse exactHexLen (ascii "NOW") 30 failingStream ⟨[], [], 0⟩ =
      .ret (⟨[], ascii "HTTP/1.1 200 OK\r\ntransfer-encoding: chunked\r\ndate: NOW\r\ncontent-type: application/octet-stream\r\n\r\n5\r\nhello\r\n", 0⟩, .err (.transport 3)) :=
  ⟨⟨by decide, by decide⟩, by decide, by decide +kernel⟩

/-- **C10/C11**, liveness: `send` returns. It neither panics nor hangs, unless the body is an empty
one of unknown length whose head leaves 3 or 4 bytes of the 8192-byte buffer (C03), or the reader
ends before the declared length (C05), and it has finished after finitely many steps. -/
theorem C10_send_returns_partial {hexLen : Nat → Nat} (hx : HexLenOk hexLen) {resp : InnerResponse ρ} {now : Bytes}
    (hw : resp.headers.WF) (hlim : ∀ n, resp.length = some n → 8192 + n < usizeLimit) (w : Writer)
    (hs : match resp.length with
      | none => rem resp.body ≠ [] ∨ fin resp.body ≠ none ∨
          ((headOf resp now).length % 8192 ≠ 8189 ∧ (headOf resp now).length % 8192 ≠ 8188)
      | some n => n ≤ (rem resp.body).length ∨ fin resp.body ≠ none) :
    ∃ bound, ∀ fuel, bound < fuel → ∃ w' r, sendResponse hexLen now fuel resp w = .ret (w', r) ∧ r ≠ .running := by
  refine ⟨2 * ((headOf resp now).length +
            (match resp.length with | none => (rem resp.body).length + 1 | some n => n) + meas resp.body) + w.script.length, ?_⟩
  intro fuel hf
  rcases sendResponse_spec (now := now) hx hw hlim fuel w with ⟨h1, h2, h3⟩ | ⟨w1, r, sent, used, h1, h2, h3, h4, h5⟩
  · exfalso
    cases hl : resp.length with
    | none =>
      rw [hl] at hs h3
      simp only [] at hs h3
      rcases hs with hs | hs | hs
      · exact hs h3.1
      · exact hs h2
      · have := h3.2; omega
    | some n =>
      rw [hl] at hs h3
      simp only [] at hs h3
      rcases hs with hs | hs
      · omega
      · exact hs h2
  · refine ⟨w1, r, h1, ?_⟩
    rintro rfl
    have := h5.1
    omega

example : (match demoStream.length with
      | none => rem demoStream.body ≠ [] ∨ fin demoStream.body ≠ none ∨
          ((headOf demoStream (ascii "NOW")).length % 8192 ≠ 8189 ∧ (headOf demoStream (ascii "NOW")).length % 8192 ≠ 8188)
      | some n => n ≤ (rem demoStream.body).length ∨ fin demoStream.body ≠ none) := .inl (by decide)

end Tophat
