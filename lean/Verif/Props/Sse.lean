import Verif.Proofs.Sse
import Verif.Props.Prompt
import Verif.Props.ResponseWriter
/-!
# Property C69: server-sent events

The application gives `set_sse` a stream.  A stream is the list `evs` of the results of polling it (`Model/IntoAsyncRead.lean`): items, which may be empty, `Pending`, errors.
`Script.bytes evs` are its items in a row, up to the first error; `Script.ending evs` is that error, if there is one.
-/

set_option linter.unusedSectionVars false

namespace Tophat
open Spec

/-- The response that is sent after `set_sse(stream)`. -/
abbrev sseResponse (r : Response IntoAsyncRead) (evs : List Ev) : InnerResponse (BodyReader IntoAsyncRead) := (r.setSse (IntoAsyncRead.new evs)).toInner

theorem sse_wf {r : Response IntoAsyncRead} (hw : r.headers.WF) (evs : List Ev) : (sseResponse r evs).headers.WF := hw.insert _ _

private theorem ite_filter {p : Prop} [Decidable p] {a b name : Bytes} (h : a ≠ name) : ((if p then [(a, b)] else []).filter fun f => decide (f.1 = name)) = [] := by
  split <;> simp [h]

/-- **C69**, the head: whatever headers were set before, the fields that are sent have exactly one `content-type`, `text/event-stream`, and the message is chunked, without
`content-length`; the other fields are those of the response before, and status and version are not changed. -/
theorem C69_head {r : Response IntoAsyncRead} (hw : r.headers.WF) (evs : List Ev) (now : Bytes) :
    ∃ fields, headOf (sseResponse r evs) now = renderResponseHead r.version r.status fields ∧
      (fields.filter fun f => f.1 = ascii "content-type").map (·.2) = [ascii "text/event-stream"] ∧
      (fields.filter fun f => f.1 = ascii "transfer-encoding").map (·.2) = [ascii "chunked"] ∧
      (fields.filter fun f => f.1 = ascii "content-length") = [] ∧
      ∀ name, name ≠ ascii "content-type" → name ≠ ascii "transfer-encoding" → name ≠ ascii "content-length" → name ≠ ascii "date" →
        (fields.filter fun f => f.1 = name).map (·.2) = r.headers.getAll name := by
  have hg : ∀ name, (sseResponse r evs).headers.getAll name = if name = ascii "content-type" then [ascii "text/event-stream"] else r.headers.getAll name := by
    intro name
    exact HeaderMap.getAll_insert hw.nodup _ _ _
  refine ⟨sentFields (sseResponse r evs).headers none now, rfl, ?_, ?_, ?_, ?_⟩
  · rw [C37_wire (by decide) (by decide) (.inl (by rw [hg]; simp)), hg]
    simp
  · have e1 : (sentFields (sseResponse r evs).headers none now).filter (fun f => f.1 = ascii "transfer-encoding") = [(ascii "transfer-encoding", ascii "chunked")] := by
      simp only [sentFields, framingField, List.filter_append, List.filter_filter]
      rw [ite_filter (by decide), ite_filter (by decide), (List.filter_eq_nil_iff (l := (sseResponse r evs).headers.iter)).2 (by rintro f hf; simp +contextual)]
      decide
    rw [e1]; rfl
  · simp only [sentFields, framingField, List.filter_append, List.filter_filter]
    rw [ite_filter (by decide), ite_filter (by decide), (List.filter_eq_nil_iff (l := (sseResponse r evs).headers.iter)).2 (by rintro f hf; simp +contextual)]
    decide
  · intro name h1 h2 h3 h4
    rw [C37_wire h3 h2 (.inr ⟨h4, h1⟩), hg, if_neg h1]

/-- **C69**, the whole stream: if `send` succeeds, the stream reported no error, and the transport has got the head and a chunked message whose payload are the items of the
stream, in order, complete, nothing between them, whatever the sizes of the items (empty ones do not end the message) and whenever they came. -/
theorem C69_complete {hexLen : Nat → Nat} (hx : HexLenOk hexLen) {r : Response IntoAsyncRead} (hw : r.headers.WF) {evs : List Ev} {now : Bytes} {fuel : Nat} {w w' : Writer} {amt : Nat}
    (h : sendResponse hexLen now fuel (sseResponse r evs) w = .ret (w', .ok amt)) :
    Script.ending evs = none ∧ ∃ wire, w'.got = w.got ++ headOf (sseResponse r evs) now ++ wire ∧ ChunkedMessage wire (Script.bytes evs) := by
  obtain ⟨msg, h1, -, h2, h3, -⟩ := C10_bytes_written hx (sse_wf hw evs) (fun n hn => by cases hn) h
  obtain ⟨wire, rfl, h4⟩ := h2
  exact ⟨h3 rfl, wire, by rw [h1, List.append_assoc], h4⟩

/-- **C69**, promptness: the stream has yielded some items and then nothing comes for `N` polls.  Then `send` goes on waiting, and the transport has got the head and, in whole
chunks, all bytes of those items.  The number of steps it takes is bounded in advance. -/
theorem C69_prompt {hexLen : Nat → Nat} (hx : HexLenOk hexLen) {r : Response IntoAsyncRead} (hw : r.headers.WF) {evs more : List Ev} (he : Script.ending evs = none) {N : Nat} {now : Bytes}
    {w : Writer} (hrel : w.Reliable) {fuel : Nat} (hmore : more = List.replicate N .pending)
    (h1 : 2 * ((headOf (sseResponse r (evs ++ more)) now).length + (Script.bytes evs).length + 1 + Script.pendings evs) + w.script.length < fuel) (h2 : fuel ≤ N) :
    ∃ w' wire, sendResponse hexLen now fuel (sseResponse r (evs ++ more)) w = .ret (w', .running) ∧ w'.got = w.got ++ headOf (sseResponse r (evs ++ more)) now ++ wire ∧ Chunks wire (Script.bytes evs) := by
  subst hmore
  have hrem : rem (sseResponse r (evs ++ List.replicate N .pending)).body = Script.bytes evs := by
    show Script.bytes (evs ++ List.replicate N .pending) = _
    rw [IntoAsyncRead.bytes_append _ _ he, (IntoAsyncRead.silence_spec N).2.1, List.append_nil]
  have hmeas : meas (sseResponse r (evs ++ List.replicate N .pending)).body = Script.pendings evs + N := by
    show Script.pendings (evs ++ List.replicate N .pending) = _
    rw [IntoAsyncRead.pendings_append _ _ he, (IntoAsyncRead.silence_spec N).1]
  have hfin : fin (sseResponse r (evs ++ List.replicate N .pending)).body = none := by
    show Script.ending (evs ++ List.replicate N .pending) = _
    rw [IntoAsyncRead.ending_append _ _ he, (IntoAsyncRead.silence_spec N).2.2]
  rw [← hrem]
  refine streamed_naps hx (sse_wf hw _) rfl (IntoAsyncRead.naps N).body (fun hq => ?_) hfin hrel ⟨_, rfl, by simp [IntoAsyncRead.new], evs, N, rfl, by omega, he, .inl rfl⟩ (by rw [hrem, hmeas]; omega)
  have : meas (sseResponse r (evs ++ List.replicate N .pending)).body < N := hq _ rfl
  omega

/-- The content type the application had set before, and another header. -/
def sseBefore : Response IntoAsyncRead := (((Response.new .empty).insertHeader (ascii "content-type") (ascii "text/html")).insertHeader (ascii "x-a") (ascii "1"))

/-- Two events, an empty item between them. -/
def sseEvents : List Ev := [.data (ascii "data: a\n\n"), .data [], .pending, .data (ascii "data: b\n\n")]

/-- A transport that is slow at first. -/
def sseTransport : Writer := ⟨[.accept 7, .pending, .accept 1], [], 0⟩

example : sseBefore.headers.WF ∧ Script.ending sseEvents = none ∧ sseTransport.Reliable ∧
    2 * ((headOf (sseResponse sseBefore (sseEvents ++ List.replicate 1000 .pending)) (ascii "NOW")).length + (Script.bytes sseEvents).length + 1 + Script.pendings sseEvents) + sseTransport.script.length < 1000 := by
  have h0 : (Response.new (.empty : RespBody IntoAsyncRead)).headers.WF := HeaderMap.wf_nil
  refine ⟨(h0.insert (ascii "content-type") (ascii "text/html")).insert (ascii "x-a") (ascii "1"), rfl, ?_, by decide +kernel⟩
  intro e he
  simp [sseTransport] at he
  rcases he with rfl | rfl | rfl <;> exact ⟨by simp, by simp⟩

example : sendResponse exactHexLen (ascii "NOW") 1000 (sseResponse sseBefore sseEvents) sseTransport =
    .ret (⟨[], ascii "HTTP/1.1 200 OK\r\ntransfer-encoding: chunked\r\ndate: NOW\r\ncontent-type: text/event-stream\r\nx-a: 1\r\n\r\n9\r\ndata: a\n\n\r\n9\r\ndata: b\n\n\r\n0\r\n\r\n", 132⟩, .ok 132) := by decide +kernel

example : sendResponse exactHexLen (ascii "NOW") 1000 (sseResponse sseBefore (sseEvents ++ List.replicate 1000 .pending)) sseTransport =
    .ret (⟨[], ascii "HTTP/1.1 200 OK\r\ntransfer-encoding: chunked\r\ndate: NOW\r\ncontent-type: text/event-stream\r\nx-a: 1\r\n\r\n9\r\ndata: a\n\n\r\n9\r\ndata: b\n\n\r\n", 0⟩, .running) := by decide +kernel

end Tophat
