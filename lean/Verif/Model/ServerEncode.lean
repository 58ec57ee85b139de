import Verif.Model.ChunkedEncoder
import Verif.Model.Http
/-!
# Model of `src/server/encode.rs` and of `InnerResponse` (`src/server/response_writer.rs:17-26`)
-/

namespace Tophat

/-- src/server/response_writer.rs:17-25 `InnerResponse`, with the fields of `body: Body` that the
encoder uses (src/body.rs:14-20): the reader and the declared length.  The body reader is any
`AsyncBufRead` (a boxed trait object in the code). -/
structure InnerResponse (ρ : Type) where
  status : StatusCode
  headers : HeaderMap
  version : Version
  body : ρ
  length : Option Nat

/-- src/server/encode.rs:235-241 `EncoderState`. -/
inductive EncState
  | start | head | fixedBody | chunkedBody | done
  deriving DecidableEq, Repr

/-- src/server/encode.rs:19-34 `struct Encoder`. -/
structure Encoder (ρ : Type) where
  resp : InnerResponse ρ
  state : EncState
  bytesRead : Nat
  headBuf : Bytes
  headBytesRead : Nat
  contentLength : Option Nat
  bodyBytesRead : Nat
  chunked : ChunkedEncoder

namespace Encoder

variable {ρ : Type} [AsyncBufRead ρ]

/-- src/server/encode.rs:37-50 `Encoder::encode`. -/
def encode (resp : InnerResponse ρ) : Encoder ρ where
  resp := resp
  state := .start
  bytesRead := 0
  headBuf := []
  headBytesRead := 0
  contentLength := resp.length
  bodyBytesRead := 0
  chunked := ChunkedEncoder.new

/-- src/server/encode.rs:189-211 `encode_chunked_body`.  The sub-slice `&mut buf[bytes_read..]`
panics when `bytes_read > buf.len()`. -/
def encodeChunkedBody (hexLen : Nat → Nat) (e : Encoder ρ) (buf : Bytes) :
    Run (Encoder ρ × Bytes × EPoll) :=
  if e.bytesRead ≤ buf.length then do
    let (c, body, sub, r) ← e.chunked.encode hexLen e.resp.body (buf.drop e.bytesRead)
    let buf := buf.take e.bytesRead ++ sub
    let e := { e with chunked := c, resp := { e.resp with body := body } }
    match r with
    | .ready read =>
      let e := { e with bytesRead := e.bytesRead + read }
      let e := if e.bytesRead = 0 then { e with state := .done } else e
      .ret (e, buf, .ready e.bytesRead)
    | .err x => .ret (e, buf, .err x)
    | .pending =>
      if e.bytesRead > 0 then .ret (e, buf, .ready e.bytesRead) else .ret (e, buf, .pending)
  else .panic

/-- src/server/encode.rs:140-185 `encode_fixed_body`; `fuel` bounds the self-recursion of line 183.
The additions on `usize` of line 159 panic on overflow (debug build), as does the subtraction; the
slice `buf[range]` panics unless `bytes_read ≤ upper_limit ≤ buf.len()`. -/
def encodeFixedBody : Nat → Encoder ρ → Bytes → Run (Encoder ρ × Bytes × EPoll)
  | 0, _, _ => .diverge
  | fuel + 1, e, buf =>
    if e.bytesRead = buf.length then .ret (e, buf, .ready e.bytesRead)
    else match e.contentLength with
    | none => .panic
    | some contentLength =>
      if e.bytesRead + contentLength < usizeLimit ∧ e.bodyBytesRead ≤ e.bytesRead + contentLength then
        let upper := min (e.bytesRead + contentLength - e.bodyBytesRead) buf.length
        if e.bytesRead ≤ upper then do
          let (body, p) ← pollRead e.resp.body (upper - e.bytesRead)
          let e := { e with resp := { e.resp with body := body } }
          match p with
          | .data bs =>
            let buf ← writeAt buf e.bytesRead bs
            let e := { e with bytesRead := e.bytesRead + bs.length, bodyBytesRead := e.bodyBytesRead + bs.length }
            if contentLength = e.bodyBytesRead then
              .ret ({ e with state := .done }, buf, .ready e.bytesRead)
            else encodeFixedBody fuel e buf
          | .err x => .ret (e, buf, .err x)
          | .pending =>
            if e.bytesRead = 0 then .ret (e, buf, .pending) else .ret (e, buf, .ready e.bytesRead)
        else .panic
      else .panic

/-- src/server/encode.rs:106-138 `encode_head`. -/
def encodeHead (hexLen : Nat → Nat) (fuel : Nat) (e : Encoder ρ) (buf : Bytes) :
    Run (Encoder ρ × Bytes × EPoll) :=
  if e.headBytesRead ≤ e.headBuf.length then do
    let len := min (e.headBuf.length - e.headBytesRead) buf.length
    let part ← slice e.headBuf e.headBytesRead (e.headBytesRead + len)
    let buf ← writeAt buf 0 part
    let e := { e with bytesRead := e.bytesRead + len, headBytesRead := e.headBytesRead + len }
    if e.headBytesRead = e.headBuf.length then
      match e.contentLength with
      | some _ => encodeFixedBody fuel { e with state := .fixedBody } buf
      | none => encodeChunkedBody hexLen { e with state := .chunkedBody } buf
    else .ret (e, buf, .ready e.bytesRead)
  else .panic

/-- One line of the header block, src/server/encode.rs:95-97. -/
def headerLine (h : Bytes × Bytes) : Bytes := h.1 ++ ascii ": " ++ h.2 ++ crlf

/-- src/server/encode.rs:63-67: the header map after the default content type was put in. -/
def storedHeaders (hs : HeaderMap) (contentLength : Option Nat) : HeaderMap :=
  let hasBody := match contentLength with
    | none => true
    | some x => decide (x > 0)
  if hasBody then
    if hs.containsKey H.contentType then hs
    else hs.insert H.contentType (ascii "application/octet-stream")
  else hs

/-- src/server/encode.rs:68-99: the bytes written to `head_buf` (writes into a `Vec` cannot fail).
`date` is `None` if the response has a date header. -/
def headBytes (version : Version) (status : StatusCode) (hs : HeaderMap) (contentLength : Option Nat)
    (date : Option Bytes) : Bytes :=
  let headers := (hs.iter.filter fun h => h.1 != H.contentLength).filter fun h => h.1 != H.transferEncoding
  let headBuf := version.debug ++ [32] ++ statusDisplay status ++ crlf
  let headBuf := match contentLength with
    | some len => headBuf ++ (ascii "content-length: " ++ decimal len ++ crlf)
    | none => headBuf ++ (ascii "transfer-encoding: chunked" ++ crlf)
  let headBuf := match date with
    | some d => headBuf ++ (ascii "date: " ++ d ++ crlf)
    | none => headBuf
  let headBuf := headers.foldl (fun b h => b ++ headerLine h) headBuf
  headBuf ++ crlf

/-- src/server/encode.rs:53-104 `start`.  `now` is `fmt_http_date(SystemTime::now())`. -/
def start (hexLen : Nat → Nat) (now : Bytes) (fuel : Nat) (e : Encoder ρ) (buf : Bytes) :
    Run (Encoder ρ × Bytes × EPoll) :=
  let date := if e.resp.headers.containsKey H.date then none else some now
  let hs := storedHeaders e.resp.headers e.contentLength
  let headBuf := e.headBuf ++ headBytes e.resp.version e.resp.status hs e.contentLength date
  encodeHead hexLen fuel { e with resp := { e.resp with headers := hs }, headBuf := headBuf, state := .head } buf

/-- src/server/encode.rs:214-232 `poll_read`, with a bound `fuel` on the recursion of
`encode_fixed_body`. -/
def pollFuel (hexLen : Nat → Nat) (now : Bytes) (fuel : Nat) (e : Encoder ρ) (buf : Bytes) :
    Run (Encoder ρ × Bytes × EPoll) :=
  let e := { e with bytesRead := 0 }
  match e.state with
  | .start => e.start hexLen now fuel buf
  | .head => e.encodeHead hexLen fuel buf
  | .fixedBody => e.encodeFixedBody fuel buf
  | .chunkedBody => e.encodeChunkedBody hexLen buf
  | .done => .ret (e, buf, .ready 0)

/-- `poll_read`: each level of the recursion fills at least one byte of the buffer, unless the body
reader has ended early, so `buf.len() + 1` levels are enough to tell termination from divergence
(`C05`).  src/server/encode.rs:214-232. -/
def poll (hexLen : Nat → Nat) (now : Bytes) (e : Encoder ρ) (buf : Bytes) :
    Run (Encoder ρ × Bytes × EPoll) := e.pollFuel hexLen now (buf.length + 1) buf

end Encoder

/-- What a consumer that repeatedly polls has seen: still going on, end of stream
(some poll returned `Ready(Ok(0))`), or an error.  Models no code: an observer of src/server/encode.rs:215. -/
inductive Status
  | running
  | eof
  | failed (e : IoErr)
  deriving DecidableEq, Repr

/-- Status after a poll that returned `Ready(Ok(0))` and the rest of the polls.  Models no code: an observer of src/server/encode.rs:215. -/
def Status.sawEof : Status → Status
  | .failed x => .failed x
  | _ => .eof

/-- A consumer polls the encoder once with each of the given buffers (arbitrary contents and
lengths), appending the bytes it is handed, until it gets an error.  It goes on polling after end of
stream, so that bytes emitted after the end would be seen.  Models no code: an observer of src/server/encode.rs:215, such as `io::copy` at src/server/response_writer.rs:65. -/
def Encoder.drive {ρ : Type} [AsyncBufRead ρ] (hexLen : Nat → Nat) (now : Bytes) :
    Encoder ρ → List Bytes → Run (Encoder ρ × Bytes × Status)
  | e, [] => .ret (e, [], .running)
  | e, buf :: bufs => do
    let (e, buf, r) ← e.poll hexLen now buf
    match r with
    | .pending => Encoder.drive hexLen now e bufs
    | .err x => .ret (e, [], .failed x)
    | .ready n => do
      let (e, out, s) ← Encoder.drive hexLen now e bufs
      .ret (e, buf.take n ++ out, if n = 0 then s.sawEof else s)

/-- The sender of a response, from the beginning, polled with the given buffers: the bytes handed out
and the status.  src/server/response_writer.rs:63, and an observer of it. -/
def observe {ρ : Type} [AsyncBufRead ρ] (hexLen : Nat → Nat) (now : Bytes) (resp : InnerResponse ρ)
    (bufs : List Bytes) : Run (Bytes × Status) :=
  (Encoder.encode resp).drive hexLen now bufs >>= fun x => .ret (x.2.1, x.2.2)

end Tophat
