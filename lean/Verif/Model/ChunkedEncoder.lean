import Verif.Model.Reader
/-!
# Model of `src/chunked/encoder.rs`
-/

namespace Tophat

/-- Result of polling an encoder with a buffer: `ready n` is `Poll::Ready(Ok(n))`.  src/chunked/encoder.rs:78, src/server/encode.rs:53. -/
inductive EPoll
  | pending
  | err (e : IoErr)
  | ready (n : Nat)
  deriving DecidableEq, Repr

/-- src/chunked/encoder.rs:19-34 `enum State`. -/
inductive CEState
  | start
  | encodeChunks
  | endOfChunks
  | receiveTrailers
  | encodeTrailers
  | endOfStream
  | ended
  deriving DecidableEq, Repr

/-- src/chunked/encoder.rs:38-43 `struct ChunkedEncoder`. -/
structure ChunkedEncoder where
  bytesWritten : Nat
  state : CEState
  deriving DecidableEq, Repr

namespace ChunkedEncoder

/-- src/chunked/encoder.rs:47-52 `ChunkedEncoder::new`. -/
def new : ChunkedEncoder := { state := .start, bytesWritten := 0 }

/-- The transitions admitted by the assertions in `set_state`, src/chunked/encoder.rs:97-105. -/
def allowed : CEState → CEState → Bool
  | .start, .encodeChunks => true
  | .encodeChunks, .endOfChunks => true
  | .endOfChunks, .receiveTrailers => true
  | .receiveTrailers, .encodeTrailers => true
  | .receiveTrailers, .endOfStream => true
  | .encodeTrailers, .endOfStream => true
  | .endOfStream, .ended => true
  | _, _ => false

/-- src/chunked/encoder.rs:92-108 `set_state`, with the `debug_assertions` checks on: a transition
that is not allowed panics.  Tracing is not modelled. -/
def setState (e : ChunkedEncoder) (s : CEState) : Run ChunkedEncoder :=
  if allowed e.state s then .ret { e with state := s } else .panic

/-- src/chunked/encoder.rs:241-250 `encode_eos`. The two single-byte stores are one `writeAt`. -/
def encodeEos (e : ChunkedEncoder) (buf : Bytes) : Run (ChunkedEncoder × Bytes × EPoll) := do
  let buf ← writeAt buf e.bytesWritten crlf
  let e := { e with bytesWritten := e.bytesWritten + 2 }
  let e ← e.setState .ended
  .ret (e, buf, .ready e.bytesWritten)

/-- src/chunked/encoder.rs:229-238 `encode_trailers` (the code sends no trailers). -/
def encodeTrailers (e : ChunkedEncoder) (buf : Bytes) : Run (ChunkedEncoder × Bytes × EPoll) := do
  let e ← e.setState .endOfStream
  e.encodeEos buf

/-- src/chunked/encoder.rs:217-226 `receive_trailers`. -/
def receiveTrailers (e : ChunkedEncoder) (buf : Bytes) : Run (ChunkedEncoder × Bytes × EPoll) := do
  let e ← e.setState .encodeTrailers
  e.encodeTrailers buf

/-- src/chunked/encoder.rs:192-213 `encode_chunks_eos`.  Waking the task is not modelled: the
executor is free to poll again at any time. -/
def encodeChunksEos (e : ChunkedEncoder) (buf : Bytes) : Run (ChunkedEncoder × Bytes × EPoll) := do
  if buf.length < 3 then
    .ret (e, buf, .ready e.bytesWritten)
  else
    let buf ← writeAt buf e.bytesWritten (48 :: crlf)
    let e := { e with bytesWritten := e.bytesWritten + 3 }
    let e ← e.setState .receiveTrailers
    e.receiveTrailers buf

variable {ρ : Type} [AsyncBufRead ρ]

/-- src/chunked/encoder.rs:122-190 `encode_chunks`.

`hexLen` stands for the floating point expression `((msg_len + 1) as f64).log(16.0).ceil() as usize`
of line 153; see `HexLenOk` for what is assumed of it. -/
def encodeChunks (hexLen : Nat → Nat) (e : ChunkedEncoder) (body : ρ) (buf : Bytes) :
    Run (ChunkedEncoder × ρ × Bytes × EPoll) := do
  let (body, p) ← pollFill body
  match p with
  | .err x => .ret (e, body, buf, .err x)
  | .pending =>
    if e.bytesWritten = 0 then .ret (e, body, buf, .pending)
    else .ret (e, body, buf, .ready e.bytesWritten)
  | .data src =>
    if src.length = 0 then
      let e ← e.setState .endOfChunks
      let (e, buf, r) ← e.encodeChunksEos buf
      .ret (e, body, buf, r)
    else
      let bufLen := buf.length - e.bytesWritten
      let msgLen := min src.length bufLen
      let framingLen := hexLen msgLen + 2 * 2
      let bufUpper := bufLen - framingLen
      let msgLen := min msgLen bufUpper
      let lenPrefix := hexUpper msgLen
      if buf.length ≤ framingLen then
        .ret (e, body, buf, .ready e.bytesWritten)
      else
        let buf ← writeAt buf e.bytesWritten lenPrefix
        let buf ← writeAt buf (e.bytesWritten + lenPrefix.length) crlf
        let e := { e with bytesWritten := e.bytesWritten + (lenPrefix.length + 2) }
        let buf ← writeAt buf e.bytesWritten (src.take msgLen)
        let body := consume body msgLen
        let e := { e with bytesWritten := e.bytesWritten + msgLen }
        let buf ← writeAt buf e.bytesWritten crlf
        let e := { e with bytesWritten := e.bytesWritten + 2 }
        .ret (e, body, buf, .ready e.bytesWritten)

/-- src/chunked/encoder.rs:111-119 `init`. -/
def init (hexLen : Nat → Nat) (e : ChunkedEncoder) (body : ρ) (buf : Bytes) :
    Run (ChunkedEncoder × ρ × Bytes × EPoll) := do
  let e ← e.setState .encodeChunks
  e.encodeChunks hexLen body buf

/-- src/chunked/encoder.rs:73-89 `encode`. -/
def encode (hexLen : Nat → Nat) (e : ChunkedEncoder) (body : ρ) (buf : Bytes) :
    Run (ChunkedEncoder × ρ × Bytes × EPoll) :=
  let e := { e with bytesWritten := 0 }
  match e.state with
  | .start => e.init hexLen body buf
  | .encodeChunks => e.encodeChunks hexLen body buf
  | .endOfChunks => do let (e, buf, r) ← e.encodeChunksEos buf; .ret (e, body, buf, r)
  | .receiveTrailers => do let (e, buf, r) ← e.encodeTrailers buf; .ret (e, body, buf, r)
  | .encodeTrailers => do let (e, buf, r) ← e.encodeTrailers buf; .ret (e, body, buf, r)
  | .endOfStream => do let (e, buf, r) ← e.encodeEos buf; .ret (e, body, buf, r)
  | .ended => .ret (e, body, buf, .ready 0)

end ChunkedEncoder

/-- What is assumed of the floating point digit count of src/chunked/encoder.rs:153: it is never
smaller than the number of digits `format!("{:X}", m)` prints for `0 < m`, and at most one larger.
(The real value is exactly that number, except that at `m + 1 = 16^k` the rounding of `ln` may make
it one larger; that is for sizes below 2^52, and the buffer of `io::copy` has 8192 bytes.)  The theorems
hold for every function with this property. -/
structure HexLenOk (hexLen : Nat → Nat) : Prop where
  covers : ∀ m, 0 < m → (hexUpper m).length ≤ hexLen m
  tight : ∀ m, hexLen m ≤ (hexUpper m).length + 1

/-- The exact value `⌈log₁₆ (m + 1)⌉` of that expression.  src/chunked/encoder.rs:153. -/
def exactHexLen (m : Nat) : Nat := if m = 0 then 0 else (hexUpper m).length

end Tophat
