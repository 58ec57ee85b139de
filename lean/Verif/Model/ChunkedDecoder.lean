import Verif.Model.Reader
import Verif.Model.Httparse
/-!
# Model of `src/chunked/decoder.rs`
-/

namespace Tophat

/-- src/chunked/decoder.rs:18 `INITIAL_CAPACITY`. -/
def initialCapacity : Nat := 1024 * 4

/-- src/chunked/decoder.rs:19 `MAX_CAPACITY`. -/
def maxCapacity : Nat := 512 * 1024 * 1024

/-- `byte_pool::Block` over a `Vec<u8>`: its bytes (so `len()` is `data.length`) and what
`capacity()` reports.  src/chunked/decoder.rs:32, 48, 217, 269-271. -/
structure Block where
  data : Bytes
  cap : Nat
  deriving DecidableEq, Repr

/-- The behaviour of the crate `byte-pool` and of the memory allocator that the decoder can observe:
`old i` is what the `i`-th block handed out contains (blocks are shared by all connections and are
not cleared, so this is arbitrary), `next` counts the blocks, and `grow c` is the capacity reported
after growing a block from capacity `c` (`Vec` may over-allocate).  src/chunked/decoder.rs:21-24, 48, 217. -/
structure Pool where
  old : Nat → Bytes
  grow : Nat → Nat
  next : Nat

/-- What `byte-pool` guarantees: blocks have the requested size, and growing makes enough room.  What src/chunked/decoder.rs:48, 217, 271 rely on. -/
structure Pool.Ok (p : Pool) : Prop where
  len : ∀ i, (p.old i).length = initialCapacity
  grow : ∀ c, c + 1024 ≤ p.grow c

/-- `POOL.alloc(INITIAL_CAPACITY)`, src/chunked/decoder.rs:48,217. -/
def Pool.alloc (p : Pool) : Block := ⟨p.old p.next, initialCapacity⟩

/-- `buffer.realloc(buffer.capacity() + 1024)`, src/chunked/decoder.rs:271: `Vec::resize` with zeros. -/
def Block.realloc (b : Block) (p : Pool) : Block :=
  ⟨b.data ++ List.replicate (b.cap + 1024 - b.data.length) 0, p.grow b.cap⟩

/-- src/chunked/decoder.rs:381-395 `enum State`.  The boxed future of `TrailerSending` is represented by the
trailers it is going to send.  It sends to a channel with room for one message (src/body.rs:26, 41, 56) and is the only one that sends, so it never has
to wait. -/
inductive DState
  | init
  | chunk (current len : Nat)
  | chunkEnd
  | trailer
  | trailerDone (headers : HeaderMap)
  | trailerSending (headers : HeaderMap)
  | done
  deriving DecidableEq, Repr

/-- src/chunked/decoder.rs:28-42 `struct ChunkedDecoder`.  `start`, `stop` are the ends of `current`.
`hasSender` is `trailer_sender.is_some()`; `sent` is what has been put into the trailer channel (the
channel is not part of the struct, but it is what the application sees).  `pool` stands for the
global `POOL` of line 23. -/
structure ChunkedDecoder (ρ : Type) where
  inner : ρ
  buffer : Block
  start : Nat
  stop : Nat
  initialDecode : Bool
  state : DState
  hasSender : Bool
  sent : List HeaderMap
  pool : Pool

/-- src/chunked/decoder.rs:362-378 `DecodeResult`.  The bytes written to the caller's buffer stand
for `read`; the block is passed separately. -/
inductive DResult
  | some (read : Bytes) (newState : DState) (start stop : Nat) (pending : Bool)
  | none
  deriving DecidableEq, Repr

/-- The error that is returned through `io::Result<DecodeResult>`, or the result.  src/chunked/decoder.rs:66, 144, 362-378. -/
inductive DStep
  | err (e : IoErr)
  | res (r : DResult)
  deriving DecidableEq, Repr

namespace ChunkedDecoder

variable {ρ : Type} [AsyncRead ρ]

/-- src/chunked/decoder.rs:45-54 `ChunkedDecoder::new`. -/
def new (inner : ρ) (pool : Pool) : ChunkedDecoder ρ where
  inner := inner
  buffer := pool.alloc
  start := 0
  stop := 0
  initialDecode := false
  state := .init
  hasSender := true
  sent := []
  pool := { pool with next := pool.next + 1 }

/-- src/chunked/decoder.rs:433-459 `decode_init`. -/
def decodeInit (buffer : Block) (start stop : Nat) : Run DStep := do
  let window ← slice buffer.data start stop
  match Httparse.parseChunkSize window with
  | .ok rest chunkLen =>
    let used := window.length - rest.length
    .ret (.res (.some [] (if chunkLen = 0 then .trailer else .chunk 0 chunkLen) (start + used) stop false))
  | .part => .ret (.res .none)
  | .err _ => .ret (.err .chunkSize)

/-- src/chunked/decoder.rs:461-481 `decode_chunk_end`. -/
def decodeChunkEnd (buffer : Block) (start stop : Nat) : Run DStep :=
  if stop - start < 2 then .ret (.res .none)
  else do
    let two ← slice buffer.data start (start + 2)
    if two = crlf then .ret (.res (.some [] .init (start + 2) stop false))
    else .ret (.err .invalidData)

/-- The loop of src/chunked/decoder.rs:491-500: `none` if some name or value is rejected. -/
def appendTrailers : HeaderMap → List (Bytes × Bytes) → Option HeaderMap
  | m, [] => some m
  | m, (n, v) :: hs =>
    match headerNameFromBytes n, headerValueFromBytes v with
    | some n, some v => appendTrailers (m.append n v) hs
    | _, _ => none

/-- src/chunked/decoder.rs:483-516 `decode_trailer`. -/
def decodeTrailer (buffer : Block) (start stop : Nat) : Run DStep := do
  let window ← slice buffer.data start stop
  match Httparse.parseHeaders 16 window with
  | .ok rest headers =>
    match appendTrailers [] headers with
    | some trailers =>
      let used := window.length - rest.length
      .ret (.res (.some [] (.trailerDone trailers) (start + used) stop false))
    | none => .ret (.err .trailer)
  | .part => .ret (.res .none)
  | .err _ => .ret (.err .trailer)

/-- src/chunked/decoder.rs:58-136 `poll_read_chunk`, with a caller's buffer of length `k`. -/
def pollReadChunk (d : ChunkedDecoder ρ) (buffer : Block) (start stop k current len : Nat) :
    Run (ChunkedDecoder ρ × DStep) := do
  let remaining := len - current
  let toRead := min remaining k
  if stop - start > 0 then
    let toReadBuf := min toRead (stop - start)
    let bs ← slice buffer.data start (start + toReadBuf)
    let (newStart, newStop) := if start + toReadBuf = stop then (0, 0) else (start + toReadBuf, stop)
    let newCurrent := current + toReadBuf
    let newState := if newCurrent = len then .chunkEnd else .chunk newCurrent len
    .ret (d, .res (.some bs newState newStart newStop false))
  else
    let (inner, p) ← pollRead d.inner toRead
    let d := { d with inner := inner }
    match p with
    | .data bs =>
      let newCurrent := current + bs.length
      let newState := if newCurrent = len then .chunkEnd else if bs.length = 0 then .done else .chunk newCurrent len
      .ret (d, .res (.some bs newState start stop false))
    | .err e => .ret (d, .err e)
    | .pending => .ret (d, .res (.some [] (.chunk current len) start stop true))

/-- src/chunked/decoder.rs:138-204 `poll_read_inner`.  `sender.send(..)` on the bounded(1) channel,
which this sender alone fills and only once, is ready at its first poll, so the `Pending` branch of
lines 177-185 is not modelled. -/
def pollReadInner (d : ChunkedDecoder ρ) (buffer : Block) (start stop k : Nat) :
    Run (ChunkedDecoder ρ × DStep) :=
  match d.state with
  | .init => do
    let r ← decodeInit buffer start stop
    .ret (d, r)
  | .chunk current len => d.pollReadChunk buffer start stop k current len
  | .chunkEnd => do
    let r ← decodeChunkEnd buffer start stop
    .ret (d, r)
  | .trailer => do
    let r ← decodeTrailer buffer start stop
    .ret (d, r)
  | .trailerDone headers =>
    if d.hasSender then
      .ret ({ d with hasSender := false, state := .trailerDone [] },
        .res (.some [] (.trailerSending headers) start stop false))
    else .panic
  | .trailerSending headers =>
    .ret ({ d with sent := d.sent ++ [headers] }, .res (.some [] .done start stop false))
  | .done => .ret (d, .res (.some [] .done start stop false))

/-- Result of the read step of the loop: `poll_read` returns, or the loop goes on.  src/chunked/decoder.rs:282-305. -/
inductive Fill (ρ : Type)
  | quit (d : ChunkedDecoder ρ) (p : RPoll)
  | go (d : ChunkedDecoder ρ) (buffer : Block) (stop : Nat)

/-- src/chunked/decoder.rs:283-304: read more bytes behind the window `start..stop` of `buffer`. -/
def readMore (d : ChunkedDecoder ρ) (buffer : Block) (start stop : Nat) : Run (Fill ρ) :=
  if stop ≤ buffer.data.length then do
    let (inner, p) ← pollRead d.inner (buffer.data.length - stop)
    let d := { d with inner := inner }
    match p with
    | .err e => .ret (.quit d (.err e))
    | .pending =>
      .ret (.quit { d with initialDecode := false, buffer := buffer, start := start, stop := stop } .pending)
    | .data bs => do
      let data ← writeAt buffer.data stop bs
      let d := if bs.length = 0 then { d with state := .done } else d
      .ret (.go d { buffer with data := data } (stop + bs.length))
  else .panic

/-- src/chunked/decoder.rs:282: the read happens only if `needs_read`. -/
def fill (d : ChunkedDecoder ρ) (buffer : Block) (start stop : Nat) (needsRead : Bool) : Run (Fill ρ) :=
  match needsRead with
  | true => d.readMore buffer start stop
  | false => .ret (.go d buffer stop)

/-- src/chunked/decoder.rs:268-357, the loop of `poll_read`; `buffer`, `start`, `stop` are the local
variables `buffer` and `n` (while `d.buffer` is the fresh block put into the struct at line 217).
`fuel` bounds the number of iterations. -/
def loop : Nat → ChunkedDecoder ρ → Block → Nat → Nat → Bool → Nat → Run (ChunkedDecoder ρ × RPoll)
  | 0, _, _, _, _, _, _ => .diverge
  | fuel + 1, d, buffer, start, stop, needsRead, k =>
    if stop - start ≥ buffer.cap ∧ ¬ buffer.cap + 1024 ≤ maxCapacity then
      .ret ({ d with buffer := buffer, start := start, stop := stop }, .err .tooLarge)
    else do
    let buffer := if stop - start ≥ buffer.cap then buffer.realloc d.pool else buffer
    let f ← d.fill buffer start stop needsRead
    match f with
    | .quit d p => .ret (d, p)
    | .go d buffer stop => do
      let (d, r) ← d.pollReadInner buffer start stop k
      match r with
      | .err e => .ret (d, .err e)
      | .res (.some read newState newStart newStop pending) =>
        let d := { d with initialDecode := true, state := newState, start := newStart, stop := newStop }
        if newState = .done then .ret ({ d with buffer := buffer }, .data read)
        else if read.length > 0 then .ret ({ d with buffer := buffer }, .data read)
        else if pending then .ret ({ d with buffer := buffer }, .pending)
        else loop fuel d buffer newStart newStop false k
      | .res .none =>
        if d.buffer.data.length = 0 ∨ start = 0 ∧ stop = 0 then
          .ret ({ d with initialDecode := false, buffer := buffer, start := start, stop := stop }, .data [])
        else loop fuel d buffer start stop true k

/-- Enough iterations for every poll with a non-empty caller's buffer (theorem `C17_no_panic`).  Bounds the loop of src/chunked/decoder.rs:268-357. -/
def loopFuel : Nat := 16 * maxCapacity + 1024

/-- src/chunked/decoder.rs:207-359 `ChunkedDecoder::poll_read` with a caller's buffer of length `k`,
with a bound `fuel` on the number of iterations of its loop. -/
def pollFuel (fuel : Nat) (d : ChunkedDecoder ρ) (k : Nat) : Run (ChunkedDecoder ρ × RPoll) :=
  let start := d.start
  let stop := d.stop
  let buffer := d.buffer
  let needsRead := match d.state with
    | .chunk _ _ => false
    | _ => true
  let d := { d with start := 0, stop := 0, buffer := d.pool.alloc, pool := { d.pool with next := d.pool.next + 1 } }
  if stop - start > 0 ∧ d.initialDecode = true then do
    let (d, r) ← d.pollReadInner buffer start stop k
    match r with
    | .err e => .ret (d, .err e)
    | .res (.some read newState newStart newStop pending) =>
      let d := { d with state := newState, start := newStart, stop := newStop }
      if pending then .ret ({ d with buffer := buffer }, .pending)
      else if newState = .done then .ret ({ d with buffer := buffer }, .data read)
      else if read.length > 0 then .ret ({ d with buffer := buffer }, .data read)
      else loop fuel d buffer newStart newStop false k
    | .res .none => loop fuel d buffer start stop needsRead k
  else loop fuel d buffer start stop needsRead k

end ChunkedDecoder

/-- src/chunked/decoder.rs:207-359 `impl AsyncRead for ChunkedDecoder`. -/
instance {ρ : Type} [AsyncRead ρ] : AsyncRead (ChunkedDecoder ρ) where
  pollRead d k := d.pollFuel ChunkedDecoder.loopFuel k

end Tophat
