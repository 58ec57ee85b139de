import Verif.Model.Reader
/-!
# The reader behind `set_sse`

`set_sse` (src/server/response_writer.rs:237-246) takes a `TryStream` of byte items and turns it into a reader with `into_async_read` of futures-util 0.3.8.
That crate is not tophat code; its `IntoAsyncRead` is modelled here because the body of every server-sent events response is read through it.

A stream is given by the list of the results of polling it: `Ev.data bs` is `Ready(Some(Ok(bs)))`, where `bs` may be empty, `Ev.err e` is `Ready(Some(Err(e)))`, and after
the last event it is `Ready(None)` forever.
-/

namespace Tophat

/-- `ReadState` of futures-util, stream/try_stream/into_async_read.rs.  The state `Ready` is only entered with `chunk_start < chunk.len()`, which is part of the type here. -/
inductive ReadState
  | ready (chunk : Bytes) (start : Nat) (h : start < chunk.length)
  | pendingChunk
  | eof
  deriving DecidableEq

/-- `IntoAsyncRead` of futures-util.  Not in /repo; used at src/server/response_writer.rs:242. -/
structure IntoAsyncRead where
  stream : List Ev
  state : ReadState
  deriving DecidableEq

namespace IntoAsyncRead

/-- `IntoAsyncRead::new`.  Not in /repo; used at src/server/response_writer.rs:242. -/
def new (stream : List Ev) : IntoAsyncRead := ⟨stream, .pendingChunk⟩

/-- The loop in state `PendingChunk`: polls the stream until an item is not empty.  `Ok(None)` of the model's result means that there is a chunk now.  Not in /repo; used at src/server/response_writer.rs:242. -/
def next : List Ev → IntoAsyncRead × Option RPoll
  | [] => (⟨[], .eof⟩, some (.data []))
  | .pending :: s => (⟨s, .pendingChunk⟩, some .pending)
  | .err e :: s => (⟨s, .eof⟩, some (.err e))
  | .data bs :: s => if h : 0 < bs.length then (⟨s, .ready bs 0 h⟩, none) else next s

/-- Leaves `Ready` when the chunk is used up.  Not in /repo; used at src/server/response_writer.rs:242. -/
def advance (stream : List Ev) (chunk : Bytes) (start : Nat) : IntoAsyncRead :=
  if h : start < chunk.length then ⟨stream, .ready chunk start h⟩ else ⟨stream, .pendingChunk⟩

/-- `poll_read` in the states `Ready` and `Eof`.  Not in /repo; used at src/server/response_writer.rs:242. -/
def readChunk (r : IntoAsyncRead) (k : Nat) : IntoAsyncRead × RPoll :=
  match r.state with
  | .ready chunk start _ =>
    let len := min k (chunk.length - start)
    (advance r.stream chunk (start + len), .data ((chunk.drop start).take len))
  | _ => (r, .data [])

/-- `poll_read`.  Not in /repo; used at src/server/response_writer.rs:242. -/
def read (r : IntoAsyncRead) (k : Nat) : IntoAsyncRead × RPoll :=
  match r.state with
  | .pendingChunk =>
    match next r.stream with
    | (r, some p) => (r, p)
    | (r, none) => r.readChunk k
  | _ => r.readChunk k

/-- The end of `poll_fill_buf`, in the states `Ready` and `Eof`.  Not in /repo; used at src/server/response_writer.rs:242. -/
def fillChunk (r : IntoAsyncRead) : IntoAsyncRead × RPoll :=
  match r.state with
  | .ready chunk start _ => (r, .data (chunk.drop start))
  | _ => (r, .data [])

/-- `poll_fill_buf`.  Not in /repo; used at src/server/response_writer.rs:242. -/
def fill (r : IntoAsyncRead) : IntoAsyncRead × RPoll :=
  match r.state with
  | .pendingChunk =>
    match next r.stream with
    | (r, some p) => (r, p)
    | (r, none) => r.fillChunk
  | _ => r.fillChunk

/-- `consume`.  (Its debug assertions fail only for amounts that were not offered.)  Not in /repo; used at src/server/response_writer.rs:242. -/
def drop (r : IntoAsyncRead) (n : Nat) : IntoAsyncRead :=
  if n = 0 then r
  else match r.state with
  | .ready chunk start _ => advance r.stream chunk (start + n)
  | _ => r

end IntoAsyncRead

/-- Not in /repo; used at src/server/response_writer.rs:242. -/
instance : AsyncBufRead IntoAsyncRead where
  pollRead r k := .ret (r.read k)
  pollFill r := .ret r.fill
  consume r n := r.drop n

end Tophat
