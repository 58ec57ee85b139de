import Verif.Model.ServerEncode
/-!
# The transport's write half and `futures_lite::io::copy`

`io::copy` is not tophat code; it is what `InnerResponse::send` (src/server/response_writer.rs:59-76)
and `client::connect` run to write a message, so its loop is modelled here from the source of
futures-lite 1.x.
-/

namespace Tophat

/-- One answer of the transport to `poll_write` or `poll_flush`.
* `accept n`: `poll_write` takes up to `n` bytes (`n = 0` is `Ready(Ok(0))`); `poll_flush` succeeds;
* `pending`, `err e`: either call returns `Pending`, an error.  The transport written to at src/server/response_writer.rs:65, src/client/mod.rs:21. -/
inductive WEv
  | accept (n : Nat)
  | pending
  | err (e : IoErr)
  deriving DecidableEq, Repr

/-- The write half of a transport: the answers it is going to give (after which it accepts
everything), all the bytes it has accepted, and how many of them it had accepted when it was last flushed.  (A transport with a buffer of its own may keep the
others until the next flush.)  The transport written to at src/server/response_writer.rs:65, src/client/mod.rs:21. -/
structure Writer where
  script : List WEv
  got : Bytes
  flushed : Nat
  deriving DecidableEq, Repr

/-- Result of `poll_write` / `poll_flush`.  Called by `io::copy`, src/server/response_writer.rs:65, src/client/mod.rs:21. -/
inductive WPoll
  | pending
  | err (e : IoErr)
  | ready (n : Nat)
  deriving DecidableEq, Repr

/-- `AsyncWrite::poll_write`.  Called by `io::copy`, src/server/response_writer.rs:65, src/client/mod.rs:21, and by `write_all`, src/server/decode.rs:175. -/
def Writer.write (w : Writer) (bs : Bytes) : Writer × WPoll :=
  match w.script with
  | [] => ({ w with got := w.got ++ bs }, .ready bs.length)
  | .accept n :: s => ({ w with script := s, got := w.got ++ bs.take n }, .ready (min n bs.length))
  | .pending :: s => ({ w with script := s }, .pending)
  | .err e :: s => ({ w with script := s }, .err e)

/-- `AsyncWrite::poll_flush`.  Called by `io::copy`, src/server/response_writer.rs:65, src/client/mod.rs:21. -/
def Writer.flush (w : Writer) : Writer × WPoll :=
  match w.script with
  | [] => ({ w with flushed := w.got.length }, .ready 0)
  | .accept _ :: s => ({ w with script := s, flushed := w.got.length }, .ready 0)
  | .pending :: s => ({ w with script := s }, .pending)
  | .err e :: s => ({ w with script := s }, .err e)

/-- State of `futures_lite::io::copy(&mut encoder, &mut writer)`: the `BufReader` around the encoder
(`poll_read` of the encoder is a parameter of `copyGo`; the buffer has 8192 bytes, whose contents are whatever the last read left there, and
`pos..cap` is not yet written), the writer and the number of bytes copied.  Not in /repo; used at src/server/response_writer.rs:65, src/client/mod.rs:21. -/
structure CopyState (ε : Type) where
  enc : ε
  buf : Bytes
  pos : Nat
  cap : Nat
  writer : Writer
  amt : Nat

/-- How far `io::copy` has come: still going (pending or between two steps), or returned.  Not in /repo; used at src/server/response_writer.rs:65, src/client/mod.rs:21. -/
inductive CopyRes
  | running
  | ok (amt : Nat)
  | err (e : IoErr)
  deriving DecidableEq, Repr

/-- `BufReader::new` allocates 8 KiB of zeros.  Not in /repo; used at src/server/response_writer.rs:65, src/client/mod.rs:21. -/
def copyBufLen : Nat := 8192

/-- The state `io::copy` starts in.  Not in /repo; used at src/server/response_writer.rs:65, src/client/mod.rs:21. -/
def CopyState.init {ε : Type} (enc : ε) (w : Writer) : CopyState ε where
  enc := enc
  buf := List.replicate copyBufLen 0
  pos := 0
  cap := 0
  writer := w
  amt := 0

/-- `fuel` iterations of the loop of `io::copy`.  Being polled again after `Pending` re-enters the
loop at its start, so a `Pending` simply goes on with the next iteration; stopping after `fuel`
iterations stands for "at any moment", including a future that is dropped half-way.  Not in /repo; used at src/server/response_writer.rs:65, src/client/mod.rs:21. -/
def copyGo {ε : Type} (poll : ε → Bytes → Run (ε × Bytes × EPoll)) :
    Nat → CopyState ε → Run (CopyState ε × CopyRes)
  | 0, s => .ret (s, .running)
  | fuel + 1, s =>
    if s.pos ≥ s.cap then do
      -- `BufReader::poll_fill_buf` reads from the encoder
      let (enc, buf, r) ← poll s.enc s.buf
      let s := { s with enc := enc, buf := buf }
      match r with
      | .pending => copyGo poll fuel s
      | .err e => .ret (s, .err e)
      | .ready n =>
        let s := { s with pos := 0, cap := n }
        if n = 0 then
          let (w, p) := s.writer.flush
          let s := { s with writer := w }
          match p with
          | .pending => copyGo poll fuel s
          | .err e => .ret (s, .err e)
          | .ready _ => .ret (s, .ok s.amt)
        else copyGo poll fuel s
    else do
      let data ← slice s.buf s.pos s.cap
      let (w, p) := s.writer.write data
      let s := { s with writer := w }
      match p with
      | .pending => copyGo poll fuel s
      | .err e => .ret (s, .err e)
      | .ready i =>
        if i = 0 then .ret (s, .err .writeZero)
        else copyGo poll fuel { s with amt := s.amt + i, pos := min (s.pos + i) s.cap }

/-- src/server/response_writer.rs:59-76 `InnerResponse::send`, stopped after `fuel` iterations of the
copy loop: what the transport looks like and what was returned. -/
def sendResponse {ρ : Type} [AsyncBufRead ρ] (hexLen : Nat → Nat) (now : Bytes) (fuel : Nat)
    (resp : InnerResponse ρ) (w : Writer) : Run (Writer × CopyRes) := do
  let (s, r) ← copyGo (Encoder.poll hexLen now) fuel (CopyState.init (Encoder.encode resp) w)
  .ret (s.writer, r)

end Tophat
