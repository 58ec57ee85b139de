import Verif.Model.ServerDecode
import Verif.Model.Glitch
/-!
# Model of `src/server/mod.rs` and `src/timeout.rs`: a connection

What the outside world sees of a connection is recorded as a list of `Event`s.
-/

namespace Tophat

/-- What is not determined by tophat's code: how many digits `chunked/encoder.rs` reserves
(`hexLen`, a floating-point computation), which request targets `http::Uri` accepts, the text of the
current date and the state of the byte pool when the `n`-th request is handled.  They are used at src/chunked/encoder.rs:153,
src/server/decode.rs:152, src/server/encode.rs:57 and src/chunked/decoder.rs:48, 217. -/
structure Env where
  hexLen : Nat → Nat
  uriOk : Bytes → Bool
  now : Nat → Bytes
  pool : Nat → Pool

/-- src/server/mod.rs:107-123 `ServerOpts`; of the timeout only matters whether there is one, since when
it fires is an input. -/
structure ServerOpts where
  timeout : Bool
  verboseGlitch : Bool
  deriving DecidableEq, Repr

/-- A connection: its read half, its write half, and what the timer is going to answer, each time it
is asked, to "has the timeout expired?" (after that: no).  Models the `io: RW` of `accept`, src/server/mod.rs:35, and the timer of src/timeout.rs:25-33. -/
structure Conn (ρ : Type) where
  rd : ρ
  wr : Writer
  clock : List Bool

/-- What an endpoint does after its response was handed to `send`: it may go on reading the request
body; it ends with `Ok(ResponseWritten)`, for which `send` must have succeeded (index `true`; nothing
else makes a `ResponseWritten`), or with a `Glitch`.  Models what a future of type `Fut` (src/server/mod.rs:54-55) does behind src/server/response_writer.rs:122. -/
inductive After : Bool → Type
  | read {b : Bool} (k : Nat) (next : RPoll → After b) : After b
  | ok : After true
  | glitch {b : Bool} (g : Glitch) : After b

/-- An endpoint, for a given request: it polls the body any number of times (with buffers of its
choice), then sends a response or fails.  `ResponseWriter::send` consumes the writer, so there is
one `send` at most.  With `sendFor` it sends the response, but gives up (drops the future, as under a timeout of its own) after `steps` iterations of the loop
that writes it, if it is not done by then.  `σ` is the type of the reader of the response body.
Not modelled: endpoints that never return, that keep the body beyond their end, or that use a clone of
the connection behind tophat's back.  Models the future that src/server/mod.rs:96 awaits. -/
inductive Prog (σ : Type)
  | read (k : Nat) (next : RPoll → Prog σ)
  | send (resp : InnerResponse σ) (onOk : Nat → After true) (onErr : IoErr → After false)
  | sendFor (steps : Nat) (resp : InnerResponse σ) (onOk : Nat → After true) (onErr : IoErr → After false) (onDrop : After false)
  | glitch (g : Glitch)

/-- The endpoint function.  Models `F: Fn(Request, ResponseWriter<RW>) -> Fut`, src/server/mod.rs:38. -/
abbrev Endpoint (σ : Type) := ReqHead → Option Nat → Prog σ

/-- What can be observed of a connection, in order: the endpoint is called with a request, the
endpoint's read of the body with a buffer of `k` bytes was answered, the transport accepted bytes.  Models no code: the observer's view of src/server/mod.rs:59-102. -/
inductive Event
  | call (head : ReqHead) (length : Option Nat)
  | got (k : Nat) (p : RPoll)
  | wrote (bs : Bytes)
  deriving DecidableEq, Repr

/-- The bytes the transport accepted between two states, as an event.  Models no code: see src/server/response_writer.rs:65, where the bytes are written. -/
def wroteSince (w w' : Writer) : Event := .wrote (w'.got.drop w.got.length)

/-- `ServerError`, src/server/error.rs:10-16; `ConnectionLost` is never produced. -/
inductive ServerError
  | connectionClosedUnsupportedTransferEncoding
  deriving DecidableEq, Repr

/-- How the accept loop stands.  Models the results of `accept_with_opts`, src/server/mod.rs:51, 71, 83, 104, 136. -/
inductive AcceptRes
  | running
  | ok
  | err (e : ServerError)
  deriving DecidableEq, Repr

/-- src/server/response_writer.rs:29-56: the empty responses for decode failures. -/
def plainResponse (status : StatusCode) : InnerResponse Cursor := ⟨status, [], .http11, ⟨[]⟩, some 0⟩

/-- src/server/decode.rs:232-244 `fail_to_response_and_log`. -/
def failResponse : DecodeFail → Option (InnerResponse Cursor)
  | .connectionLost _ => none
  | .httpUnsupportedTransferEncoding => some (plainResponse 501)
  | .http10NotSupported => some (plainResponse 505)
  | _ => some (plainResponse 400)

/-- src/server/decode.rs:246-257 `fail_to_crate_err`. -/
def failError : DecodeFail → Option ServerError
  | .httpUnsupportedTransferEncoding => some .connectionClosedUnsupportedTransferEncoding
  | _ => none

/-- `InnerResponse::send` to its end: `fuel` steps of the copy loop must be enough.  Models src/server/response_writer.rs:59-76, awaited at src/server/response_writer.rs:132 and src/server/mod.rs:97-100, 132. -/
def sendFully {σ : Type} [AsyncBufRead σ] (env : Env) (fuel n : Nat) (resp : InnerResponse σ) (w : Writer) :
    Run (Writer × CopyRes) := do
  let (w, r) ← sendResponse env.hexLen (env.now n) fuel resp w
  if r = .running then .diverge else .ret (w, r)

section
variable {ρ : Type} [AsyncRead ρ] {σ : Type} [AsyncBufRead σ]

/-- Runs an endpoint after `send`: the body, the events, and the `Glitch` if it ended with one.  Models a part of src/server/mod.rs:96. -/
def runAfter : {b : Bool} → After b → ReqBody ρ → Run (ReqBody ρ × List Event × Option Glitch)
  | _, .read k next, body => do
    let (body, p) ← pollRead body k
    let (body, ev, g) ← runAfter (next p) body
    .ret (body, .got k p :: ev, g)
  | _, .ok, body => .ret (body, [], none)
  | _, .glitch g, body => .ret (body, [], some g)

/-- Runs an endpoint.  Models `endpoint(req, resp_wtr).await`, src/server/mod.rs:96. -/
def runProg (env : Env) (fuel n : Nat) : Prog σ → ReqBody ρ → Writer →
    Run (ReqBody ρ × Writer × List Event × Option Glitch)
  | .read k next, body, w => do
    let (body, p) ← pollRead body k
    let (body, w, ev, g) ← runProg env fuel n (next p) body w
    .ret (body, w, .got k p :: ev, g)
  | .send resp onOk onErr, body, w => do
    let (w', r) ← sendFully env fuel n resp w
    match r with
    | .err e => do
      let (body, ev, g) ← runAfter (onErr e) body
      .ret (body, w', wroteSince w w' :: ev, g)
    | .ok amt => do
      let (body, ev, g) ← runAfter (onOk amt) body
      .ret (body, w', wroteSince w w' :: ev, g)
    | .running => .diverge
  | .sendFor steps resp onOk onErr onDrop, body, w => do
    let (w', r) ← sendResponse env.hexLen (env.now n) steps resp w
    match r with
    | .err e => do
      let (body, ev, g) ← runAfter (onErr e) body
      .ret (body, w', wroteSince w w' :: ev, g)
    | .ok amt => do
      let (body, ev, g) ← runAfter (onOk amt) body
      .ret (body, w', wroteSince w w' :: ev, g)
    | .running => do
      let (body, ev, g) ← runAfter onDrop body
      .ret (body, w', wroteSince w w' :: ev, g)
  | .glitch g, body, w => .ret (body, w, [], some g)

/-- What awaiting `decode`, with or without timeout, gives.  Models the patterns of src/server/mod.rs:67-89. -/
inductive Await (ρ : Type)
  | ready (r : DecRes ρ)
  | timedOut (io : ρ)

/-- Awaiting `decode`: without timeout (src/server/mod.rs:81) or inside a `TimeoutFuture`
(src/server/mod.rs:67, src/timeout.rs:45-58), which polls `decode` and, if that is pending, asks the timer.
`n` bounds the number of polls. -/
def awaitDecode (env : Env) (opts : ServerOpts) (fuel : Nat) (pool : Pool) :
    Nat → DecFut ρ → Writer → List Bool → Run (Writer × List Bool × Await ρ)
  | 0, _, _, _ => .diverge
  | n + 1, f, w, clock => do
    let (w, p) ← f.poll env.uriOk pool fuel w
    match p with
    | .ready r => .ret (w, clock, .ready r)
    | .pending f =>
      if opts.timeout then
        match clock with
        | true :: clock => .ret (w, clock, .timedOut f.io)
        | _ :: clock => awaitDecode env opts fuel pool n f w clock
        | [] => awaitDecode env opts fuel pool n f w []
      else awaitDecode env opts fuel pool n f w clock

/-- src/server/mod.rs:96-101: an error response for a `Glitch`, if the endpoint ended with one. Whether sending
it succeeds does not matter. -/
def answerGlitch (env : Env) (opts : ServerOpts) (fuel n : Nat) (g : Option Glitch) (w : Writer) :
    Run (Writer × List Event) :=
  match g with
  | none => .ret (w, [])
  | some g => do
    let (w', _) ← sendFully env fuel n (g.intoInnerResponse opts.verboseGlitch) w
    .ret (w', [wroteSince w w'])

/-- src/server/mod.rs:126-140 `handle_decode_fail`: the response. -/
def answerFail (env : Env) (fuel n : Nat) (f : DecodeFail) (w : Writer) : Run (Writer × List Event) :=
  match failResponse f with
  | none => .ret (w, [])
  | some resp => do
    let (w', _) ← sendFully env fuel n resp w
    .ret (w', [wroteSince w w'])

/-- What was written while decoding (the interim response).  Models no code: an observation of src/server/decode.rs:121. -/
def interimEvent (w w' : Writer) : List Event := if w'.got = w.got then [] else [wroteSince w w']

/-- src/server/mod.rs:59-102, one iteration of the loop of `accept_with_opts`; `n` counts the iterations.
`none` means that the loop goes on. -/
def acceptStep (env : Env) (opts : ServerOpts) (endpoint : Endpoint σ) (fuel n : Nat) (c : Conn ρ) :
    Run (Conn ρ × List Event × Option AcceptRes) := do
  let (w, clock, a) ← awaitDecode env opts fuel (env.pool n) fuel (DecFut.start c.rd) c.wr c.clock
  match a with
  | .timedOut io => .ret (⟨io, w, clock⟩, interimEvent c.wr w, some .ok)
  | .ready (.none io) => .ret (⟨io, w, clock⟩, interimEvent c.wr w, some .ok)
  | .ready (.fail f io) => do
    let (w', ev) ← answerFail env fuel n f w
    .ret (⟨io, w', clock⟩, interimEvent c.wr w ++ ev, (failError f).map .err)
  | .ready (.request req) => do
    let (body, w1, ev1, g) ← runProg env fuel n (endpoint req.head req.length) req.body w
    let (w2, ev2) ← answerGlitch env opts fuel n g w1
    .ret (⟨body.io, w2, clock⟩, interimEvent c.wr w ++ .call req.head req.length :: (ev1 ++ ev2), none)

/-- src/server/mod.rs:47-105 `accept_with_opts`, stopped after `it` iterations of its loop: the state of the
connection, what has been observed, and whether it returned. -/
def acceptGo (env : Env) (opts : ServerOpts) (endpoint : Endpoint σ) (fuel : Nat) :
    Nat → Nat → Conn ρ → Run (Conn ρ × List Event × AcceptRes)
  | 0, _, c => .ret (c, [], .running)
  | it + 1, n, c => do
    let (c, ev, r) ← acceptStep env opts endpoint fuel n c
    match r with
    | some r => .ret (c, ev, r)
    | none => do
      let (c, ev', r) ← acceptGo env opts endpoint fuel it (n + 1) c
      .ret (c, ev ++ ev', r)

end

end Tophat
