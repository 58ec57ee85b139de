import Verif.Model.Accept
import Verif.Model.Client
/-!
# A client and a server, connected by two pipes of finite capacity

The other files run one side against a transport whose answers are given beforehand.  Here both sides run, each as a task that is polled
whenever the schedule says so, and the transport is a pair of pipes: a write takes what there is room for and waits when there is none, a read
takes what is there and waits when there is nothing.  Each step of a task is one poll of the code of the other files.
-/

namespace Tophat

/-- The reading end of a pipe: the bytes that have been written and not been read.  The peer does not close, so an empty pipe is `Pending`.
Not in /repo: the transport below src/server/decode.rs:39. -/
structure Pipe where
  inside : Bytes
  deriving DecidableEq, Repr

/-- `poll_read` of a pipe.  Not in /repo: the transport below src/server/decode.rs:39. -/
instance : AsyncRead Pipe where
  pollRead p k := if p.inside = [] then .ret (p, .pending) else .ret (⟨p.inside.drop k⟩, .data (p.inside.take k))

/-- More bytes arrive.  Not in /repo: the transport below src/server/decode.rs:39. -/
def Pipe.push (bs : Bytes) (p : Pipe) : Pipe := ⟨p.inside ++ bs⟩

/-- The same future, with something done to its connection.  Models no code: the connection of src/server/decode.rs:33. -/
def DecFut.mapIo {ρ : Type} (f : ρ → ρ) : DecFut ρ → DecFut ρ
  | .head r buf nread => .head ⟨f r.inner, r.buf⟩ buf nread
  | .interim r p todo => .interim ⟨f r.inner, r.buf⟩ p todo

/-- The same body, with something done to its connection.  Models no code: the connection of src/server/decode.rs:138-146. -/
def ReqBody.mapIo {ρ : Type} (f : ρ → ρ) : ReqBody ρ → ReqBody ρ
  | .fixed r => .fixed ⟨⟨f r.inner.inner, r.inner.buf⟩, r.limit⟩
  | .chunked r => .chunked ⟨{ r.inner with inner := ⟨f r.inner.inner.inner, r.inner.inner.buf⟩ }, r.buf⟩

/-- A writer that nothing has been written to.  Not in /repo; see src/server/response_writer.rs:65. -/
def Writer.idle : Writer := ⟨[], [], 0⟩

/-- One iteration of the loop of `io::copy`, into a pipe that has room for `room` bytes (flushing a pipe is immediate): the new state, whether `io::copy` has
returned, and the bytes written.  Used at src/server/response_writer.rs:65 and src/client/mod.rs:21. -/
def copyStep {ε : Type} (poll : ε → Bytes → Run (ε × Bytes × EPoll)) (room : Nat) (s : CopyState ε) : Run (CopyState ε × CopyRes × Bytes) := do
  let w : Writer := ⟨if s.pos ≥ s.cap then [] else if room = 0 then [.pending] else [.accept room], [], 0⟩
  let (s, r) ← copyGo poll 1 { s with writer := w }
  .ret ({ s with writer := .idle }, r, s.writer.got)

/-- The client's task: src/client/mod.rs:15-26 `connect` writes its request (line 21) and after that reads (line 23).  What it makes of the bytes it reads is
`ClientDecode.decode`, of Verif/Model/Client.lean; here it only takes them. -/
inductive CliTask (α : Type)
  | sending (s : CopyState (ClientEncoder α))
  | listening (heard : Bytes)
  | failed (e : IoErr)

/-- The server's task, during one iteration of its loop (src/server/mod.rs:59-102): awaiting `decode`, running the endpoint, sending the response of the endpoint, sending
an error response, or at the end of the iteration. -/
inductive SrvTask (β : Type)
  | decoding (f : DecFut Pipe)
  | running (p : Prog β) (body : ReqBody Pipe)
  | sending (s : CopyState (Encoder β)) (body : ReqBody Pipe)
  | refusing (s : CopyState (Encoder Cursor)) (io : Pipe)
  | done (io : Pipe)

/-- The reading end of the connection, src/server/mod.rs:59-102. -/
def SrvTask.io {β : Type} : SrvTask β → Pipe
  | .decoding f => f.io
  | .running _ body => body.io
  | .sending _ body => body.io
  | .refusing _ io => io
  | .done io => io

/-- Bytes arrive at the server.  Models no code: the connection of src/server/mod.rs:59-102. -/
def SrvTask.feed {β : Type} (bs : Bytes) : SrvTask β → SrvTask β
  | .decoding f => .decoding (f.mapIo (.push bs))
  | .running p body => .running p (body.mapIo (.push bs))
  | .sending s body => .sending s (body.mapIo (.push bs))
  | .refusing s io => .refusing s (io.push bs)
  | .done io => .done (io.push bs)

/-- Both tasks, and the bytes on the way to the client (those on the way to the server are in its reading end).  Models src/client/mod.rs:15-26 connected to src/server/mod.rs:59-102. -/
structure Duplex (α β : Type) where
  cli : CliTask α
  srv : SrvTask β
  down : Bytes

/-- The capacities of the two pipes.  Not in /repo: the transport of src/client/mod.rs:15 and src/server/mod.rs:35. -/
structure Caps where
  up : Nat
  down : Nat

/-- Who is polled.  Not in /repo: the executor. -/
inductive Who
  | client
  | server
  deriving DecidableEq, Repr

section
variable {α : Type} [AsyncBufRead α] {β : Type} [AsyncBufRead β]

/-- The client is polled: one iteration of `io::copy`, src/client/mod.rs:21, or, when that has returned, a read, src/client/mod.rs:23. -/
def Duplex.clientStep (caps : Caps) (s : Duplex α β) : Run (Duplex α β) :=
  match s.cli with
  | .sending c => do
    let (c, r, bs) ← copyStep ClientEncoder.poll (caps.up - s.srv.io.inside.length) c
    match r with
    | .running => .ret { s with cli := .sending c, srv := s.srv.feed bs }
    | .ok _ => .ret { s with cli := .listening [], srv := s.srv.feed bs }
    | .err e => .ret { s with cli := .failed e, srv := s.srv.feed bs }
  | .listening heard => .ret { s with cli := .listening (heard ++ s.down), down := [] }
  | .failed _ => .ret s

/-- What the server does when `decode` has returned, src/server/mod.rs:81-96. -/
def SrvTask.decoded (endpoint : Endpoint β) : DecRes Pipe → SrvTask β
  | .none io => .done io
  | .fail f io => match failResponse f with
    | none => .done io
    | some resp => .refusing (CopyState.init (Encoder.encode resp) .idle) io
  | .request req => .running (endpoint req.head req.length) req.body

/-- The server is polled, in iteration `n` of its loop, without a timeout: one poll of `decode` (src/server/mod.rs:81), one read of the endpoint or its call of `send` (src/server/mod.rs:96), or
one iteration of `io::copy` (src/server/response_writer.rs:65).  The fuel of `poll` is enough for the bytes that are there.  Simplified: an endpoint whose read is pending awaits it, and what the endpoint does after its response was sent
is left out; so is giving up to send (`sendFor`). -/
def Duplex.serverStep (env : Env) (opts : ServerOpts) (n : Nat) (endpoint : Endpoint β) (caps : Caps) (s : Duplex α β) : Run (Duplex α β) :=
  let room := caps.down - s.down.length
  match s.srv with
  | .decoding f => do
    let (w, p) ← f.poll env.uriOk (env.pool n) (f.io.inside.length + 2) ⟨if room = 0 then [.pending] else [.accept room, .pending], [], 0⟩
    match p with
    | .pending f => .ret { s with srv := .decoding f, down := s.down ++ w.got }
    | .ready r => .ret { s with srv := .decoded endpoint r, down := s.down ++ w.got }
  | .running (.read k next) body => do
    let (body, p) ← pollRead body k
    match p with
    | .pending => .ret { s with srv := .running (.read k next) body }
    | p => .ret { s with srv := .running (next p) body }
  | .running (.send resp _ _) body | .running (.sendFor _ resp _ _ _) body => .ret { s with srv := .sending (CopyState.init (Encoder.encode resp) .idle) body }
  | .running (.glitch g) body => .ret { s with srv := .refusing (CopyState.init (Encoder.encode (g.intoInnerResponse opts.verboseGlitch)) .idle) body.io }
  | .sending c body => do
    let (c, r, bs) ← copyStep (Encoder.poll env.hexLen (env.now n)) room c
    match r with
    | .running => .ret { s with srv := .sending c body, down := s.down ++ bs }
    | _ => .ret { s with srv := .done body.io, down := s.down ++ bs }
  | .refusing c io => do
    let (c, r, bs) ← copyStep (Encoder.poll env.hexLen (env.now n)) room c
    match r with
    | .running => .ret { s with srv := .refusing c io, down := s.down ++ bs }
    | _ => .ret { s with srv := .done io, down := s.down ++ bs }
  | .done _ => .ret s

/-- One step of the one or the other.  Models a poll by the executor of src/client/mod.rs:15-26 or of src/server/mod.rs:59-102. -/
def Duplex.step (env : Env) (opts : ServerOpts) (n : Nat) (endpoint : Endpoint β) (caps : Caps) (s : Duplex α β) : Who → Run (Duplex α β)
  | .client => s.clientStep caps
  | .server => s.serverStep env opts n endpoint caps

/-- The first `k` steps of a schedule.  Not in /repo: the executor. -/
def Duplex.run (env : Env) (opts : ServerOpts) (n : Nat) (endpoint : Endpoint β) (caps : Caps) (sched : Nat → Who) (s : Duplex α β) : Nat → Run (Duplex α β)
  | 0 => .ret s
  | k + 1 => do
    let s ← Duplex.run env opts n endpoint caps sched s k
    s.step env opts n endpoint caps (sched k)

/-- The beginning: the client has encoded the head of its request (src/client/mod.rs:19), the server awaits a request, and both pipes are empty. -/
def Duplex.start (enc : ClientEncoder α) : Duplex α β :=
  ⟨.sending (CopyState.init enc .idle), .decoding (DecFut.start ⟨[]⟩), []⟩

end

end Tophat
