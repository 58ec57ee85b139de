import Verif.Model.Duplex
/-!
# A request body that outlives the call of the endpoint

`Request` is `Send` and `'static`, so an endpoint can give the body to another task and return; src/server/mod.rs:59-102 then goes on with the next `decode`.  The body (src/server/decode.rs:138-146) and the
next `decode` (src/server/decode.rs:39) each have a clone of the connection, and all clones are the same socket.  Here a schedule says which of the two is polled next.  In the model both contain the connection; whoever
has been polled hands its new state to the other (`mapIo`).
-/

namespace Tophat

/-- A task that holds the body of a request, and the loop of `accept` in its next iteration.  src/server/mod.rs:59-102, src/server/decode.rs:33-157. -/
structure Shared (ρ : Type) where
  /-- the body the task holds -/
  body : ReqBody ρ
  /-- the `decode` the loop awaits -/
  fut : DecFut ρ
  /-- the writing side of the connection -/
  wr : Writer
  /-- the number of the iteration -/
  iter : Nat
  /-- what `accept` has returned -/
  over : Option AcceptRes

/-- Who is polled: the task, reading at most `k` bytes, or the loop of `accept`.  Not in /repo: the executor. -/
inductive Turn
  | task (k : Nat)
  | server
  deriving DecidableEq, Repr

/-- What is seen: what a read of the task gives, or what `accept` does.  Not in /repo. -/
inductive TurnSeen
  | task (k : Nat) (p : RPoll)
  | server (ev : List Event)
  deriving DecidableEq, Repr

section
variable {ρ : Type} [AsyncRead ρ] {σ : Type} [AsyncBufRead σ]

/-- The task reads from the body, src/body.rs:159-178. -/
def Shared.taskStep (k : Nat) (s : Shared ρ) : Run (Shared ρ × TurnSeen) := do
  let (b, p) ← pollRead s.body k
  .ret ({ s with body := b, fut := s.fut.mapIo fun _ => b.io }, .task k p)

/-- The next iteration of the loop begins, on the connection `io`.  src/server/mod.rs:59-61. -/
def Shared.next (s : Shared ρ) (io : ρ) (w : Writer) (ev : List Event) : Shared ρ × TurnSeen :=
  ({ s with body := s.body.mapIo fun _ => io, fut := DecFut.start io, wr := w, iter := s.iter + 1 }, .server ev)

/-- The loop of `accept` returns.  src/server/mod.rs:84, 90-94. -/
def Shared.stop (s : Shared ρ) (io : ρ) (w : Writer) (ev : List Event) (r : AcceptRes) : Shared ρ × TurnSeen :=
  ({ s with body := s.body.mapIo fun _ => io, fut := DecFut.start io, wr := w, over := some r }, .server ev)

/-- The loop of `accept` is polled, without a timeout: `decode` is polled once (src/server/mod.rs:81), and if it is ready, the rest of the iteration is run (src/server/mod.rs:83-101).
Simplified: the call of the endpoint and its response are one step. -/
def Shared.serverStep (env : Env) (opts : ServerOpts) (endpoint : Endpoint σ) (fuel : Nat) (s : Shared ρ) : Run (Shared ρ × TurnSeen) :=
  match s.over with
  | some _ => .ret (s, .server [])
  | none => do
    let (w, p) ← s.fut.poll env.uriOk (env.pool s.iter) fuel s.wr
    match p with
    | .pending f => .ret ({ s with body := s.body.mapIo fun _ => f.io, fut := f, wr := w }, .server (interimEvent s.wr w))
    | .ready (.none io) => .ret (s.stop io w (interimEvent s.wr w) .ok)
    | .ready (.fail f io) => do
      let (w', ev) ← answerFail env fuel s.iter f w
      match failError f with
      | some e => .ret (s.stop io w' (interimEvent s.wr w ++ ev) (.err e))
      | none => .ret (s.next io w' (interimEvent s.wr w ++ ev))
    | .ready (.request req) => do
      let (body, w1, ev1, g) ← runProg env fuel s.iter (endpoint req.head req.length) req.body w
      let (w2, ev2) ← answerGlitch env opts fuel s.iter g w1
      .ret (s.next body.io w2 (interimEvent s.wr w ++ .call req.head req.length :: (ev1 ++ ev2)))

/-- One turn.  Models no code: src/server/mod.rs:59-102 and a task, run by an executor. -/
def Shared.step (env : Env) (opts : ServerOpts) (endpoint : Endpoint σ) (fuel : Nat) (s : Shared ρ) : Turn → Run (Shared ρ × TurnSeen)
  | .task k => s.taskStep k
  | .server => s.serverStep env opts endpoint fuel

/-- A schedule.  Models no code: src/server/mod.rs:59-102 and a task, run by an executor. -/
def Shared.run (env : Env) (opts : ServerOpts) (endpoint : Endpoint σ) (fuel : Nat) : Shared ρ → List Turn → Run (Shared ρ × List TurnSeen)
  | s, [] => .ret (s, [])
  | s, t :: ts => do
    let (s, x) ← s.step env opts endpoint fuel t
    let (s, xs) ← s.run env opts endpoint fuel ts
    .ret (s, x :: xs)

/-- The first iteration, in which the endpoint gives the body to a task when it returns: `acceptStep` (src/server/mod.rs:59-102, without a timeout), except that the body is kept.  `none`: there was no request. -/
def Shared.begin (env : Env) (opts : ServerOpts) (endpoint : Endpoint σ) (fuel n : Nat) (c : Conn ρ) : Run (Option (Shared ρ × List Event)) := do
  let (w, _, a) ← awaitDecode env opts fuel (env.pool n) fuel (DecFut.start c.rd) c.wr c.clock
  match a with
  | .ready (.request req) => do
    let (body, w1, ev1, g) ← runProg env fuel n (endpoint req.head req.length) req.body w
    let (w2, ev2) ← answerGlitch env opts fuel n g w1
    .ret (some (⟨body, DecFut.start body.io, w2, n + 1, none⟩, interimEvent c.wr w ++ .call req.head req.length :: (ev1 ++ ev2)))
  | _ => .ret none

end

end Tophat
