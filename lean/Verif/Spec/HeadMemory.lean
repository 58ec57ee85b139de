import Verif.Model.ServerDecode
/-!
# Specification: memory for the head of a request
-/

namespace Tophat.Spec

/-- The future `decode`, polled `n` times (or until it is ready). -/
def polledDecode {ρ : Type} [AsyncRead ρ] (uriOk : Bytes → Bool) (pool : Pool) (fuel : Nat) : Nat → DecFut ρ → Writer → Run (Writer × DecPoll ρ)
  | 0, f, w => .ret (w, .pending f)
  | n + 1, f, w => do
    let (w, p) ← f.poll uriOk pool fuel w
    match p with
    | .pending f => polledDecode uriOk pool fuel n f w
    | .ready r => .ret (w, .ready r)

/-- The bytes of the connection that a server waiting for a head keeps in memory: what it has collected of the head, and its read buffer. -/
def keptBytes {ρ : Type} : DecFut ρ → Bytes
  | .head r buf _ => buf ++ r.buf
  | .interim r _ _ => r.buf

/-- How many bytes the texts of a request take: its method, its target, the names and the values of its fields. -/
def requestSize (head : ReqHead) : Nat :=
  head.method.length + head.uri.length + (head.headers.iter.map fun f => f.1.length + f.2.length).sum

end Tophat.Spec
