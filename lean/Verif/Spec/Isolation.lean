import Verif.Spec.Endpoint
import Verif.Spec.Reads
import Verif.Model.Client
/-!
# What one connection can learn about another

All connections of a process take the blocks of their chunked decoders from one pool, and a block that comes back
is not cleared.  The contents of the pool are therefore everything that one connection leaves behind for another.
-/

namespace Tophat

/-- The same pool, except for what its blocks contain. -/
structure SamePool (p p' : Pool) : Prop where
  left : p.Ok
  right : p'.Ok
  grow : p'.grow = p.grow

/-- The same surroundings, except for what the blocks of the pool contain. -/
structure SameButPool (env env' : Env) : Prop where
  hexLen : env'.hexLen = env.hexLen
  uriOk : env'.uriOk = env.uriOk
  now : env'.now = env.now
  pool : ∀ n, SamePool (env.pool n) (env'.pool n)

/-- After its answer, the endpoint does not read the body again once a read of it has failed. -/
def After.Careful : {b : Bool} → After b → Bool → Prop
  | _, .read _ next, alive => alive = true ∧ ∀ p, (next p).Careful p.good
  | _, .ok, _ => True
  | _, .glitch _, _ => True

/-- The endpoint does not read the body again once a read of it has failed. -/
def Prog.Careful {σ : Type} : Prog σ → Bool → Prop
  | .read _ next, alive => alive = true ∧ ∀ p, (next p).Careful p.good
  | .send _ onOk onErr, alive => (∀ a, (onOk a).Careful alive) ∧ ∀ e, (onErr e).Careful alive
  | .sendFor _ _ onOk onErr onDrop, alive => (∀ a, (onOk a).Careful alive) ∧ (∀ e, (onErr e).Careful alive) ∧ onDrop.Careful alive
  | .glitch _, _ => True

/-- What the caller of `connect` sees, if it then reads the body of the response until an error. -/
inductive Seen
  | writing
  | reading (buf : Bytes)
  | failed (e : ClientErr)
  | reply (status : StatusCode) (headers : HeaderMap) (length : Option Nat) (answers : List RPoll)
  deriving DecidableEq

/-- What the caller of `connect` sees, if it reads the body of the response with buffers of the given lengths, until an error. -/
def seenBy {ρ : Type} [AsyncRead ρ] (ks : List Nat) : ConnectRes ρ → Run Seen
  | .writing => .ret .writing
  | .reading buf => .ret (.reading buf)
  | .done (.err e) => .ret (.failed e)
  | .done (.ok r) => do
    let (_, ps) ← polls r.body ks
    .ret (.reply r.status r.headers r.length ps)

end Tophat
