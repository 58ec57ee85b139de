import Verif.Model.Reader
/-!
# Specification: what an application sees that reads repeatedly
-/

namespace Tophat

/-- Polls a reader once with a buffer of each of the given lengths, up to the first error.  The
result is the reader and the answers. -/
def polls {ρ : Type} [AsyncRead ρ] : ρ → List Nat → Run (ρ × List RPoll)
  | r, [] => .ret (r, [])
  | r, k :: ks => do
    let (r, p) ← pollRead r k
    match p with
    | .err e => .ret (r, [.err e])
    | p => do
      let (r, ps) ← polls r ks
      .ret (r, p :: ps)

/-- The bytes received. -/
def received : List RPoll → Bytes
  | [] => []
  | .data bs :: ps => bs ++ received ps
  | _ :: ps => received ps

/-- `ps` contains the report of the end of the stream. -/
def SawEof (ps : List RPoll) : Prop := .data [] ∈ ps

/-- Nothing is read after the end of the stream, or an error, has been reported. -/
def StopsAtEnd (ps : List RPoll) : Prop := ∀ a p b, ps = a ++ p :: b → (p = .data [] ∨ ∃ e, p = .err e) → b = []

/-- `ps` ends with the error `e`. -/
def EndsWith (ps : List RPoll) (e : IoErr) : Prop := ∃ qs, ps = qs ++ [.err e]

end Tophat
