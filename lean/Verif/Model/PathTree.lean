import Verif.Model.Http
/-!
# What is assumed of the `path-tree` crate (0.1.12)

Not tophat code, and its source is not in the repository.  The documentation (quoted at
src/server/router.rs:110-115) says what patterns mean; `PathTree` states that as laws, which any implementation of
lookup may satisfy in its own way.
-/

namespace Tophat

/-- A piece of a pattern: one literal byte, `:name`, or `*name`.  Not in /repo; the meaning of patterns at src/server/router.rs:110-115. -/
inductive Seg
  | lit (b : UInt8)
  | param (name : Bytes)
  | all (name : Bytes)
  deriving DecidableEq, Repr

/-- The pieces of a pattern: `:` starts a name that extends to the next `*` or `/` or the end, `*` one that extends to the
end.  First argument: the part read so far of the name of a parameter.  Not in /repo; the meaning of patterns at src/server/router.rs:110-115. -/
def segments : Option Bytes → Bytes → List Seg
  | none, [] => []
  | none, b :: r => if b = 58 then segments (some []) r else if b = 42 then [.all r] else .lit b :: segments none r
  | some n, [] => [.param n]
  | some n, b :: r =>
    if b = 42 then [.param n, .all r] else if b = 47 then .param n :: .lit 47 :: segments none r else segments (some (n ++ [b])) r

/-- A pattern matches a path, and these are the captured values: a named parameter captures the rest of a path segment, a
catch-all parameter the rest of the path.  `strict`: captured values are not empty (whether lookup accepts empty
ones is left open).  Not in /repo; the meaning of patterns at src/server/router.rs:110-115. -/
inductive Matches (strict : Bool) : List Seg → Bytes → List (Bytes × Bytes) → Prop
  | nil : Matches strict [] [] []
  | lit {b ps path caps} : Matches strict ps path caps → Matches strict (.lit b :: ps) (b :: path) caps
  | param {n ps seg rest caps} : 47 ∉ seg → (rest = [] ∨ rest.head? = some 47) → (strict = true → seg ≠ []) →
      Matches strict ps rest caps → Matches strict (.param n :: ps) (seg ++ rest) ((n, seg) :: caps)
  | all {n rest} : (strict = true → rest ≠ []) → Matches strict [.all n] rest [(n, rest)]

/-- Patterns are the same but for the names of parameters.  Not in /repo; the meaning of patterns at src/server/router.rs:110-115. -/
def Seg.shape : Seg → Seg
  | .lit b => .lit b
  | .param _ => .param []
  | .all _ => .all []

/-- `PathTree`: `find` is the lookup after the given insertions of patterns, in order. A later insertion of the same
pattern (but for names) replaces an earlier one; what is found matches; and if something matches, something is found.  Not in /repo; used at src/server/router.rs:41, 62, 121. -/
structure PathTree where
  find : {ε : Type} → List (Bytes × ε) → Bytes → Option (ε × List (Bytes × Bytes))
  sound : ∀ {ε : Type} {routes : List (Bytes × ε)} {path : Bytes} {e : ε} {caps : List (Bytes × Bytes)},
    find routes path = some (e, caps) → ∃ (pre : List (Bytes × ε)) (pat : Bytes) (post : List (Bytes × ε)), routes = pre ++ (pat, e) :: post ∧ Matches false (segments none pat) path caps ∧
      ∀ x ∈ post, (segments none x.1).map Seg.shape ≠ (segments none pat).map Seg.shape
  complete : ∀ {ε : Type} {routes : List (Bytes × ε)} {path : Bytes}, find routes path = none →
    ∀ x ∈ routes, ∀ caps, ¬ Matches true (segments none x.1) path caps

end Tophat
