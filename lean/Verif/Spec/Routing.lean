import Verif.Model.Router
/-!
# Specification: routes and router data
-/

namespace Tophat

/-- The routes registered by the calls of a builder: method, pattern, endpoint, in order. -/
def routes {ε : Type} : List (BuildOp ε) → List (Bytes × Bytes × ε)
  | [] => []
  | .at m p e :: ops => (m, p, e) :: routes ops
  | _ :: ops => routes ops

/-- The data of type `Data<t>` given by a call. -/
def BuildOp.gives {ε : Type} (t : Ty) : BuildOp ε → Option Bytes
  | .data t' v => if t' = t then some v else none
  | .wrappedData t' v => if t' = .data t then some v else none
  | .at _ _ _ => none

/-- The call gives data, of any type. -/
def BuildOp.IsData {ε : Type} : BuildOp ε → Prop
  | .at _ _ _ => False
  | _ => True

/-- How a piece of a pattern is written. -/
def Seg.text : Seg → Bytes
  | .lit b => [b]
  | .param n => 58 :: n
  | .all n => 42 :: n

/-- Pieces that make up a pattern: a colon and an asterisk are never literal, the name of a parameter has no slash and no asterisk and extends to the next one of these or to the end of the pattern, a catch-all parameter extends to
the end. -/
inductive Pieces : List Seg → Prop
  | nil : Pieces []
  | lit {b ps} : b ≠ 58 → b ≠ 42 → Pieces ps → Pieces (.lit b :: ps)
  | param {n ps} : 47 ∉ n → 42 ∉ n → (ps = [] ∨ (∃ m, ps = [.all m]) ∨ ps.head? = some (.lit 47)) → Pieces ps → Pieces (.param n :: ps)
  | all {n} : Pieces [.all n]

/-- The two patterns are the same but for the names of parameters. -/
def SamePattern (p q : Bytes) : Prop := (segments none p).map Seg.shape = (segments none q).map Seg.shape

/-- The pattern `p` matches the path with these captured parameters. -/
def PatternMatches (p path : Bytes) (caps : List (Bytes × Bytes)) : Prop := Matches false (segments none p) path caps

/-- The pattern matches, and all captured values are non-empty. -/
def PatternMatchesNonEmpty (p path : Bytes) (caps : List (Bytes × Bytes)) : Prop := Matches true (segments none p) path caps

/-- A method without the bytes that have a meaning in patterns (which excludes methods with an asterisk; the other bytes are not
allowed in methods anyway). -/
def PlainMethod (m : Bytes) : Prop := 47 ∉ m ∧ 58 ∉ m ∧ 42 ∉ m

/-- What `Uri::path` can give: nothing, an asterisk or something that starts with a slash. -/
def PathText (p : Bytes) : Prop := p = [] ∨ p = [42] ∨ p.head? = some 47

end Tophat
