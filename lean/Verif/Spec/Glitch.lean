import Verif.Spec.Connection
/-!
# Specification: endpoints that fail, and their error responses
-/

namespace Tophat

/-- Where an endpoint stands after the given reads of the body, if these are the reads it does and it has not sent
anything yet. -/
def Prog.afterReads {σ : Type} : Prog σ → List (Nat × RPoll) → Option (Prog σ)
  | p, [] => some p
  | .read k next, (k', a) :: l => if k = k' then (next a).afterReads l else none
  | _, _ :: _ => none

/-- The body of an error response: the message; in verbose mode also the text of the error, on a line of its own if there
is a message. -/
def Spec.glitchBody (verbose : Bool) (message error : Option Bytes) : Bytes :=
  match verbose, message, error with
  | true, none, some e => e
  | true, some [], some e => e
  | true, some m, some e => m ++ [10] ++ e
  | _, some m, _ => m
  | _, none, _ => []

/-- `hs` has the fields `own`, except that the content type is `text/plain` if there is a body. -/
def Spec.GlitchHeaders (own : HeaderMap) (body : Bytes) (hs : HeaderMap) : Prop :=
  hs.WF ∧ ∀ k, hs.getAll k = if k = ascii "content-type" ∧ body ≠ [] then [ascii "text/plain"] else own.getAll k

/-- The `Glitch`es are the same but for the text of the error. -/
def Glitch.SameButError (g g' : Glitch) : Prop :=
  g.status = g'.status ∧ g.headers = g'.headers ∧ g.version = g'.version ∧ g.message = g'.message

/-- The same behaviour but for the texts of errors. -/
inductive After.SameButErrors : {b : Bool} → After b → After b → Prop
  | read {b : Bool} (k : Nat) (n n' : RPoll → After b) : (∀ p, (n p).SameButErrors (n' p)) → SameButErrors (.read k n) (.read k n')
  | ok : SameButErrors .ok .ok
  | glitch {b : Bool} {g g' : Glitch} : g.SameButError g' → SameButErrors (b := b) (.glitch g) (.glitch g')

/-- The same behaviour but for the texts of errors. -/
inductive Prog.SameButErrors {σ : Type} : Prog σ → Prog σ → Prop
  | read (k : Nat) (n n' : RPoll → Prog σ) : (∀ p, (n p).SameButErrors (n' p)) → SameButErrors (.read k n) (.read k n')
  | send (resp : InnerResponse σ) (o o' : Nat → After true) (e e' : IoErr → After false) :
      (∀ a, (o a).SameButErrors (o' a)) → (∀ x, (e x).SameButErrors (e' x)) → SameButErrors (.send resp o e) (.send resp o' e')
  | sendFor (steps : Nat) (resp : InnerResponse σ) (o o' : Nat → After true) (e e' : IoErr → After false) (d d' : After false) :
      (∀ a, (o a).SameButErrors (o' a)) → (∀ x, (e x).SameButErrors (e' x)) → d.SameButErrors d' → SameButErrors (.sendFor steps resp o e d) (.sendFor steps resp o' e' d')
  | glitch {g g' : Glitch} : g.SameButError g' → SameButErrors (.glitch g) (.glitch g')

end Tophat
