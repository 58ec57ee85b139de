import Verif.Model.Accept
import Verif.Model.Client
import Verif.Model.ResponseWriter
import Verif.Model.IntoAsyncRead
/-!
# Sources that remember whether they have to wake the task

A source that answers a poll with `Pending` has stored the waker of the task and wakes it when there is something to do; a later poll that is
`Ready` may take that back.  `Noted` is any reader together with a note whether its last answer was `Pending`.  A future or reader of
tophat that answers `Pending` relies on somebody else to wake the task: the source that it polled.
-/

namespace Tophat

/-- Any reader, with a note whether its last answer was `Pending`: then it is going to wake the task. -/
structure Noted (ρ : Type) where
  inner : ρ
  willWake : Bool
  deriving DecidableEq, Repr

/-- Takes the note. -/
def Noted.note {ρ : Type} (x : ρ × RPoll) : Run (Noted ρ × RPoll) := .ret (⟨x.1, decide (x.2 = .pending)⟩, x.2)

instance {ρ : Type} [AsyncRead ρ] : AsyncRead (Noted ρ) where
  pollRead r k := pollRead r.inner k >>= Noted.note

instance {ρ : Type} [AsyncBufRead ρ] : AsyncBufRead (Noted ρ) where
  pollRead r k := pollRead r.inner k >>= Noted.note
  pollFill r := pollFill r.inner >>= Noted.note
  consume r n := ⟨consume r.inner n, r.willWake⟩

/-- Between `w` and `w'` the transport answered `Pending` to a write, after which it was not called again. -/
def Writer.Blocked (w w' : Writer) : Prop := ∃ before, w.script = before ++ .pending :: w'.script

/-- The transport below the body of a response. -/
def ReplyBody.source {ρ : Type} : ReplyBody ρ → Option ρ
  | .empty => none
  | .stream b => some b.io

end Tophat
