import Verif.Spec.Client
import Verif.Spec.Reply
/-!
# Specification: what the text of an error of the client says
-/

namespace Tophat.Spec

/-- A message of the client without a cause, as it is printed. -/
def message (m : String) : Bytes := ascii "Some(\"" ++ ascii m ++ ascii "\")"

/-- What is printed for a request that cannot be written because its target is incomplete. -/
def unaddressedTexts : List Bytes := [message "Missing hostname", message "Missing port"]

/-- How far the request has got. -/
inductive Phase
  /-- Nothing of it was written. -/
  | unsent
  /-- Writing it failed. -/
  | sending
  /-- All of it was written; the response is missing or wrong. -/
  | awaiting
  deriving DecidableEq, Repr

/-- The phase, told from the text alone. -/
def phaseOf (text : Bytes) : Phase :=
  if text ∈ unaddressedTexts then .unsent else if text.take 10 = ascii "Io Error: " then .sending else .awaiting

/-- What the text of an error while the response is received says about the bytes `s` that the peer sends, and how the connection ends.  `ioText` gives the texts of errors of the connection. -/
inductive SaysWrong (ioText : IoErr → Bytes) (s : Bytes) (fin : Option IoErr) : Bytes → Prop
  /-- The connection failed before the head was complete. -/
  | lost {x} : NoReply s → fin = some x → SaysWrong ioText s fin (ascii "None: " ++ ioText x)
  /-- The connection was closed before the head was complete. -/
  | closed : NoReply s → fin = none → SaysWrong ioText s fin (message "Empty response")
  /-- There is no head among the first 8191 bytes. -/
  | long : 8192 ≤ s.length → (∀ h, FirstReply s h → 8192 ≤ h.length) → SaysWrong ioText s fin (message "Head byte length should be less than 8kb")
  /-- What has been received is not a response head. -/
  | malformed {h} : FirstReply s h → h.length < 8192 → (∀ v code fs, ¬ HasReply h v code fs) → SaysWrong ioText s fin (message "Malformed HTTP head")
  /-- The version is not HTTP/1.1. -/
  | version {h v code fs} : FirstReply s h → h.length < 8192 → HasReply h v code fs → v ≠ 1 → SaysWrong ioText s fin (message "Unsupported HTTP version")
  /-- There are both Content-Length and Transfer-Encoding. -/
  | ambiguous {h code fs} : FirstReply s h → h.length < 8192 → HasReply h 1 code fs → Ambiguous fs → SaysWrong ioText s fin (message "Unexpected Content-Length header")
  /-- Anything else that is wrong with the head; `lib` is the text of the error of a library. -/
  | rejected {h} (lib) : FirstReply s h → h.length < 8192 → ReplyTo h .reject → SaysWrong ioText s fin (ascii "None: " ++ lib)

end Tophat.Spec
