import Verif.Spec.RequestHead
/-!
# Specification: what the client makes of a received response

RFC 7230 section 3 as read by a lenient recipient: empty lines in front of the status line are skipped, lines may end with a bare LF.
-/

namespace Tophat.Spec

/-- `h` ends with an empty line: CRLF CRLF or LF LF. -/
def EndsReply (h : Bytes) : Prop := (∃ q, h = q ++ [13, 10, 13, 10]) ∨ ∃ q, h = q ++ [10, 10]

/-- `h` is the part of the byte stream `s` up to and including the first empty line. -/
def FirstReply (s h : Bytes) : Prop := h <+: s ∧ EndsReply h ∧ ∀ p, p <+: h → EndsReply p → p = h

/-- There is no empty line in `s`. -/
def NoReply (s : Bytes) : Prop := ∀ p, p <+: s → ¬ EndsReply p

/-- The rest of the status line, behind the code: nothing, or a blank and a reason. -/
def Reason (r : Bytes) : Prop := Eol r ∨ ∃ t e, r = 32 :: (t ++ e) ∧ (∀ b ∈ t, valueByte b) ∧ Eol e

/-- `h` is a response head with version HTTP/1.`v`, the three-digit status `code` and the header fields `fs`. -/
def ReplyHead (h : Bytes) (v code : Nat) (fs : List (Bytes × Bytes)) : Prop :=
  ∃ bl ds reason sec, h = bl ++ (ascii "HTTP/1." ++ (UInt8.ofNat (48 + v) :: 32 :: (ds ++ (reason ++ sec)))) ∧
    EmptyLines bl ∧ v ≤ 1 ∧ ds.length = 3 ∧ (∀ b ∈ ds, 48 ≤ b.toNat ∧ b.toNat ≤ 57) ∧ decNum ds = code ∧ Reason reason ∧ FieldSection sec fs

/-- `h` begins with a response head of at most 128 fields. -/
def HasReply (h : Bytes) (v code : Nat) (fs : List (Bytes × Bytes)) : Prop :=
  ∃ hd junk, h = hd ++ junk ∧ ReplyHead hd v code fs ∧ fs.length ≤ 128

/-- What the client makes of a response head. -/
inductive Reply
  /-- `connect` returns an error. -/
  | reject
  /-- The response has that status, these fields (and a date), and a body of that length. -/
  | fixed (code : Nat) (fields : List (Bytes × Bytes)) (length : Nat)
  /-- The response has that status, these fields (and a date), and an empty body. -/
  | bare (code : Nat) (fields : List (Bytes × Bytes))
  /-- The response has a chunked body. -/
  | chunked

/-- The response says chunked: the first value of Transfer-Encoding is exactly that. -/
def SaysChunked (fs : List (Bytes × Bytes)) : Prop := (valuesOf (ascii "transfer-encoding") fs).head? = some (ascii "chunked")

/-- Both framing fields. -/
def Ambiguous (fs : List (Bytes × Bytes)) : Prop := valuesOf (ascii "content-length") fs ≠ [] ∧ valuesOf (ascii "transfer-encoding") fs ≠ []

/-- The verdicts. -/
inductive ReplyTo (h : Bytes) : Reply → Prop
  | malformed : (∀ v code fs, ¬ HasReply h v code fs) → ReplyTo h .reject
  | version {v code fs} : HasReply h v code fs → v ≠ 1 → ReplyTo h .reject
  | ambiguous {code fs} : HasReply h 1 code fs → Ambiguous fs → ReplyTo h .reject
  | length {code fs v} : HasReply h 1 code fs → (valuesOf (ascii "content-length") fs).head? = some v → (∀ n, ¬ IsLength v n) → ReplyTo h .reject
  | status {code fs} : HasReply h 1 code fs → ¬ SaysChunked fs → code < 100 → ReplyTo h .reject
  | chunked {code fs} : HasReply h 1 code fs → ¬ Ambiguous fs → SaysChunked fs → ReplyTo h .chunked
  | fixed {code fs v n} : HasReply h 1 code fs → ¬ Ambiguous fs → (valuesOf (ascii "content-length") fs).head? = some v → IsLength v n → 100 ≤ code →
      ReplyTo h (.fixed code fs n)
  | bare {code fs} : HasReply h 1 code fs → ¬ SaysChunked fs → valuesOf (ascii "content-length") fs = [] → 100 ≤ code → ReplyTo h (.bare code fs)

/-- The fields of a response with the date that is added if there is none. -/
def withDate (fs : List (Bytes × Bytes)) (now : Bytes) : List (Bytes × Bytes) :=
  fs ++ if valuesOf (ascii "date") fs = [] then [(ascii "date", now)] else []

end Tophat.Spec
