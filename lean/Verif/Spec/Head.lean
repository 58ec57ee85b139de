import Verif.Model.Http
/-!
# Specification: what a message head should look like

Uses only the vocabulary of `Verif.Model.Http` (how the `http` crate prints a version and a status).
-/

namespace Tophat.Spec

/-- Header block: one line `name: value CRLF` per field. -/
def renderFields (fs : List (Bytes × Bytes)) : Bytes :=
  fs.flatMap fun f => f.1 ++ [58, 32] ++ f.2 ++ [13, 10]

/-- Status line, header block, blank line. -/
def renderResponseHead (v : Version) (s : StatusCode) (fs : List (Bytes × Bytes)) : Bytes :=
  v.debug ++ [32] ++ statusDisplay s ++ [13, 10] ++ renderFields fs ++ [13, 10]

/-- The framing field that belongs to a body of the given length. -/
def framingField : Option Nat → Bytes × Bytes
  | some n => (ascii "content-length", decimal n)
  | none => (ascii "transfer-encoding", ascii "chunked")

/-- The fields of a response: framing, a generated date unless the application set one, the
application's fields except framing ones, and the default content type when there is a (possibly
empty streamed) body and the application set none. -/
def sentFields (hs : HeaderMap) (len : Option Nat) (now : Bytes) : List (Bytes × Bytes) :=
  [framingField len] ++
  (if (hs.getAll (ascii "date")).isEmpty then [(ascii "date", now)] else []) ++
  (hs.iter.filter fun f => f.1 ≠ ascii "content-length" ∧ f.1 ≠ ascii "transfer-encoding") ++
  (if len ≠ some 0 ∧ (hs.getAll (ascii "content-type")).isEmpty then
    [(ascii "content-type", ascii "application/octet-stream")] else [])

/-- The head of the response with the given version, status, application headers and body length,
sent at time `now`. -/
def responseHead (v : Version) (s : StatusCode) (hs : HeaderMap) (len : Option Nat) (now : Bytes) : Bytes :=
  renderResponseHead v s (sentFields hs len now)

/-- The lines of a text, separated by CRLF: `"a\r\nb\r\n"` has the lines `a`, `b` and the empty one. -/
def lines : Bytes → List Bytes
  | [] => [[]]
  | 13 :: 10 :: rest => [] :: lines rest
  | b :: rest =>
    match lines rest with
    | [] => [[b]]
    | l :: ls => (b :: l) :: ls

/-- The number of a version of HTTP. -/
def versionNumber : Version → Nat × Nat
  | .http09 => (0, 9)
  | .http10 => (1, 0)
  | .http11 => (1, 1)
  | .http2 => (2, 0)
  | .http3 => (3, 0)

/-- `line` is the status line for this version and status: `HTTP/`, the version, a blank, three digits that make the status, a blank, and any reason phrase of visible bytes and blanks (RFC 7230, 3.1.2). -/
def StatusLine (v : Version) (status : StatusCode) (line : Bytes) : Prop :=
  ∃ (a b x y z : Nat) (reason : Bytes), versionNumber v = (a, b) ∧ x < 10 ∧ y < 10 ∧ z < 10 ∧ status = 100 * x + 10 * y + z ∧
    line = ascii "HTTP/" ++ [UInt8.ofNat (48 + a), 46, UInt8.ofNat (48 + b), 32, UInt8.ofNat (48 + x), UInt8.ofNat (48 + y), UInt8.ofNat (48 + z), 32] ++ reason ∧
    ∀ c ∈ reason, 32 ≤ c.toNat ∧ c.toNat < 127

/-- The reason phrases of RFC 7231, section 6.1, in the order of that table. -/
def rfc7231Reasons : List (Nat × String) :=
  [(100, "Continue"), (101, "Switching Protocols"), (200, "OK"), (201, "Created"), (202, "Accepted"),
   (203, "Non-Authoritative Information"), (204, "No Content"), (205, "Reset Content"), (206, "Partial Content"),
   (300, "Multiple Choices"), (301, "Moved Permanently"), (302, "Found"), (303, "See Other"), (304, "Not Modified"),
   (305, "Use Proxy"), (307, "Temporary Redirect"), (400, "Bad Request"), (401, "Unauthorized"), (402, "Payment Required"),
   (403, "Forbidden"), (404, "Not Found"), (405, "Method Not Allowed"), (406, "Not Acceptable"),
   (407, "Proxy Authentication Required"), (408, "Request Timeout"), (409, "Conflict"), (410, "Gone"),
   (411, "Length Required"), (412, "Precondition Failed"), (413, "Payload Too Large"), (414, "URI Too Long"),
   (415, "Unsupported Media Type"), (416, "Range Not Satisfiable"), (417, "Expectation Failed"), (426, "Upgrade Required"),
   (500, "Internal Server Error"), (501, "Not Implemented"), (502, "Bad Gateway"), (503, "Service Unavailable"),
   (504, "Gateway Timeout"), (505, "HTTP Version Not Supported")]

/-- The name of a header line: what is before the colon, lower-cased (names are case-insensitive). -/
def fieldName (line : Bytes) : Bytes := lower (line.takeWhile (· ≠ 58))

/-- The header lines of a message head: the lines between the start line and the blank line. -/
def headerLines (head : Bytes) : List Bytes := (lines head).tail.takeWhile (· ≠ [])

end Tophat.Spec
