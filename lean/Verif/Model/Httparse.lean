import Verif.Model.Http
/-!
# The parts of the `httparse` crate (1.3.4) that tophat uses

Not tophat code: modelled from the source of the crate as remembered (the sandbox has no copy of it).
Each parser returns what is left of the input, so "bytes used" is the difference of the lengths.
The SIMD fast paths of the crate are not modelled; they skip bytes that the loops below skip.
-/

namespace Tophat.Httparse

/-- `httparse::Error` and `httparse::InvalidChunkSize`.  Not in /repo; src/server/decode.rs:204, src/chunked/decoder.rs:457, 514. -/
inductive PErr
  | headerName | headerValue | newLine | status | token | tooManyHeaders | version | chunkSize
  deriving DecidableEq, Repr

/-- `httparse::Result<Status<T>>`; `ok rest a` is `Ok(Status::Complete(..))` with `rest` not consumed.  Not in /repo; src/server/decode.rs:64-65, src/chunked/decoder.rs:436-457. -/
inductive PRes (α : Type) where
  | ok (rest : Bytes) (a : α)
  | part
  | err (e : PErr)
  deriving DecidableEq, Repr

/-- `complete!`: go on only if the parser is complete.  Not in /repo; called by `Request::parse` at src/server/decode.rs:64. -/
def PRes.andThen {α β : Type} (p : PRes α) (f : Bytes → α → PRes β) : PRes β :=
  match p with
  | .ok rest a => f rest a
  | .part => .part
  | .err e => .err e

/-- `expect!(bytes.next() == b'\n' => Err(e))`, then a result.  Not in /repo; called at src/chunked/decoder.rs:435. -/
def expectLf {α : Type} (e : PErr) (a : α) : Bytes → PRes α
  | [] => .part
  | c :: r => if c = 10 then .ok r a else .err e

/-- Value of a hexadecimal digit in `parse_chunk_size`.  Not in /repo; called at src/chunked/decoder.rs:435. -/
def digitVal (b : UInt8) : Option Nat :=
  if 48 ≤ b.toNat ∧ b.toNat ≤ 57 then some (b.toNat - 48)
  else if 97 ≤ b.toNat ∧ b.toNat ≤ 102 then some (b.toNat + 10 - 97)
  else if 65 ≤ b.toNat ∧ b.toNat ≤ 70 then some (b.toNat + 10 - 65)
  else none

/-- The loop of `parse_chunk_size`.  Not in /repo; called at src/chunked/decoder.rs:435. -/
def chunkSizeGo (size count : Nat) (inSize inExt : Bool) : Bytes → PRes Nat
  | [] => .part
  | b :: r =>
    match (if inSize then digitVal b else none) with
    | some v => if count > 15 then .err .chunkSize else chunkSizeGo (size * 16 + v) (count + 1) inSize inExt r
    | none =>
      if b = 13 then expectLf .chunkSize size r
      else if b = 59 ∧ inExt = false then chunkSizeGo size count false true r
      else if (b = 9 ∨ b = 32) ∧ inExt = false ∧ inSize = false then chunkSizeGo size count inSize inExt r
      else if (b = 9 ∨ b = 32) ∧ inSize = true then chunkSizeGo size count false inExt r
      else if inExt then chunkSizeGo size count inSize inExt r
      else .err .chunkSize

/-- `httparse::parse_chunk_size`.  Not in /repo; called at src/chunked/decoder.rs:435. -/
def parseChunkSize (bs : Bytes) : PRes Nat := chunkSizeGo 0 0 true false bs

/-- `is_header_value_token`.  Not in /repo; called at src/chunked/decoder.rs:489 and by the parsers of src/server/decode.rs:64 and src/client/decode.rs:60. -/
def valueToken (b : UInt8) : Bool := b.toNat == 9 || (32 ≤ b.toNat && b.toNat != 127)

/-- Header name up to the colon (the first byte has been checked by the caller).  Not in /repo; called at src/chunked/decoder.rs:489 and by the parsers of src/server/decode.rs:64 and src/client/decode.rs:60. -/
def takeName (acc : Bytes) : Bytes → PRes Bytes
  | [] => .part
  | b :: r => if b = 58 then .ok r acc else if isTokenByte b then takeName (acc ++ [b]) r else .err .headerName

/-- End of a header line, with the byte that ended the value still in the input.  Not in /repo; called at src/chunked/decoder.rs:489 and by the parsers of src/server/decode.rs:64 and src/client/decode.rs:60. -/
def valueEnd (v : Bytes) : Bytes → PRes Bytes
  | [] => .part
  | b :: r =>
    if b = 13 then expectLf .headerValue v r
    else if b = 10 then .ok r v
    else .err .headerValue

/-- Header value up to the end of the line.  Not in /repo; called at src/chunked/decoder.rs:489 and by the parsers of src/server/decode.rs:64 and src/client/decode.rs:60. -/
def takeValue (acc : Bytes) : Bytes → PRes Bytes
  | [] => .part
  | b :: r => if valueToken b then takeValue (acc ++ [b]) r else valueEnd acc (b :: r)

/-- White space between colon and value.  Not in /repo; called at src/chunked/decoder.rs:489 and by the parsers of src/server/decode.rs:64 and src/client/decode.rs:60. -/
def skipBlank : Bytes → Bytes
  | [] => []
  | b :: r => if b = 32 ∨ b = 9 then skipBlank r else b :: r

/-- One header line.  Not in /repo; called at src/chunked/decoder.rs:489 and by the parsers of src/server/decode.rs:64 and src/client/decode.rs:60. -/
def parseHeader (bs : Bytes) : PRes (Bytes × Bytes) :=
  (takeName [] bs).andThen fun rest name =>
    (takeValue [] (skipBlank rest)).andThen fun rest v => .ok rest (name, v)

/-- The beginning of an iteration of `parse_headers_iter`: a line end ends the section, otherwise a
header has to start here.  Not in /repo; called at src/chunked/decoder.rs:489 and by the parsers of src/server/decode.rs:64 and src/client/decode.rs:60. -/
def sectionEnd (acc : List (Bytes × Bytes)) (next : Bytes → PRes (List (Bytes × Bytes))) :
    Bytes → PRes (List (Bytes × Bytes))
  | [] => .part
  | b :: r =>
    if b = 13 then expectLf .newLine acc r
    else if b = 10 then .ok r acc
    else if isTokenByte b = false then .err .headerName
    else next (b :: r)

/-- `parse_headers_iter` with `slots` header slots.  Not in /repo; called at src/chunked/decoder.rs:489 and by the parsers of src/server/decode.rs:64 and src/client/decode.rs:60. -/
def headersGo : Nat → List (Bytes × Bytes) → Bytes → PRes (List (Bytes × Bytes))
  | 0, acc, bs => sectionEnd acc (fun _ => .err .tooManyHeaders) bs
  | slots + 1, acc, bs =>
    sectionEnd acc (fun bs => (parseHeader bs).andThen fun rest h => headersGo slots (acc ++ [h]) rest) bs

/-- `httparse::parse_headers` with an array of `slots` headers.  Not in /repo; called at src/chunked/decoder.rs:489 and by the parsers of src/server/decode.rs:64 and src/client/decode.rs:60. -/
def parseHeaders (slots : Nat) (bs : Bytes) : PRes (List (Bytes × Bytes)) := headersGo slots [] bs

/-- `skip_empty_lines`.  Not in /repo; called by `Request::parse` at src/server/decode.rs:64 and at src/client/decode.rs:60. -/
def skipEmptyLines : Bytes → PRes Unit
  | [] => .part
  | b :: r =>
    if b = 13 then
      match r with
      | [] => .part
      | c :: r => if c = 10 then skipEmptyLines r else .err .newLine
    else if b = 10 then skipEmptyLines r
    else .ok (b :: r) ()

/-- `is_uri_token`.  Not in /repo; called by `Request::parse` at src/server/decode.rs:64. -/
def uriToken (b : UInt8) : Bool := 33 ≤ b.toNat && b.toNat ≤ 126 && b.toNat != 34 && b.toNat != 60 && b.toNat != 62

/-- Bytes satisfying `p` up to a blank: `parse_token`, `parse_uri`.  Not in /repo; called by `Request::parse` at src/server/decode.rs:64. -/
def takeWord (p : UInt8 → Bool) (acc : Bytes) : Bytes → PRes Bytes
  | [] => .part
  | b :: r => if b = 32 then .ok r acc else if p b then takeWord p (acc ++ [b]) r else .err .token

/-- The byte-wise branch of `parse_version`, for fewer than 8 bytes of input.  Not in /repo; called by `Request::parse` at src/server/decode.rs:64 and at src/client/decode.rs:60. -/
def versionPart : Bytes → Bytes → PRes Nat
  | _, [] => .part
  | [], _ => .part
  | e :: es, b :: r => if b = e then versionPart es r else .err .version

/-- `parse_version`.  Not in /repo; called by `Request::parse` at src/server/decode.rs:64 and at src/client/decode.rs:60. -/
def parseVersion (bs : Bytes) : PRes Nat :=
  if 8 ≤ bs.length then
    if bs.take 8 = ascii "HTTP/1.0" then .ok (bs.drop 8) 0
    else if bs.take 8 = ascii "HTTP/1.1" then .ok (bs.drop 8) 1
    else .err .version
  else versionPart (ascii "HTTP/1.") bs

/-- `newline!`.  Not in /repo; called by `Request::parse` at src/server/decode.rs:64. -/
def newline : Bytes → PRes Unit
  | [] => .part
  | b :: r =>
    if b = 13 then expectLf .newLine () r
    else if b = 10 then .ok r ()
    else .err .newLine

/-- The fields of `httparse::Request` after a complete parse.  Not in /repo; used at src/server/decode.rs:42, 70-72, 91, 131. -/
structure RawRequest where
  method : Bytes
  path : Bytes
  version : Nat
  headers : List (Bytes × Bytes)
  deriving DecidableEq, Repr

/-- `httparse::Request::parse` with `slots` headers.  Simplification: the method may consist of token bytes only.  httparse lets more bytes pass (any visible ASCII), which
`Method::from_bytes` (src/server/decode.rs:70) then rejects; both failures give the same answer, a 400, and nothing is written in between. -/
def parseRequest (slots : Nat) (bs : Bytes) : PRes RawRequest :=
  (skipEmptyLines bs).andThen fun bs _ =>
  (takeWord isTokenByte [] bs).andThen fun bs m =>
  (takeWord uriToken [] bs).andThen fun bs p =>
  (parseVersion bs).andThen fun bs v =>
  (newline bs).andThen fun bs _ =>
  (parseHeaders slots bs).andThen fun bs hs => .ok bs ⟨m, p, v, hs⟩

/-- `space!`.  Not in /repo; called by `Response::parse` at src/client/decode.rs:60. -/
def space (e : PErr) : Bytes → PRes Unit
  | [] => .part
  | b :: r => if b = 32 then .ok r () else .err e

/-- One digit of `parse_code`.  Not in /repo; called by `Response::parse` at src/client/decode.rs:60. -/
def digit : Bytes → PRes Nat
  | [] => .part
  | b :: r => if 48 ≤ b.toNat ∧ b.toNat ≤ 57 then .ok r (b.toNat - 48) else .err .status

/-- `parse_code`.  Not in /repo; called by `Response::parse` at src/client/decode.rs:60. -/
def parseCode (bs : Bytes) : PRes Nat :=
  (digit bs).andThen fun bs a => (digit bs).andThen fun bs b => (digit bs).andThen fun bs c => .ok bs (100 * a + 10 * b + c)

/-- `parse_reason`.  Not in /repo; called by `Response::parse` at src/client/decode.rs:60. -/
def takeReason : Bytes → PRes Unit
  | [] => .part
  | b :: r =>
    if b = 13 then expectLf .status () r
    else if b = 10 then .ok r ()
    else if b.toNat = 9 ∨ (32 ≤ b.toNat ∧ b.toNat ≠ 127) then takeReason r
    else .err .status

/-- What follows the status code in `Response::parse`.  Not in /repo; called by `Response::parse` at src/client/decode.rs:60. -/
def afterCode : Bytes → PRes Unit
  | [] => .part
  | b :: r =>
    if b = 32 then takeReason r
    else if b = 13 then expectLf .status () r
    else if b = 10 then .ok r ()
    else .err .status

/-- The fields of `httparse::Response` that tophat uses (not the reason phrase).  Not in /repo; used at src/client/decode.rs:29, 65-76. -/
structure RawResponse where
  version : Nat
  code : Nat
  headers : List (Bytes × Bytes)
  deriving DecidableEq, Repr

/-- `httparse::Response::parse` with `slots` headers.  Not in /repo; src/client/decode.rs:60. -/
def parseResponse (slots : Nat) (bs : Bytes) : PRes RawResponse :=
  (skipEmptyLines bs).andThen fun bs _ =>
  (parseVersion bs).andThen fun bs v =>
  (space .version bs).andThen fun bs _ =>
  (parseCode bs).andThen fun bs c =>
  (afterCode bs).andThen fun bs _ =>
  (parseHeaders slots bs).andThen fun bs hs => .ok bs ⟨v, c, hs⟩

end Tophat.Httparse
