import Verif.Model.Basic
/-!
# The parts of the `http` crate (0.2) that tophat uses

Header names are stored lower-cased, as `http::HeaderName` does.
-/

namespace Tophat

/-- ASCII lower-casing of one byte (`u8::to_ascii_lowercase`).  Used at src/server/decode.rs:102, 110. -/
def lowerByte (b : UInt8) : UInt8 := if 65 ≤ b.toNat ∧ b.toNat ≤ 90 then b + 32 else b

/-- `[u8]::to_ascii_lowercase`.  src/server/decode.rs:102. -/
def lower (bs : Bytes) : Bytes := bs.map lowerByte

/-- `http::HeaderMap<HeaderValue>`: entries in order of first insertion of their name, each with its
values in order.  (The crate keeps an entry vector plus a hash index; removal is not used by
tophat, so the entry vector is exactly this list.)  Not in /repo; used at src/server/decode.rs:115, src/server/encode.rs:68-71, src/server/response_writer.rs:19, src/client/decode.rs:75. -/
abbrev HeaderMap := List (Bytes × List Bytes)

namespace HeaderMap

/-- `HeaderMap::contains_key`.  Not in /repo; used at src/server/encode.rs:56, 64. -/
def containsKey (m : HeaderMap) (k : Bytes) : Bool := m.any fun e => e.1 == k

/-- `HeaderMap::insert`: replaces all values of an existing entry, else adds an entry at the end.  Not in /repo; used at src/server/encode.rs:65, src/server/response_writer.rs:193, 229, src/client/decode.rs:85. -/
def insert : HeaderMap → Bytes → Bytes → HeaderMap
  | [], k, v => [(k, [v])]
  | (k', vs) :: m, k, v => if k' = k then (k', [v]) :: m else (k', vs) :: insert m k v

/-- `HeaderMap::append`: adds a value to an existing entry, else adds an entry at the end.  Not in /repo; used at src/server/decode.rs:115, src/server/response_writer.rs:181, src/client/decode.rs:79, src/chunked/decoder.rs:493. -/
def append : HeaderMap → Bytes → Bytes → HeaderMap
  | [], k, v => [(k, [v])]
  | (k', vs) :: m, k, v => if k' = k then (k', vs ++ [v]) :: m else (k', vs) :: append m k v

/-- `HeaderMap::iter`: all (name, value) pairs, entry by entry.  Not in /repo; used at src/server/encode.rs:71, src/client/encode.rs:99. -/
def iter (m : HeaderMap) : List (Bytes × Bytes) := m.flatMap fun e => e.2.map fun v => (e.1, v)

/-- `HeaderMap::get_all`.  Not in /repo; used at src/server/identity.rs:239. -/
def getAll (m : HeaderMap) (k : Bytes) : List Bytes := (m.iter.filter fun e => e.1 == k).map (·.2)

/-- `HeaderMap::get`: the first value of the name.  Not in /repo; used at src/server/decode.rs:171, src/client/decode.rs:82, 88-89, 98, 112, src/server/cors.rs:308. -/
def get (m : HeaderMap) (k : Bytes) : Option Bytes := (m.getAll k).head?

/-- Every header map reachable through the API: distinct names, no entry without a value.  A property, not a model.  It holds of what src/server/decode.rs:115 and src/server/response_writer.rs:174-195 build. -/
structure WF (m : HeaderMap) : Prop where
  nodup : (m.map (·.1)).Nodup
  vals : ∀ e ∈ m, e.2 ≠ []

end HeaderMap

/-- `http::Version`.  Not in /repo; used at src/server/decode.rs:74, src/server/response_writer.rs:21. -/
inductive Version
  | http09 | http10 | http11 | http2 | http3
  deriving DecidableEq, Repr

/-- `impl Debug for http::Version`.  Not in /repo; used at src/server/encode.rs:77. -/
def Version.debug : Version → Bytes
  | .http09 => ascii "HTTP/0.9"
  | .http10 => ascii "HTTP/1.0"
  | .http11 => ascii "HTTP/1.1"
  | .http2 => ascii "HTTP/2.0"
  | .http3 => ascii "HTTP/3.0"

/-- `http::StatusCode` (0.2.x): the inner number, between 100 and 999.  Not in /repo; used at src/server/response_writer.rs:18, src/server/glitch.rs:49. -/
abbrev StatusCode := Nat

/-- `StatusCode::from_u16`.  src/server/response_writer.rs:161, src/client/decode.rs:121, src/server/glitch.rs. -/
def statusFromU16 (n : Nat) : Option StatusCode := if 100 ≤ n ∧ n < 1000 then some n else none

/-- `StatusCode::canonical_reason` of http 0.2.  Not in /repo; part of the formatting at src/server/encode.rs:77. -/
def canonicalReason : StatusCode → Option Bytes
  | 100 => some (ascii "Continue")
  | 101 => some (ascii "Switching Protocols")
  | 102 => some (ascii "Processing")
  | 200 => some (ascii "OK")
  | 201 => some (ascii "Created")
  | 202 => some (ascii "Accepted")
  | 203 => some (ascii "Non Authoritative Information")
  | 204 => some (ascii "No Content")
  | 205 => some (ascii "Reset Content")
  | 206 => some (ascii "Partial Content")
  | 207 => some (ascii "Multi-Status")
  | 208 => some (ascii "Already Reported")
  | 226 => some (ascii "IM Used")
  | 300 => some (ascii "Multiple Choices")
  | 301 => some (ascii "Moved Permanently")
  | 302 => some (ascii "Found")
  | 303 => some (ascii "See Other")
  | 304 => some (ascii "Not Modified")
  | 305 => some (ascii "Use Proxy")
  | 307 => some (ascii "Temporary Redirect")
  | 308 => some (ascii "Permanent Redirect")
  | 400 => some (ascii "Bad Request")
  | 401 => some (ascii "Unauthorized")
  | 402 => some (ascii "Payment Required")
  | 403 => some (ascii "Forbidden")
  | 404 => some (ascii "Not Found")
  | 405 => some (ascii "Method Not Allowed")
  | 406 => some (ascii "Not Acceptable")
  | 407 => some (ascii "Proxy Authentication Required")
  | 408 => some (ascii "Request Timeout")
  | 409 => some (ascii "Conflict")
  | 410 => some (ascii "Gone")
  | 411 => some (ascii "Length Required")
  | 412 => some (ascii "Precondition Failed")
  | 413 => some (ascii "Payload Too Large")
  | 414 => some (ascii "URI Too Long")
  | 415 => some (ascii "Unsupported Media Type")
  | 416 => some (ascii "Range Not Satisfiable")
  | 417 => some (ascii "Expectation Failed")
  | 418 => some (ascii "I'm a teapot")
  | 421 => some (ascii "Misdirected Request")
  | 422 => some (ascii "Unprocessable Entity")
  | 423 => some (ascii "Locked")
  | 424 => some (ascii "Failed Dependency")
  | 426 => some (ascii "Upgrade Required")
  | 428 => some (ascii "Precondition Required")
  | 429 => some (ascii "Too Many Requests")
  | 431 => some (ascii "Request Header Fields Too Large")
  | 451 => some (ascii "Unavailable For Legal Reasons")
  | 500 => some (ascii "Internal Server Error")
  | 501 => some (ascii "Not Implemented")
  | 502 => some (ascii "Bad Gateway")
  | 503 => some (ascii "Service Unavailable")
  | 504 => some (ascii "Gateway Timeout")
  | 505 => some (ascii "HTTP Version Not Supported")
  | 506 => some (ascii "Variant Also Negotiates")
  | 507 => some (ascii "Insufficient Storage")
  | 508 => some (ascii "Loop Detected")
  | 510 => some (ascii "Not Extended")
  | 511 => some (ascii "Network Authentication Required")
  | _ => none

/-- `impl Display for http::StatusCode`: `{} {}` with the canonical reason.  Not in /repo; used at src/server/encode.rs:77. -/
def statusDisplay (s : StatusCode) : Bytes :=
  decimal s ++ [32] ++ (canonicalReason s).getD (ascii "<unknown status code>")

/-- `http::HeaderValue::from_bytes` accepts visible bytes, blanks, tabs and opaque bytes.  Part of `HeaderValue::from_bytes`, src/server/decode.rs:117. -/
def headerValueByte (b : UInt8) : Bool := (32 ≤ b.toNat && b.toNat != 127) || b.toNat == 9

/-- Bytes of an RFC 7230 `token`.  Part of `HeaderName::from_bytes`, src/server/decode.rs:116, and of `Method::from_bytes`, src/server/decode.rs:70. -/
def isTokenByte (b : UInt8) : Bool :=
  let n := b.toNat
  (48 ≤ n && n ≤ 57) || (65 ≤ n && n ≤ 90) || (97 ≤ n && n ≤ 122) ||
  n == 33 || n == 35 || n == 36 || n == 37 || n == 38 || n == 39 || n == 42 || n == 43 ||
  n == 45 || n == 46 || n == 94 || n == 95 || n == 96 || n == 124 || n == 126

/-- `HeaderName::from_bytes`: a non-empty token, lower-cased.  (The crate's limit of 64 KiB on the
length of a name is not modelled.)  Not in /repo; used at src/server/decode.rs:116, src/chunked/decoder.rs:495, src/client/decode.rs:78, src/server/cors.rs:398. -/
def headerNameFromBytes (bs : Bytes) : Option Bytes :=
  if bs ≠ [] ∧ bs.all isTokenByte then some (lower bs) else none

/-- `HeaderValue::from_bytes`.  Not in /repo; used at src/server/decode.rs:117, src/chunked/decoder.rs:497, src/client/decode.rs:77. -/
def headerValueFromBytes (bs : Bytes) : Option Bytes :=
  if bs.all headerValueByte then some bs else none

/-- The names and values a `HeaderMap` can hold: `HeaderName`s are non-empty lower-case tokens,
`HeaderValue`s consist of the bytes accepted by `HeaderValue::from_bytes`.  A property, not a model.  It holds of what src/server/decode.rs:115-118 builds. -/
structure HeaderMap.Valid (m : HeaderMap) : Prop where
  names : ∀ f ∈ m.iter, headerNameFromBytes f.1 = some f.1
  values : ∀ f ∈ m.iter, headerValueFromBytes f.2 = some f.2

namespace H
/-- src/server/encode.rs:56. -/
def date : Bytes := ascii "date"
/-- src/server/encode.rs:64. -/
def contentType : Bytes := ascii "content-type"
/-- src/server/encode.rs:72, src/server/decode.rs:92. -/
def contentLength : Bytes := ascii "content-length"
/-- src/server/encode.rs:73, src/server/decode.rs:99. -/
def transferEncoding : Bytes := ascii "transfer-encoding"
/-- src/server/decode.rs:111, src/client/encode.rs:58. -/
def host : Bytes := ascii "host"
/-- src/server/decode.rs:171. -/
def expect : Bytes := ascii "expect"
end H

end Tophat
