import Verif.Model.BufReader
import Verif.Model.ChunkedDecoder
import Verif.Model.Copy
/-!
# Model of `src/server/decode.rs`

`decode(io)` is a future; it is modelled as a state machine `DecFut` with one function `poll`.  The
connection `io` is cloned by the code, all clones being the same socket.  In the model the read half
`ρ` is moved into the future and, with the request, into the body; whoever drops these gets it back
(`DecFut.io`, `ReqBody.io`), without what was buffered in front of it.  The write half is a `Writer`.
-/

namespace Tophat

/-- src/server/decode.rs:186-208 `enum DecodeFail`, without the payload of the last four. -/
inductive DecodeFail
  | connectionLost (e : IoErr)
  | httpMalformedHead
  | httpUnsupportedTransferEncoding
  | httpNoPath
  | httpNoMethod
  | httpNoVersion
  | httpNoHost
  | httpInvalidContentLength
  | httpRequestBuild
  | http10NotSupported
  | httpHeadParse
  | httpMethod
  | httpHeaderName
  | httpHeaderValue
  deriving DecidableEq, Repr

/-- The method, target and headers of an `http::Request` built by `decode`; its version is always
HTTP/1.1 (src/server/decode.rs:72-79). `uri` is the text handed to `Builder::uri`. -/
structure ReqHead where
  method : Bytes
  uri : Bytes
  headers : HeaderMap
  deriving DecidableEq, Repr

/-- The reader inside the `Body` of a request, src/server/decode.rs:138-146. -/
inductive ReqBody (ρ : Type)
  | fixed (r : Take (BufRd ρ))
  | chunked (r : BufRd (ChunkedDecoder (BufRd ρ)))

/-- The connection, after the body has been dropped together with the bytes in its buffers.  src/server/decode.rs:39, 138-146: the reader inside the body. -/
def ReqBody.io {ρ : Type} : ReqBody ρ → ρ
  | .fixed r => r.inner.inner
  | .chunked r => r.inner.inner.inner

section
variable {ρ : Type} [AsyncRead ρ]

/-- Wraps the result of an operation on the reader of a fixed body.  src/body.rs:165, 172. -/
def ReqBody.ofFixed (x : Take (BufRd ρ) × RPoll) : Run (ReqBody ρ × RPoll) := .ret (.fixed x.1, x.2)

/-- Wraps the result of an operation on the reader of a chunked body.  src/body.rs:165, 172. -/
def ReqBody.ofChunked (x : BufRd (ChunkedDecoder (BufRd ρ)) × RPoll) : Run (ReqBody ρ × RPoll) :=
  .ret (.chunked x.1, x.2)

/-- src/body.rs:159-178: a `Body` reads from the reader it contains. -/
instance : AsyncBufRead (ReqBody ρ) where
  pollRead b k := match b with
    | .fixed r => pollRead r k >>= ReqBody.ofFixed
    | .chunked r => pollRead r k >>= ReqBody.ofChunked
  pollFill b := match b with
    | .fixed r => pollFill r >>= ReqBody.ofFixed
    | .chunked r => pollFill r >>= ReqBody.ofChunked
  consume b n := match b with
    | .fixed r => .fixed (consume r n)
    | .chunked r => .chunked (consume r n)

end

/-- The `Request` given to the endpoint. `length` is the declared length of the body.  src/server/decode.rs:149-154. -/
structure Request (ρ : Type) where
  head : ReqHead
  body : ReqBody ρ
  length : Option Nat

/-! ## The head -/

/-- Value of one decimal digit.  Part of `parse::<usize>`, src/server/decode.rs:96. -/
def decDigit (b : UInt8) : Option Nat := if 48 ≤ b.toNat ∧ b.toNat ≤ 57 then some (b.toNat - 48) else none

/-- Digits, most significant first, behind the value `acc`.  Part of `parse::<usize>`, src/server/decode.rs:96. -/
def decGo (acc : Nat) : Bytes → Option Nat
  | [] => some acc
  | b :: r => match decDigit b with
    | some d => decGo (acc * 10 + d) r
    | none => none

/-- The digits behind an optional sign.  Part of `parse::<usize>`, src/server/decode.rs:96. -/
def unsignedDigits (bs : Bytes) : Option Nat :=
  match bs with
  | [] => none
  | bs => match decGo 0 bs with
    | some n => if n < usizeLimit then some n else none
    | none => none

/-- `std::str::from_utf8(v)` and `parse::<usize>()`, src/server/decode.rs:94-97: an optional plus
sign and at least one decimal digit, representable in `usize`.  (A value that is not UTF-8 contains
a byte that is not a digit.) -/
def parseUsize : Bytes → Option Nat
  | 43 :: r => unsignedDigits r
  | bs => unsignedDigits bs

/-- The local variables of src/server/decode.rs:82-89 that the header loop fills. -/
structure HeadAcc where
  headers : HeaderMap
  contentLength : Option Nat
  hasHost : Bool
  isTe : Bool
  isChunked : Bool
  deriving DecidableEq, Repr

/-- Either a failure or a value.  The `?` of src/server/decode.rs:70-131. -/
inductive Try (α : Type)
  | fail (f : DecodeFail)
  | ok (a : α)
  deriving DecidableEq, Repr

/-- src/server/decode.rs:92-113: the special treatment of one header, by its name (compared without
case).  `String::from_utf8_lossy(v).trim()` of lines 108-110 is the value itself, as it is one of the two
supported ones. -/
def specialHeader (acc : HeadAcc) (name value : Bytes) : Try HeadAcc :=
  if lower name = H.contentLength then
    match parseUsize value with
    | some n => .ok { acc with contentLength := some n }
    | none => .fail .httpInvalidContentLength
  else if lower name = H.transferEncoding then
    if lower value = ascii "chunked" ∨ lower value = ascii "identity" then
      .ok { acc with isTe := true, isChunked := decide (lower value = ascii "chunked") }
    else .fail .httpUnsupportedTransferEncoding
  else if lower name = H.host then .ok { acc with hasHost := true }
  else .ok acc

/-- src/server/decode.rs:115-118: the header is appended to the request. -/
def appendHeader (acc : HeadAcc) (name value : Bytes) : Try HeadAcc :=
  match headerNameFromBytes name with
  | none => .fail .httpHeaderName
  | some n => match headerValueFromBytes value with
    | none => .fail .httpHeaderValue
    | some v => .ok { acc with headers := acc.headers.append n v }

/-- src/server/decode.rs:91-119, the loop over the headers. -/
def headerLoop : HeadAcc → List (Bytes × Bytes) → Try HeadAcc
  | acc, [] => .ok acc
  | acc, (n, v) :: hs =>
    match specialHeader acc n v with
    | .fail f => .fail f
    | .ok acc => match appendHeader acc n v with
      | .fail f => .fail f
      | .ok acc => headerLoop acc hs

/-- What is known after the header loop.  The local variables of src/server/decode.rs:70-89. -/
structure Parsed where
  method : Bytes
  path : Bytes
  acc : HeadAcc
  deriving DecidableEq, Repr

/-- `http::Method::from_bytes` accepts non-empty tokens.  src/server/decode.rs:70. -/
def methodOk (m : Bytes) : Bool := !m.isEmpty && m.all isTokenByte

/-- src/server/decode.rs:63-119, on the bytes of the head.  (`HttpNoMethod`, `HttpNoVersion` and
`HttpNoPath` cannot occur: a complete parse sets all three.) -/
def parseHead (buf : Bytes) : Try Parsed :=
  match Httparse.parseRequest 16 buf with
  | .err _ => .fail .httpHeadParse
  | .part => .fail .httpMalformedHead
  | .ok _ req =>
    if methodOk req.method then
      if req.version = 1 then
        match headerLoop ⟨[], none, false, false, false⟩ req.headers with
        | .fail f => .fail f
        | .ok acc => .ok ⟨req.method, req.path, acc⟩
      else .fail .http10NotSupported
    else .fail .httpMethod

/-- src/server/decode.rs:160 `EXPECT_RESPONSE`. -/
def expectResponse : Bytes := ascii "HTTP/1.1 100 Continue\r\n\r\n"

/-- src/server/decode.rs:166-181 `handle_100_continue`: what it is going to write. -/
def interimBytes (p : Parsed) : Bytes :=
  if p.acc.headers.get H.expect = some (ascii "100-continue") then expectResponse else []

/-- Result of `decode`; the connection comes back unless it is inside the request.  src/server/decode.rs:33. -/
inductive DecRes (ρ : Type)
  | none (io : ρ)
  | fail (f : DecodeFail) (io : ρ)
  | request (r : Request ρ)

/-- src/server/decode.rs:123-157, behind `handle_100_continue`.  `uriOk` is whether `http::Uri`
accepts the path; `pool` is the state of the byte pool the chunked decoder allocates from. -/
def finishDecode {ρ : Type} (uriOk : Bytes → Bool) (pool : Pool) (r : BufRd ρ) (p : Parsed) : DecRes ρ :=
  if p.acc.hasHost then
    let contentLength := p.acc.contentLength.getD 0
    if uriOk p.path then
      if p.acc.isTe && p.acc.isChunked then
        .request ⟨⟨p.method, p.path, p.acc.headers⟩, .chunked (BufRd.new (ChunkedDecoder.new r pool)), none⟩
      else
        .request ⟨⟨p.method, p.path, p.acc.headers⟩, .fixed ⟨r, contentLength⟩, some contentLength⟩
    else .fail .httpRequestBuild r.inner
  else .fail .httpNoHost r.inner

/-! ## The future -/

/-- The points at which `decode` can be suspended: while reading the head (`buf` is what has been
read, `nread` the bytes read by the current call of `read_until`), or while writing the interim
response (`todo` is what is left of it).  src/server/decode.rs:48, 121. -/
inductive DecFut (ρ : Type)
  | head (r : BufRd ρ) (buf : Bytes) (nread : Nat)
  | interim (r : BufRd ρ) (p : Parsed) (todo : Bytes)

/-- The connection, after the future has been dropped.  Dropped by src/timeout.rs:53. -/
def DecFut.io {ρ : Type} : DecFut ρ → ρ
  | .head r _ _ => r.inner
  | .interim r _ _ => r.inner

/-- Result of polling `decode`.  src/timeout.rs:50. -/
inductive DecPoll (ρ : Type)
  | pending (f : DecFut ρ)
  | ready (r : DecRes ρ)

/-- `memchr(LF, bs)`: the bytes up to and including the first line feed.  In `read_until`, src/server/decode.rs:47. -/
def lineOf : Bytes → Option Bytes
  | [] => none
  | b :: r => if b = 10 then some [10] else (lineOf r).map (b :: ·)

/-- src/server/decode.rs:57-58: the head is complete. -/
def endsHead (buf : Bytes) : Bool := decide (4 ≤ buf.length ∧ buf.drop (buf.length - 4) = crlf ++ crlf)

/-- Result of polling the loop that reads the head.  src/server/decode.rs:45-61. -/
inductive HeadPoll (ρ : Type)
  | pending (r : BufRd ρ) (buf : Bytes) (nread : Nat)
  | lost (r : BufRd ρ) (e : IoErr)
  | none (r : BufRd ρ)
  | head (r : BufRd ρ) (buf : Bytes)

section
variable {ρ : Type} [AsyncRead ρ]

/-- src/server/decode.rs:45-61, the loop around `read_until(LF, &mut buf)`; one iteration is one
`poll_fill_buf`, `fuel` bounds their number. -/
def headGo : Nat → BufRd ρ → Bytes → Nat → Run (HeadPoll ρ)
  | 0, _, _, _ => .diverge
  | fuel + 1, r, buf, nread => do
    let (r, p) ← pollFill r
    match p with
    | .pending => .ret (.pending r buf nread)
    | .err e => .ret (.lost r e)
    | .data bs =>
      match lineOf bs with
      | some line =>
        let r := consume r line.length
        let buf := buf ++ line
        if endsHead buf then .ret (.head r buf) else headGo fuel r buf 0
      | none =>
        if bs = [] then
          if nread = 0 then .ret (.none r)
          else if endsHead buf then .ret (.head r buf)
          else headGo fuel r buf 0
        else headGo fuel (consume r bs.length) (buf ++ bs) (nread + bs.length)

end

/-- Result of polling `write_all`.  src/server/decode.rs:175-177. -/
inductive WriteAll
  | pending (todo : Bytes)
  | err (e : IoErr)
  | done
  deriving DecidableEq, Repr

/-- `futures_lite::AsyncWriteExt::write_all`; at most one `poll_write` per byte is made (`fuel`).  Not in /repo; used at src/server/decode.rs:175. -/
def writeAllGo : Nat → Writer → Bytes → Run (Writer × WriteAll)
  | 0, _, _ => .diverge
  | fuel + 1, w, todo =>
    if todo = [] then .ret (w, .done)
    else match w.write todo with
      | (w, .pending) => .ret (w, .pending todo)
      | (w, .err e) => .ret (w, .err e)
      | (w, .ready n) => if n = 0 then .ret (w, .err .writeZero) else writeAllGo fuel w (todo.drop n)

/-- One poll of `write_all` for the bytes `todo`.  Not in /repo; used at src/server/decode.rs:175. -/
def writeAll (w : Writer) (todo : Bytes) : Run (Writer × WriteAll) := writeAllGo (todo.length + 1) w todo

section
variable {ρ : Type} [AsyncRead ρ]

/-- From `handle_100_continue` on (src/server/decode.rs:121-157). -/
def pollInterim (uriOk : Bytes → Bool) (pool : Pool) (r : BufRd ρ) (p : Parsed) (todo : Bytes) (w : Writer) :
    Run (Writer × DecPoll ρ) := do
  let (w, x) ← writeAll w todo
  match x with
  | .pending todo => .ret (w, .pending (.interim r p todo))
  | .err e => .ret (w, .ready (.fail (.connectionLost e) r.inner))
  | .done => .ret (w, .ready (finishDecode uriOk pool r p))

/-- src/server/decode.rs:33-157 `decode`: one poll of the future.  `fuel` bounds the number of calls of
`poll_fill_buf`. -/
def DecFut.poll (uriOk : Bytes → Bool) (pool : Pool) (fuel : Nat) (f : DecFut ρ) (w : Writer) :
    Run (Writer × DecPoll ρ) :=
  match f with
  | .interim r p todo => pollInterim uriOk pool r p todo w
  | .head r buf nread => do
    let h ← headGo fuel r buf nread
    match h with
    | .pending r buf nread => .ret (w, .pending (.head r buf nread))
    | .lost r e => .ret (w, .ready (.fail (.connectionLost e) r.inner))
    | .none r => .ret (w, .ready (.none r.inner))
    | .head r buf =>
      match parseHead buf with
      | .fail f => .ret (w, .ready (.fail f r.inner))
      | .ok p => pollInterim uriOk pool r p (interimBytes p) w

/-- src/server/decode.rs:33-42: the future `decode(io)` before its first poll. -/
def DecFut.start (io : ρ) : DecFut ρ := .head (BufRd.new io) [] 0

end

end Tophat
