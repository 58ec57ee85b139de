import Verif.Model.ServerDecode
/-!
# Model of `src/client/encode.rs`, `src/client/decode.rs` and `src/client/mod.rs`

The connection given to `connect` has a read half `ρ` and a write half, a `Writer`.
-/

namespace Tophat

/-- The methods of `http::Uri` that the encoder calls: `path()`, `query()`, `host()`, and `port()` as text.  src/client/encode.rs:35-49, 61-67. -/
structure ClientUri where
  path : Bytes
  query : Option Bytes
  host : Option Bytes
  port : Option Bytes
  deriving DecidableEq, Repr

/-- The parts of `Request<Body>` that the encoder uses.  Its version and extensions are ignored by the code.  src/client/encode.rs:30. -/
structure ClientRequest (σ : Type) where
  method : Bytes
  uri : ClientUri
  headers : HeaderMap
  body : σ
  length : Option Nat

/-- src/client/error.rs:58-64 `enum Kind`, with the message where the code gives one; `decodeIo` and `io` are caused by an error of the
connection (or of the request's body), `decodeErr` by one of the libraries that `decode` uses. -/
inductive ClientErr
  | encode (msg : String)
  | decode (msg : String)
  | decodeErr
  | decodeIo (e : IoErr)
  | io (e : IoErr)
  deriving DecidableEq, Repr

/-- `Ok` or `Err`.  src/client/encode.rs:30, src/client/decode.rs:22. -/
inductive ClientRes (α : Type)
  | ok (a : α)
  | err (e : ClientErr)
  deriving DecidableEq, Repr

/-! ## src/client/encode.rs -/

/-- src/client/encode.rs:13-26 `struct Encoder`. (`body_bytes_read` is never used; it is kept.) -/
structure ClientEncoder (σ : Type) where
  cursor : Nat
  headers : Bytes
  headersDone : Bool
  body : σ
  bodyDone : Bool
  bodyBytesRead : Nat

namespace ClientEncoder

/-- src/client/encode.rs:36-40: the path, and the query if there is one. -/
def originForm (uri : ClientUri) : Bytes :=
  match uri.query with
  | some q => uri.path ++ ascii "?" ++ q
  | none => uri.path

/-- src/client/encode.rs:36-51: the request target. -/
def target (method : Bytes) (uri : ClientUri) : ClientRes Bytes :=
  if method = ascii "CONNECT" then
    match uri.host with
    | none => .err (.encode "Missing hostname")
    | some host => match uri.port with
      | none => .err (.encode "Missing port")
      | some port => .ok (host ++ ascii ":" ++ port)
  else .ok (originForm uri)

/-- src/client/encode.rs:60-65: the value of the host header that is put in. -/
def hostValue (uri : ClientUri) : ClientRes Bytes :=
  match uri.host with
  | none => .err (.encode "Missing hostname")
  | some host => match uri.port with
    | some port => .ok (host ++ ascii ":" ++ port)
    | none => .ok host

/-- src/client/encode.rs:57-72: the host header, unless the application has set one. -/
def hostLine (headers : HeaderMap) (uri : ClientUri) : ClientRes Bytes :=
  match headers.get H.host with
  | some _ => .ok []
  | none => match hostValue uri with
    | .err e => .err e
    | .ok v => .ok (ascii "host: " ++ v ++ crlf)

/-- src/client/encode.rs:74-81. -/
def proxyLine (method : Bytes) : Bytes := if method = ascii "CONNECT" then ascii "proxy-connection: keep-alive\r\n" else []

/-- src/client/encode.rs:99-108: one header. -/
def headerLine (h : Bytes × Bytes) : Bytes := h.1 ++ ascii ": " ++ h.2 ++ crlf

/-- src/client/encode.rs:30-121 `Encoder::encode`.  (Writing to a `Vec` does not fail.)  Line 94 panics. -/
def encode {σ : Type} (req : ClientRequest σ) : Run (ClientRes (ClientEncoder σ)) :=
  match target req.method req.uri with
  | .err e => .ret (.err e)
  | .ok url =>
    let buf := req.method ++ ascii " " ++ url ++ ascii " HTTP/1.1\r\n"
    match hostLine req.headers req.uri with
    | .err e => .ret (.err e)
    | .ok host =>
      let buf := buf ++ host
      let buf := buf ++ proxyLine req.method
      match req.length with
      | none => .panic
      | some len =>
        let buf := buf ++ (ascii "content-length: " ++ decimal len ++ crlf)
        let buf := req.headers.iter.foldl (fun b h => b ++ headerLine h) buf
        let buf := buf ++ crlf
        .ret (.ok { cursor := 0, headers := buf, headersDone := false, body := req.body, bodyDone := false, bodyBytesRead := 0 })

/-- src/client/encode.rs:133-145: the part of `poll_read` that copies the headers; also gives `bytes_read`.  The subtraction and the slices
panic when out of range. -/
def pollHeaders {σ : Type} (e : ClientEncoder σ) (buf : Bytes) : Run (ClientEncoder σ × Bytes × Nat) :=
  if e.headersDone then .ret (e, buf, 0)
  else if e.cursor ≤ e.headers.length then do
    let len := min (e.headers.length - e.cursor) buf.length
    let part ← slice e.headers e.cursor (e.cursor + len)
    let buf ← writeAt buf 0 part
    let e := { e with cursor := e.cursor + len }
    let e := if e.cursor = e.headers.length then { e with headersDone := true } else e
    .ret (e, buf, len)
  else .panic

/-- src/client/encode.rs:124-164 `poll_read`. -/
def poll {σ : Type} [AsyncRead σ] (e : ClientEncoder σ) (buf : Bytes) : Run (ClientEncoder σ × Bytes × EPoll) := do
  let (e, buf, bytesRead) ← e.pollHeaders buf
  if e.bodyDone then .ret (e, buf, .ready bytesRead)
  else if bytesRead ≤ buf.length then do
    let (body, p) ← pollRead e.body (buf.length - bytesRead)
    let e := { e with body := body }
    match p with
    | .err x => .ret (e, buf, .err x)
    | .pending => if bytesRead = 0 then .ret (e, buf, .pending) else .ret (e, buf, .ready bytesRead)
    | .data bs => do
      let buf ← writeAt buf bytesRead bs
      let n := bytesRead + bs.length
      let e := { e with bodyBytesRead := e.bodyBytesRead + bs.length }
      let e := if n = 0 then { e with bodyDone := true } else e
      .ret (e, buf, .ready n)
  else .panic

end ClientEncoder

/-! ## src/client/decode.rs -/

/-- The reader inside the `Body` of a response: none for the empty body, otherwise as for requests.  src/client/decode.rs:96-104, 118. -/
inductive ReplyBody (ρ : Type)
  | empty
  | stream (b : ReqBody ρ)

section
variable {ρ : Type} [AsyncRead ρ]

/-- Wraps the result of an operation on the reader.  src/body.rs:165, 172, 176. -/
def ReplyBody.ofStream (x : ReqBody ρ × RPoll) : Run (ReplyBody ρ × RPoll) := .ret (.stream x.1, x.2)

/-- src/body.rs:159-178; src/util.rs:57-87 for the empty body. -/
instance : AsyncBufRead (ReplyBody ρ) where
  pollRead b k := match b with
    | .empty => .ret (.empty, .data [])
    | .stream r => pollRead r k >>= ReplyBody.ofStream
  pollFill b := match b with
    | .empty => .ret (.empty, .data [])
    | .stream r => pollFill r >>= ReplyBody.ofStream
  consume b n := match b with
    | .empty => .empty
    | .stream r => .stream (consume r n)

end

/-- The `Response` that `connect` returns; its version is the default one, HTTP/1.1.  src/client/decode.rs:96-126. -/
structure ClientResponse (ρ : Type) where
  status : StatusCode
  headers : HeaderMap
  body : ReplyBody ρ
  length : Option Nat

namespace ClientDecode

/-- src/client/decode.rs:17 `MAX_HEADERS`. -/
def maxHeaders : Nat := 128
/-- src/client/decode.rs:18 `MAX_HEAD_LENGTH`. -/
def maxHeadLength : Nat := 8 * 1024

/-- src/client/decode.rs:50-56: the head is complete. -/
def endsHead (buf : Bytes) : Bool :=
  decide (4 ≤ buf.length ∧ buf.drop (buf.length - 4) = crlf ++ crlf) || decide (2 ≤ buf.length ∧ buf.drop (buf.length - 2) = [10, 10])

/-- The loop that reads the head: suspended or stopped, with what has been read; failed; or done.  src/client/decode.rs:32-57. -/
inductive HeadRes (ρ : Type)
  | running (buf : Bytes)
  | err (e : ClientErr)
  | head (r : BufRd ρ) (buf : Bytes)

section
variable {ρ : Type} [AsyncRead ρ]

/-- src/client/decode.rs:32-57, the loop around `read_until(LF, &mut buf)`; one iteration is one `poll_fill_buf`.  Being polled again after `Pending` goes on in
the same place, so `Pending` goes on with the next iteration; stopping after `fuel` iterations stands for "at any moment".
`nread` is the number of bytes read by the current call of `read_until`. -/
def headGo : Nat → BufRd ρ → Bytes → Nat → Run (HeadRes ρ)
  | 0, _, buf, _ => .ret (.running buf)
  | fuel + 1, r, buf, nread => do
    let (r, p) ← pollFill r
    match p with
    | .pending => headGo fuel r buf nread
    | .err e => .ret (.err (.decodeIo e))
    | .data bs =>
      match lineOf bs with
      | some line =>
        let r := consume r line.length
        let buf := buf ++ line
        if buf.length < maxHeadLength then
          if endsHead buf then .ret (.head r buf) else headGo fuel r buf 0
        else .ret (.err (.decode "Head byte length should be less than 8kb"))
      | none =>
        if bs = [] then
          if nread = 0 then .ret (.err (.decode "Empty response"))
          else if buf.length < maxHeadLength then
            if endsHead buf then .ret (.head r buf) else headGo fuel r buf 0
          else .ret (.err (.decode "Head byte length should be less than 8kb"))
        else headGo fuel (consume r bs.length) (buf ++ bs) (nread + bs.length)

end

/-- src/client/decode.rs:75-79, the loop over the headers. -/
def headerLoop : HeaderMap → List (Bytes × Bytes) → ClientRes HeaderMap
  | m, [] => .ok m
  | m, (n, v) :: hs =>
    match headerValueFromBytes v with
    | none => .err .decodeErr
    | some v => match headerNameFromBytes n with
      | none => .err .decodeErr
      | some n => headerLoop (m.append n v) hs

/-- src/client/decode.rs:59-79: version, status code and headers.  (A complete parse sets version and code.) -/
def parseHead (buf : Bytes) : ClientRes (Nat × HeaderMap) :=
  match Httparse.parseResponse maxHeaders buf with
  | .err _ => .err .decodeErr
  | .part => .err (.decode "Malformed HTTP head")
  | .ok _ res =>
    if res.version = 1 then
      match headerLoop [] res.headers with
      | .err e => .err e
      | .ok m => .ok (res.code, m)
    else .err (.decode "Unsupported HTTP version")

/-- src/client/decode.rs:81-85. -/
def addDate (m : HeaderMap) (now : Bytes) : HeaderMap :=
  match m.get H.date with
  | some _ => m
  | none => m.insert H.date now

/-- src/client/decode.rs:119-126: status and headers. -/
def setHead {ρ : Type} (code : Nat) (headers : HeaderMap) (body : ReplyBody ρ) (length : Option Nat) : ClientRes (ClientResponse ρ) :=
  match statusFromU16 code with
  | none => .err .decodeErr
  | some status => .ok { status := status, headers := headers, body := body, length := length }

/-- src/client/decode.rs:81-126, behind the loop over the headers.  `now` is the time of day, `pool` the state of the byte pool of the chunked
decoder.  `headers.get(..).iter().last()` is the first value of the header.  What `parse::<usize>` accepts is also accepted by `to_str` before it. -/
def finish {ρ : Type} (now : Bytes) (pool : Pool) (r : BufRd ρ) (code : Nat) (m : HeaderMap) : ClientRes (ClientResponse ρ) :=
  let headers := addDate m now
  if headers.get H.contentLength ≠ none ∧ headers.get H.transferEncoding ≠ none then .err (.decode "Unexpected Content-Length header")
  else if headers.get H.transferEncoding = some (ascii "chunked") then
    .ok { status := 200, headers := [], body := .stream (.chunked (BufRd.new (ChunkedDecoder.new r pool))), length := none }
  else match headers.get H.contentLength with
    | some v => match parseUsize v with
      | none => .err .decodeErr
      | some len => setHead code headers (.stream (.fixed ⟨r, len⟩)) (some len)
    | none => setHead code headers .empty (some 0)

/-- How far `decode` has come.  src/client/decode.rs:22. -/
inductive Res (ρ : Type)
  | running (buf : Bytes)
  | done (r : ClientRes (ClientResponse ρ))

/-- src/client/decode.rs:20-127 `decode`, stopped after `fuel` calls of `poll_fill_buf`. -/
def decode {ρ : Type} [AsyncRead ρ] (now : Bytes) (pool : Pool) (fuel : Nat) (io : ρ) : Run (Res ρ) := do
  let h ← headGo fuel (BufRd.new io) [] 0
  match h with
  | .running buf => .ret (.running buf)
  | .err e => .ret (.done (.err e))
  | .head r buf => match parseHead buf with
    | .err e => .ret (.done (.err e))
    | .ok (code, m) => .ret (.done (finish now pool r code m))

end ClientDecode

/-! ## src/client/mod.rs -/

/-- How far `connect` has come: writing the request, reading the head of the response, or returned.  src/client/mod.rs:15-26. -/
inductive ConnectRes (ρ : Type)
  | writing
  | reading (buf : Bytes)
  | done (r : ClientRes (ClientResponse ρ))

/-- How far writing the request has come.  src/client/mod.rs:19-21. -/
inductive SendRes
  | writing
  | failed (e : ClientErr)
  | sent
  deriving DecidableEq, Repr

/-- The first part of src/client/mod.rs:15-26 `connect`: encoding the request and writing it, stopped after `fuel` steps of the copy loop. -/
def clientSend {σ : Type} [AsyncRead σ] (fuel : Nat) (req : ClientRequest σ) (w : Writer) : Run (Writer × SendRes) := do
  let x ← ClientEncoder.encode req
  match x with
  | .err e => .ret (w, .failed e)
  | .ok enc => do
    let (s, r) ← copyGo ClientEncoder.poll fuel (CopyState.init enc w)
    match r with
    | .running => .ret (s.writer, .writing)
    | .err e => .ret (s.writer, .failed (.io e))
    | .ok _ => .ret (s.writer, .sent)

/-- src/client/mod.rs:15-26 `connect`, stopped after `fuel` steps of writing or `fuel'` of reading. -/
def connect {σ ρ : Type} [AsyncRead σ] [AsyncRead ρ] (now : Bytes) (pool : Pool) (fuel fuel' : Nat) (req : ClientRequest σ) (io : ρ) (w : Writer) :
    Run (Writer × ConnectRes ρ) := do
  let (w, x) ← clientSend fuel req w
  match x with
  | .writing => .ret (w, .writing)
  | .failed e => .ret (w, .done (.err e))
  | .sent => do
    let d ← ClientDecode.decode now pool fuel' io
    match d with
    | .running buf => .ret (w, .reading buf)
    | .done r => .ret (w, .done r)

end Tophat
