import Verif.Props.Echo
import Verif.Props.Accept
import Verif.Model.Body
import Verif.Model.ResponseWriter
/-!
# The tests of the repository, replayed in the model: the server

Each `example` is one test of /repo/tests/server_basic.rs or /repo/tests/server_error_handling.rs: the same bytes from the same mock transport, the same endpoint,
and the same expected bytes.  This is evidence that the model says what the code does; no property rests on it.
-/

set_option autoImplicit false
set_option synthInstance.maxSize 1000

namespace Tophat.Conformance
open Spec

/-- `str::find`: the position of the first occurrence. -/
def find (pat : Bytes) : Bytes → Option Nat
  | [] => if pat = [] then some 0 else none
  | b :: bs => if pat.isPrefixOf (b :: bs) then some 0 else (find pat bs).map (· + 1)

/-- tests/mock.rs:197-211 `remove_date`. -/
def removeDate (b : Bytes) : Bytes :=
  match find (ascii "date: ") b with
  | none => b
  | some i => match find crlf (b.drop (i + 6)) with
    | none => []
    | some eol => b.take i ++ b.drop (i + 6 + eol + 2)

/-- tests/mock.rs:263-274 test_remove_date -/
example : removeDate (ascii "HTTP/1.1 200 OK\r\ncontent-length: 0\r\ndate: Thu, 07 May 2020 15:54:21 GMT\r\n\r\n") = ascii "HTTP/1.1 200 OK\r\ncontent-length: 0\r\n\r\n" := by decide +kernel

/-- tests/mock.rs:29-45: all is there with the first read, and `writes` calls of `poll_write` succeed, with all that they are given; then `poll_write` gives 0 (and `poll_flush` still succeeds). -/
def mock (req : Bytes) (writes : Nat) : Conn Script :=
  ⟨[.data req], ⟨List.replicate writes (.accept 8192) ++ List.replicate 30 (.accept 0), [], 0⟩, []⟩

/-- The date has the right length, since it counts for the size of the first chunk.  Of the request targets of the tests, `http::Uri` rejects one. -/
def env : Env := ⟨exactHexLen, fun t => t ≠ ascii "foo/bar", fun _ => ascii "Thu, 07 May 2020 15:54:21 GMT", fun _ => zeroPool⟩

/-- What `accept` returned, the calls of the endpoint, and the bytes written, without the date. -/
def run (endpoint : Endpoint (BodyReader Script)) (req : String) (writes : Nat := 1) : Run (AcceptRes × List (ReqHead × Option Nat) × Bytes) := do
  let (c, ev, res) ← acceptGo env ⟨false, false⟩ endpoint 1000 9 0 (mock (ascii req) writes)
  .ret (res, calls ev, removeDate c.wr.got)

/-- The same, without the calls. -/
def response (endpoint : Endpoint (BodyReader Script)) (req : String) (writes : Nat := 1) : Run (AcceptRes × Bytes) := do
  let (res, _, got) ← run endpoint req writes
  .ret (res, got)

/-- The operations on the response writer, and then `send`. -/
def answer (ops : List (RespOp Script)) : Prog (BodyReader Script) :=
  match sentAfter ops with
  | .ret r => .send r (fun _ => .ok) (fun _ => .glitch .new)
  | _ => .glitch (.ofStatus 599)

def resp200 : Bytes := ascii "HTTP/1.1 200 OK\r\ncontent-length: 0\r\n\r\n"
def resp400 : Bytes := ascii "HTTP/1.1 400 Bad Request\r\ncontent-length: 0\r\n\r\n"
def resp500 : Bytes := ascii "HTTP/1.1 500 Internal Server Error\r\ncontent-length: 0\r\n\r\n"

/-- `|_req, resp_wtr| resp_wtr.send()` -/
def justSend : Endpoint (BodyReader Script) := fun _ _ => answer []

/-- test_request_empty_body -/
example : response justSend "GET /foo/bar HTTP/1.1\r\nHost: example.org\r\n\r\n" = .ret (.ok, resp200) := by decide +kernel

/-- `req.into_body().into_string().await.unwrap()`, `set_body`, `insert_header` -/
def hello : Endpoint (BodyReader Script) := fun _ len =>
  Prog.readAll (fun _ len => len + 32)
    (fun bs => answer [.setBody (.fromBytes (ascii "Hello " ++ bs)), .insertHeader (ascii "content-type") (ascii "text/plain")])
    (fun _ => .glitch .new) (.glitch .new) 20 (ToEnd.new (len.getD 0))

/-- test_request_basic_with_body_and_query -/
example : run hello "GET /foo/bar?one=two HTTP/1.1\r\nHost: example.org\r\nContent-Length: 6\r\n\r\ntophat" =
    .ret (.ok, [(⟨ascii "GET", ascii "/foo/bar?one=two", [(ascii "host", [ascii "example.org"]), (ascii "content-length", [ascii "6"])]⟩, some 6)],
      ascii "HTTP/1.1 200 OK\r\ncontent-length: 12\r\ncontent-type: text/plain\r\n\r\nHello tophat") := by decide +kernel

/-- test_request_missing_method -/
example : response justSend "/foo/bar HTTP/1.1\r\nHost: example.org\r\nContent-Length: 0\r\n\r\n" = .ret (.ok, resp400) := by decide +kernel

/-- test_request_missing_host -/
example : response justSend "GET /foo/bar HTTP/1.1\r\nContent-Length: 0\r\n\r\n" = .ret (.ok, resp400) := by decide +kernel

/-- test_request_path: a good path, a good absolute URI, a bad path -/
example : run justSend "GET /foo/bar HTTP/1.1\r\nHost: example.org\r\nContent-Length: 0\r\n\r\n" =
      .ret (.ok, [(⟨ascii "GET", ascii "/foo/bar", [(ascii "host", [ascii "example.org"]), (ascii "content-length", [ascii "0"])]⟩, some 0)], resp200) ∧
    run justSend "GET https://wunder.org/foo/bar HTTP/1.1\r\nHost: example.org\r\nContent-Length: 0\r\n\r\n" =
      .ret (.ok, [(⟨ascii "GET", ascii "https://wunder.org/foo/bar", [(ascii "host", [ascii "example.org"]), (ascii "content-length", [ascii "0"])]⟩, some 0)], resp200) ∧
    response justSend "GET foo/bar HTTP/1.1\r\nHost: example.org\r\nContent-Length: 0\r\n\r\n" = .ret (.ok, resp400) := by decide +kernel

/-- test_request_version -/
example : response justSend "GET /foo/bar HTP/1.1\r\nHost: example.org\r\nContent-Length: 0\r\n\r\n" = .ret (.ok, resp400) ∧
    response justSend "GET /foo/bar HTTP/1.0\r\nHost: example.org\r\nContent-Length: 0\r\n\r\n" =
      .ret (.ok, ascii "HTTP/1.1 505 HTTP Version Not Supported\r\ncontent-length: 0\r\n\r\n") := by decide +kernel

/-- test_transfer_encoding_unsupported -/
example : response justSend "GET /foo/bar HTTP/1.1\r\nHost: example.org\r\nContent-Length: 0\r\nTransfer-Encoding: gzip\r\n\r\n" =
    .ret (.err .connectionClosedUnsupportedTransferEncoding, ascii "HTTP/1.1 501 Not Implemented\r\ncontent-length: 0\r\n\r\n") := by decide +kernel

/-- test_transfer_encoding_content_length expects a 400 and is marked `#[ignore]`: the code does not do that, and neither does the model. -/
example : response justSend "GET /foo/bar HTTP/1.1\r\nHost: example.org\r\nContent-Length: 0\r\nTransfer-Encoding: chunked\r\n\r\n" = .ret (.ok, resp200) := by decide +kernel

/-- test_dont_allow_user_set_body_type_header -/
example : response (fun _ _ => answer [.appendHeader (ascii "transfer-encoding") (ascii "chunked")])
      "GET /foo/bar HTTP/1.1\r\nHost: example.org\r\nContent-Length: 0\r\n\r\n" = .ret (.ok, resp200) ∧
    response (fun _ _ => answer [.setBody (.fromReader [] none), .appendHeader (ascii "content-length") (ascii "20")])
      "GET /foo/bar HTTP/1.1\r\nHost: example.org\r\nContent-Length: 0\r\n\r\n" =
      .ret (.ok, ascii "HTTP/1.1 200 OK\r\ntransfer-encoding: chunked\r\ncontent-type: application/octet-stream\r\n\r\n0\r\n\r\n") := by decide +kernel

/-- test_response_date; the date of the application is the one that is sent, too -/
example : response (fun _ _ => answer [.appendHeader (ascii "date") (ascii "Wed, 21 Oct 2015 07:28:00 GMT")])
      "GET /foo/bar HTTP/1.1\r\nHost: example.org\r\nContent-Length: 0\r\nTransfer-Encoding: chunked\r\n\r\n" = .ret (.ok, resp200) := by decide +kernel

/-- test_set_content_type_mime -/
example : response (fun _ _ => answer [.appendHeader (ascii "content-type") (ascii "text/plain")])
      "GET /foo/bar HTTP/1.1\r\nHost: example.org\r\nContent-Length: 0\r\n\r\n" =
    .ret (.ok, ascii "HTTP/1.1 200 OK\r\ncontent-length: 0\r\ncontent-type: text/plain\r\n\r\n") := by decide +kernel

/-- The body and the trailers, as `into_string_with_trailer` in the endpoint gives them. -/
def bodyAndTrailers (req : String) : Run TrailerRes := do
  let (_, p) ← (DecFut.start (mock (ascii req) 1).rd).poll env.uriOk zeroPool 1000 (mock (ascii req) 1).wr
  match p with
  | .ready (.request r) => r.toBody.intoStringWithTrailer (fun _ len => len + 32) 50 false
  | _ => .ret .running

/-- test_decode_transfer_encoding_chunked: with a trailer and without -/
example : bodyAndTrailers "GET /foo/bar HTTP/1.1\r\nHost: example.org\r\nTransfer-Encoding: chunked\r\n\r\n7\r\nMozilla\r\n9\r\nDeveloper\r\n7\r\nNetwork\r\n0\r\nExpires: Wed, 21 Oct 2015 07:28:00 GMT\r\n\r\n" =
      .ret (.ok (ascii "MozillaDeveloperNetwork") (some [(ascii "expires", [ascii "Wed, 21 Oct 2015 07:28:00 GMT"])])) ∧
    bodyAndTrailers "GET /foo/bar HTTP/1.1\r\nHost: example.org\r\nTransfer-Encoding: chunked\r\n\r\n7\r\nMozilla\r\n9\r\nDeveloper\r\n7\r\nNetwork\r\n0\r\n\r\n" =
      .ret (.ok (ascii "MozillaDeveloperNetwork") (some [])) := by decide +kernel

/-- The same requests, with an endpoint that reads the body and answers with an empty response. -/
example : response (fun _ _ => Prog.readAll (fun _ len => len + 32) (fun _ => answer []) (fun _ => .glitch .new) (.glitch .new) 50 (ToEnd.new 0))
      "GET /foo/bar HTTP/1.1\r\nHost: example.org\r\nTransfer-Encoding: chunked\r\n\r\n7\r\nMozilla\r\n9\r\nDeveloper\r\n7\r\nNetwork\r\n0\r\nExpires: Wed, 21 Oct 2015 07:28:00 GMT\r\n\r\n" =
    .ret (.ok, resp200) := by decide +kernel

/-- test_encode_transfer_encoding_chunked: two writes are enough -/
example : response (fun _ _ => answer [.setBody (.fromReader [.data (ascii "Hello tophat!")] none)])
      "GET /foo/bar HTTP/1.1\r\nHost: example.org\r\nContent-Length: 0\r\n\r\n" 2 =
    .ret (.ok, ascii "HTTP/1.1 200 OK\r\ntransfer-encoding: chunked\r\ncontent-type: application/octet-stream\r\n\r\nD\r\nHello tophat!\r\n0\r\n\r\n") := by decide +kernel

/-- and, as the comment in the test says, one is not -/
example : response (fun _ _ => answer [.setBody (.fromReader [.data (ascii "Hello tophat!")] none)])
      "GET /foo/bar HTTP/1.1\r\nHost: example.org\r\nContent-Length: 0\r\n\r\n" 1 ≠
    .ret (.ok, ascii "HTTP/1.1 200 OK\r\ntransfer-encoding: chunked\r\ncontent-type: application/octet-stream\r\n\r\nD\r\nHello tophat!\r\n0\r\n\r\n") := by decide +kernel

/-! ## tests/server_error_handling.rs -/

/-- The request of all these tests. -/
def getFoo : String := "GET /foo/bar HTTP/1.1\r\nHost: example.org\r\n\r\n"

/-- `"one".parse::<usize>()`: the text of the error. -/
def notANumber : Except Bytes Nat := .error (ascii "invalid digit found in string")

/-- `r?; resp_wtr.send().await` -/
def tries {α : Type} (r : Except Glitch α) : Endpoint (BodyReader Script) := fun _ _ => match r with
  | .ok _ => answer []
  | .error g => .glitch g

/-- test_request_manually_create_glitch -/
example : response (tries (notANumber.mapError fun _ => Glitch.badRequest)) getFoo = .ret (.ok, resp400) := by decide +kernel

/-- test_request_glitch_with_context -/
example : response (tries (notANumber.mapError Glitch.newWithErr)) getFoo = .ret (.ok, resp500) ∧
    response (tries (Glitch.onResult notANumber 500)) getFoo = .ret (.ok, resp500) ∧
    response (tries (Glitch.onResultCtx notANumber 500 (ascii "custom error"))) getFoo =
      .ret (.ok, ascii "HTTP/1.1 500 Internal Server Error\r\ncontent-length: 12\r\ncontent-type: text/plain\r\n\r\ncustom error") ∧
    response (tries (Glitch.onOptionCtx (none : Option Nat) 400 (ascii "custom error"))) getFoo =
      .ret (.ok, ascii "HTTP/1.1 400 Bad Request\r\ncontent-length: 12\r\ncontent-type: text/plain\r\n\r\ncustom error") := by decide +kernel

/-- test_request_glitch_macro -/
example : response (tries (notANumber.mapError fun _ => Glitch.new)) getFoo = .ret (.ok, resp500) ∧
    response (tries (notANumber.mapError fun _ => Glitch.ofStatus 400)) getFoo = .ret (.ok, resp400) ∧
    response (tries (notANumber.mapError fun _ => Glitch.ofStatusMessage 400 (ascii "custom error"))) getFoo =
      .ret (.ok, ascii "HTTP/1.1 400 Bad Request\r\ncontent-length: 12\r\ncontent-type: text/plain\r\n\r\ncustom error") := by decide +kernel

/-- test_request_glitch_code_macro and test_request_glitch_code_macro_panic -/
example : Glitch.ofCodeMessage 400 (ascii "custom error") = .ret (Glitch.ofStatusMessage 400 (ascii "custom error")) ∧
    Glitch.ofCodeMessage 1 (ascii "custom error") = .panic := by decide +kernel

end Tophat.Conformance
