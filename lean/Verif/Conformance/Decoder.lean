import Verif.Props.ClientDecode
import Verif.Model.Body
/-!
# The tests of the repository, replayed in the model: the chunked decoder, `handle_100_continue` and the client

The tests in /repo/src/chunked/decoder.rs and /repo/src/server/decode.rs, and those of /repo/tests/client_basic.rs.
-/

set_option autoImplicit false
set_option maxRecDepth 20000
set_option synthInstance.maxSize 1000

namespace Tophat.Conformance

/-! ## src/chunked/decoder.rs -/

/-- `decoder.read_to_string(&mut output)` (what was read and what the trailer channel got). -/
def decoded (input : Bytes) : Run (Slurp × List HeaderMap) := do
  let (d, x) ← readToEnd (fun cap len => max (2 * cap) (len + 32)) 1000 (ChunkedDecoder.new (Cursor.mk input) zeroPool) (ToEnd.new 0)
  .ret (x, d.sent)

/-- test_chunked_wiki -/
example : decoded (ascii "4\r\nWiki\r\n5\r\npedia\r\nE\r\n in\r\n\r\nchunks.\r\n0\r\n\r\n") =
    .ret (.eof (ascii "Wikipedia in\r\n\r\nchunks."), [[]]) := by decide +kernel

/-- test_chunked_mdn -/
example : decoded (ascii "7\r\nMozilla\r\n9\r\nDeveloper\r\n7\r\nNetwork\r\n0\r\nExpires: Wed, 21 Oct 2015 07:28:00 GMT\r\n\r\n") =
    .ret (.eof (ascii "MozillaDeveloperNetwork"), [[(ascii "expires", [ascii "Wed, 21 Oct 2015 07:28:00 GMT"])]]) := by decide +kernel

/-- test_chunked_big -/
example : decoded (ascii "800\r\n" ++ List.replicate 2048 88 ++ ascii "\r\n1800\r\n" ++ List.replicate 6144 89 ++ ascii "\r\n800\r\n" ++ List.replicate 2048 90 ++ ascii "\r\n0\r\n\r\n") =
    .ret (.eof (List.replicate 2048 88 ++ List.replicate 6144 89 ++ List.replicate 2048 90), [[]]) := by decide +kernel

/-! ## src/server/decode.rs -/

/-- The head that `handle_100_continue` gets, and what it writes. -/
def interim (headers : HeaderMap) : Run (Bytes × WriteAll) := do
  let (w, x) ← writeAll ⟨[], [], 0⟩ (interimBytes ⟨ascii "GET", ascii "/", ⟨headers, none, false, false, false⟩⟩)
  .ret (w.got, x)

/-- test_handle_100_continue_does_nothing_with_no_header, .._sends_header_if_expects_is_right, .._sends_header_if_expects_is_wrong -/
example : interim [] = .ret ([], .done) ∧
    interim (HeaderMap.append [] (ascii "expect") (ascii "100-continue")) = .ret (ascii "HTTP/1.1 100 Continue\r\n\r\n", .done) ∧
    interim (HeaderMap.append [] (ascii "expect") (ascii "111-wrong")) = .ret ([], .done) := by decide +kernel

/-! ## tests/client_basic.rs -/

/-- What the mock server got, and the status of the response.  The mock server takes one write and gives the response with the first read. -/
def asked (uri : String) (query : Option Bytes) (body : String) (reply : String) : Run (Bytes × Option StatusCode) := do
  let req : ClientRequest Cursor := ⟨ascii "GET", ⟨ascii uri, query, none, none⟩, HeaderMap.insert [] (ascii "host") (ascii "example.org"), ⟨ascii body⟩, some (ascii body).length⟩
  let (w, x) ← connect (ascii "NOW") zeroPool 100 100 req ([.data (ascii reply)] : Script) ⟨.accept 8192 :: List.replicate 30 (.accept 0), [], 0⟩
  match x with
  | .done (.ok r) => .ret (w.got, some r.status)
  | _ => .ret (w.got, none)

/-- test_client_empties -/
example : asked "/foo/bar" none "" "HTTP/1.1 200 OK\r\ncontent-length: 0\r\n\r\n" =
    .ret (ascii "GET /foo/bar HTTP/1.1\r\ncontent-length: 0\r\nhost: example.org\r\n\r\n", some 200) := by decide +kernel

/-- test_client_bad_request -/
example : asked "/foo/bar" none "" "HTTP/1.1 400 Bad Request\r\ncontent-length: 0\r\n\r\n" =
    .ret (ascii "GET /foo/bar HTTP/1.1\r\ncontent-length: 0\r\nhost: example.org\r\n\r\n", some 400) := by decide +kernel

/-- test_client_body_query -/
example : asked "/foo/bar" (some (ascii "one=two")) "tophat" "HTTP/1.1 200 OK\r\ncontent-length: 0\r\n\r\n" =
    .ret (ascii "GET /foo/bar?one=two HTTP/1.1\r\ncontent-length: 6\r\nhost: example.org\r\n\r\ntophat", some 200) := by decide +kernel

end Tophat.Conformance
