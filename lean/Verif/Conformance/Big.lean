import Verif.Conformance.Server
import Verif.Conformance.Decoder
import Verif.Props.Sse
import Verif.Props.Body
/-!
# The tests of the repository, replayed in the model: a chunked response that needs more than one chunk

test_encode_transfer_encoding_chunked_big of /repo/tests/server_basic.rs.  The text of /repo/tests/chunked_text_big.rs has 12086 bytes; the letters are replaced by as many times the letter a, and `accept` by the
`send` inside it.  The expected response has a chunk of 0x1F7C bytes (what is left of the 8192 bytes of `io::copy` behind the head), one of 0xFBA bytes and the last one, in three writes.
-/

set_option maxRecDepth 20000

namespace Tophat.Conformance

/-- tests/chunked_text_big.rs:60-128 `RESPONSE`, with the date that `remove_date` removes. -/
def bigResponse : Bytes :=
  ascii "HTTP/1.1 200 OK\r\ntransfer-encoding: chunked\r\ndate: Thu, 07 May 2020 15:54:21 GMT\r\ncontent-type: application/octet-stream\r\n\r\n1F7C\r\n" ++ List.replicate 8060 97 ++
    ascii "\r\nFBA\r\n" ++ List.replicate 4026 97 ++ ascii "\r\n0\r\n\r\n"

/-- What is on the wire, and whether `send` succeeded. -/
def bigSend : Run (Bytes × Bool) := do
  let (w, r) ← sendResponse env.hexLen (env.now 0) 20 ⟨200, [], .http11, (BodyReader.reader [.data (List.replicate 12086 97)] : BodyReader Script), none⟩ (mock [] 3).wr
  .ret (w.got, match r with | .ok _ => true | _ => false)

/-- test_encode_transfer_encoding_chunked_big -/
example : bigSend = .ret (bigResponse, true) := by decide +kernel

end Tophat.Conformance
