import Verif.Model.Accept
import Verif.Model.Client
import Verif.Model.Body
/-!
# Model of the texts of errors: `Display` and `Error::source`

Strings are represented by their UTF-8 bytes.  Errors of the standard library and of other libraries are represented by the text that their `Display` gives: `ioText` gives it for each
`std::io::Error`.
-/

namespace Tophat

/-! ## src/client/error.rs -/

namespace ClientError

/-- src/client/error.rs:59-65 `enum Kind`. -/
inductive Kind
  | encode (msg : Option Bytes)
  | decode (msg : Option Bytes)
  | io
  deriving DecidableEq, Repr

end ClientError

/-- src/client/error.rs:6-10 `struct ClientError`, with lines 67-71 `source`; the source by its text. -/
structure ClientError where
  kind : ClientError.Kind
  source : Option Bytes
  deriving DecidableEq, Repr

namespace ClientError

/-- The `{:?}` of a `str`, used at src/client/error.rs:36, 38, 43, 45, for one byte: quotes, backslashes, tabs and line ends are escaped.  The other characters that are not printable, which are escaped
with `\u`, are left as they are: no message has any. -/
def escape (c : UInt8) : Bytes :=
  if c = 34 then ascii "\\\"" else if c = 92 then ascii "\\\\" else if c = 10 then ascii "\\n" else if c = 13 then ascii "\\r" else if c = 9 then ascii "\\t" else [c]

/-- The `{:?}` of an `Option<String>`, used at src/client/error.rs:36, 38, 43, 45. -/
def debugMsg : Option Bytes → Bytes
  | none => ascii "None"
  | some m => ascii "Some(\"" ++ m.flatMap escape ++ ascii "\")"

/-- src/client/error.rs:29-56 `Display`. -/
def display (e : ClientError) : Bytes :=
  match e.kind with
  | .encode msg => match e.source with
    | some err => debugMsg msg ++ ascii ": " ++ err
    | none => debugMsg msg
  | .decode msg => match e.source with
    | some err => debugMsg msg ++ ascii ": " ++ err
    | none => debugMsg msg
  | .io => match e.source with
    | some err => ascii "Io Error: " ++ err
    | none => ascii "Io Error"

/-- src/client/error.rs:73-75 `encode`. -/
def ofEncode (msg : Bytes) : ClientError := ⟨.encode (some msg), none⟩
/-- src/client/error.rs:77-79 `encode_io`. -/
def ofEncodeIo (err : Bytes) : ClientError := ⟨.encode none, some err⟩
/-- src/client/error.rs:81-83 `decode`. -/
def ofDecode (msg : Bytes) : ClientError := ⟨.decode (some msg), none⟩
/-- src/client/error.rs:85-87 `decode_err`. -/
def ofDecodeErr (err : Bytes) : ClientError := ⟨.decode none, some err⟩
/-- src/client/error.rs:89-91 `io`. -/
def ofIo (err : Bytes) : ClientError := ⟨.io, some err⟩

end ClientError

/-- The `ClientError` that `connect` returns: which constructor is called where is modelled with the callers, `ClientEncoder.encode`, `ClientDecode.decode` and `clientSend`.
`lib` is the text of the error of httparse or of the http library for `decodeErr`.  src/client/encode.rs:46-110, src/client/decode.rs:36-121, src/client/mod.rs:21. -/
def ClientErr.toError (ioText : IoErr → Bytes) (lib : Bytes) : ClientErr → ClientError
  | .encode msg => .ofEncode (ascii msg)
  | .decode msg => .ofDecode (ascii msg)
  | .decodeErr => .ofDecodeErr lib
  | .decodeIo e => .ofDecodeErr (ioText e)
  | .io e => .ofIo (ioText e)

/-! ## src/body.rs, module `error` -/

/-- src/body.rs:185-190 `enum BodyError`. -/
inductive BodyError
  | conversion (e : IoErr)
  | trailer (e : IoErr)
  deriving DecidableEq, Repr

namespace BodyError

/-- src/body.rs:202-210 `Display`. -/
def display (ioText : IoErr → Bytes) : BodyError → Bytes
  | .conversion e => ascii "Error converting body: " ++ ioText e
  | .trailer e => ascii "Error in body trailer: " ++ ioText e

/-- src/body.rs:192-200 `source`. -/
def source : BodyError → Option IoErr
  | .conversion e => some e
  | .trailer e => some e

end BodyError

/-- The error with which a conversion of a body returns.  src/body.rs:70, 79. -/
def BodyRes.error? : BodyRes → Option BodyError
  | .conversion e => some (.conversion e)
  | _ => none

/-! ## src/server/error.rs and src/server/decode.rs -/

/-- src/server/error.rs:28-38 `Display` of the error that is returned. -/
def ServerError.display : ServerError → Bytes
  | .connectionClosedUnsupportedTransferEncoding => ascii "Connection closed: Unsupported Transfer Encoding"

end Tophat
