import Verif.Model.BufReader
import Verif.Model.ServerEncode
/-!
# Model of `ResponseWriter` (`src/server/response_writer.rs:79-247`)

Only the response under construction is modelled; the connection the response is written to is part of `acceptStep`.
-/

namespace Tophat

/-- The reader in a `Body` (src/body.rs:16): bytes in memory, or a reader of the application's. -/
inductive BodyReader (σ : Type)
  | memory (c : Cursor)
  | reader (r : σ)
  deriving DecidableEq, Repr

section
variable {σ : Type}

/-- Wraps the result of an operation on bytes in memory.  src/body.rs:165, 172. -/
def BodyReader.ofMemory (x : Cursor × RPoll) : Run (BodyReader σ × RPoll) := .ret (.memory x.1, x.2)
/-- Wraps the result of an operation on a reader.  src/body.rs:165, 172. -/
def BodyReader.ofReader (x : σ × RPoll) : Run (BodyReader σ × RPoll) := .ret (.reader x.1, x.2)

/-- src/body.rs:159-178: a `Body` reads from the reader it contains. -/
instance [AsyncBufRead σ] : AsyncBufRead (BodyReader σ) where
  pollRead b k := match b with
    | .memory c => pollRead c k >>= BodyReader.ofMemory
    | .reader r => pollRead r k >>= BodyReader.ofReader
  pollFill b := match b with
    | .memory c => pollFill c >>= BodyReader.ofMemory
    | .reader r => pollFill r >>= BodyReader.ofReader
  consume b n := match b with
    | .memory c => .memory (consume c n)
    | .reader r => .reader (consume r n)

/-- A `Body` is as lawful as the reader it contains.  Not a model but a proof about src/body.rs:159-178. -/
instance [AsyncBufRead σ] [LawfulBufRead σ] : LawfulBufRead (BodyReader σ) where
  rem b := match b with
    | .memory c => rem c
    | .reader r => rem r
  fin b := match b with
    | .memory c => fin c
    | .reader r => fin r
  meas b := match b with
    | .memory c => meas c
    | .reader r => meas r
  read_ok b k := by
    cases b with
    | memory c =>
      obtain ⟨c', p, h, hk⟩ := LawfulRead.read_ok c k
      refine ⟨.memory c', p, by simp only [pollRead] at h ⊢; simp only [h, Run.ret_bind, BodyReader.ofMemory], ?_⟩
      cases hk with
      | pending a b d => exact .pending a b d
      | err a b => exact .err a b
      | data a b d e f => exact .data a b d e f
    | reader c =>
      obtain ⟨c', p, h, hk⟩ := LawfulRead.read_ok c k
      refine ⟨.reader c', p, by simp only [pollRead] at h ⊢; simp only [h, Run.ret_bind, BodyReader.ofReader], ?_⟩
      cases hk with
      | pending a b d => exact .pending a b d
      | err a b => exact .err a b
      | data a b d e f => exact .data a b d e f
  fill_ok b := by
    cases b with
    | memory c =>
      obtain ⟨c', p, h, hk⟩ := LawfulBufRead.fill_ok c
      refine ⟨.memory c', p, by simp only [pollFill] at h ⊢; simp only [h, Run.ret_bind, BodyReader.ofMemory], ?_⟩
      cases hk with
      | pending a b d => exact .pending a b d
      | err a b => exact .err a b
      | data a b d e f g => exact .data a b d e f g
    | reader c =>
      obtain ⟨c', p, h, hk⟩ := LawfulBufRead.fill_ok c
      refine ⟨.reader c', p, by simp only [pollFill] at h ⊢; simp only [h, Run.ret_bind, BodyReader.ofReader], ?_⟩
      cases hk with
      | pending a b d => exact .pending a b d
      | err a b => exact .err a b
      | data a b d e f g => exact .data a b d e f g

/-- src/body.rs:14-20 `Body`, without the trailer channel. -/
structure RespBody (σ : Type) where
  reader : BodyReader σ
  length : Option Nat
  deriving DecidableEq, Repr

/-- src/body.rs:25-34 `Body::empty`. -/
def RespBody.empty : RespBody σ := ⟨.memory ⟨[]⟩, some 0⟩
/-- src/body.rs:40-52 `Body::from_reader`. -/
def RespBody.fromReader (r : σ) (len : Option Nat) : RespBody σ := ⟨.reader r, len⟩
/-- src/body.rs:55-64 `Body::from_bytes`; also 133-157 `From<String>` and `From<&str>`, for the UTF-8 encoding. -/
def RespBody.fromBytes (bs : Bytes) : RespBody σ := ⟨.memory ⟨bs⟩, some bs.length⟩

/-- `http::Response<Body>` (src/response.rs:6): the parts that `send` uses. -/
structure Response (σ : Type) where
  status : StatusCode
  headers : HeaderMap
  version : Version
  body : RespBody σ
  deriving DecidableEq, Repr

/-- `Response::new(body)` of the `http` crate: 200 OK, HTTP/1.1, no headers.  Not in /repo; used at src/server/mod.rs:94. -/
def Response.new (body : RespBody σ) : Response σ := ⟨200, [], .http11, body⟩

/-- What an endpoint can do with its `ResponseWriter` before it sends.  `replace` is `*response_mut() = ..`
(src/server/response_writer.rs:211-213); other uses of `response_mut` are not distinguished from it.
`IntoHeaderName` values are names of the `http` crate, that is lower-case tokens. -/
inductive RespOp (σ : Type)
  | setStatus (s : StatusCode)
  | setCode (code : Nat)
  | setBody (b : RespBody σ)
  | appendHeader (name value : Bytes)
  | insertHeader (name value : Bytes)
  | replace (r : Response σ)
  | setText (text : Bytes)
  | setSse (r : σ)
  deriving DecidableEq, Repr

namespace Response

/-- src/server/response_writer.rs:151-154 `set_status`. -/
def setStatus (r : Response σ) (s : StatusCode) : Response σ := { r with status := s }

/-- src/server/response_writer.rs:160-163 `set_code`. -/
def setCode (r : Response σ) (code : Nat) : Run (Response σ) :=
  match statusFromU16 code with
  | some s => .ret { r with status := s }
  | none => .panic

/-- src/server/response_writer.rs:168-171 `set_body`. -/
def setBody (r : Response σ) (b : RespBody σ) : Response σ := { r with body := b }

/-- src/server/response_writer.rs:174-183 `append_header`. -/
def appendHeader (r : Response σ) (name value : Bytes) : Response σ := { r with headers := r.headers.append name value }

/-- src/server/response_writer.rs:186-195 `insert_header`. -/
def insertHeader (r : Response σ) (name value : Bytes) : Response σ := { r with headers := r.headers.insert name value }

/-- src/server/response_writer.rs:225-231 `set_text`. -/
def setText (r : Response σ) (text : Bytes) : Response σ :=
  { r with body := .fromBytes text, headers := r.headers.insert H.contentType (ascii "text/plain") }

/-- src/server/response_writer.rs:237-246 `set_sse`; `stream.into_async_read()` is the reader `s`. -/
def setSse (r : Response σ) (s : σ) : Response σ :=
  (r.setBody (.fromReader s none)).insertHeader H.contentType (ascii "text/event-stream")

/-- One operation.  src/server/response_writer.rs:151-246. -/
def apply (r : Response σ) : RespOp σ → Run (Response σ)
  | .setStatus s => .ret (r.setStatus s)
  | .setCode code => r.setCode code
  | .setBody b => .ret (r.setBody b)
  | .appendHeader n v => .ret (r.appendHeader n v)
  | .insertHeader n v => .ret (r.insertHeader n v)
  | .replace r => .ret r
  | .setText t => .ret (r.setText t)
  | .setSse s => .ret (r.setSse s)

/-- A sequence of operations.  Calls of the methods of src/server/response_writer.rs:151-246, one after the other. -/
def applyAll : Response σ → List (RespOp σ) → Run (Response σ)
  | r, [] => .ret r
  | r, op :: ops => do
    let r ← r.apply op
    applyAll r ops

/-- src/server/response_writer.rs:122-130 `send`: the response handed to `InnerResponse::send`. -/
def toInner (r : Response σ) : InnerResponse (BodyReader σ) := ⟨r.status, r.headers, r.version, r.body.reader, r.body.length⟩

/-- src/server/response_writer.rs:143-148 `send_code`, up to `InnerResponse::send`. -/
def toInnerCode (r : Response σ) (code : Nat) : Run (InnerResponse (BodyReader σ)) := do
  let r ← r.setCode code
  .ret r.toInner

end Response

/-- src/server/mod.rs:92-95: the response an endpoint starts with. -/
def freshResponse : Response σ := Response.new .empty

/-- The response sent after a sequence of operations, src/server/response_writer.rs:122-133. -/
def sentAfter (ops : List (RespOp σ)) : Run (InnerResponse (BodyReader σ)) := do
  let r ← freshResponse.applyAll ops
  .ret r.toInner

end

end Tophat
