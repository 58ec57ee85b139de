import Verif.Model.Client
/-!
# Model of `src/body.rs` and `src/trailers.rs`

Reading a body to its end, and waiting for its trailers.
-/

namespace Tophat

/-- `isize::MAX`.  Matters at src/body.rs:77, 100. -/
def isizeMax : Nat := 2 ^ 63 - 1

/-! ## The standard library and futures-lite -/

/-- `String::from_utf8(bs).is_ok()`: the table of `core::str::validations::run_utf8_validation`.  Called in `read_to_string`, src/body.rs:78, 101. -/
def utf8Valid : Bytes → Bool
  | [] => true
  | a :: r =>
    if a.toNat < 0x80 then utf8Valid r
    else if 0xC2 ≤ a.toNat ∧ a.toNat ≤ 0xDF then
      match r with
      | b :: r => decide (0x80 ≤ b.toNat ∧ b.toNat ≤ 0xBF) && utf8Valid r
      | _ => false
    else if 0xE0 ≤ a.toNat ∧ a.toNat ≤ 0xEF then
      match r with
      | b :: c :: r =>
        decide ((if a.toNat = 0xE0 then 0xA0 else 0x80) ≤ b.toNat ∧ b.toNat ≤ (if a.toNat = 0xED then 0x9F else 0xBF)) &&
          decide (0x80 ≤ c.toNat ∧ c.toNat ≤ 0xBF) && utf8Valid r
      | _ => false
    else if 0xF0 ≤ a.toNat ∧ a.toNat ≤ 0xF4 then
      match r with
      | b :: c :: d :: r =>
        decide ((if a.toNat = 0xF0 then 0x90 else 0x80) ≤ b.toNat ∧ b.toNat ≤ (if a.toNat = 0xF4 then 0x8F else 0xBF)) &&
          decide (0x80 ≤ c.toNat ∧ c.toNat ≤ 0xBF) && decide (0x80 ≤ d.toNat ∧ d.toNat ≤ 0xBF) && utf8Valid r
      | _ => false
    else false

/-- The local variables of `read_to_end_internal` of futures-lite: the bytes read so far (`buf[..g.len]`), and length and capacity of `buf`.  Called at src/body.rs:69, 89. -/
structure ToEnd where
  got : Bytes
  len : Nat
  cap : Nat
  deriving DecidableEq, Repr

/-- A new buffer with the given capacity.  src/body.rs:68, 88. -/
def ToEnd.new (cap : Nat) : ToEnd := ⟨[], 0, cap⟩

/-- `if g.len == g.buf.len() { g.buf.reserve(32); g.buf.resize(g.buf.capacity(), 0) }`.  `grow cap len` is the capacity that a `Vec` of capacity `cap` and length `len`
gets when 32 more bytes do not fit.  In `read_to_end`, src/body.rs:69. -/
def ToEnd.room (grow : Nat → Nat → Nat) (s : ToEnd) : ToEnd :=
  if s.got.length = s.len then
    let cap := if s.cap - s.len < 32 then grow s.cap s.len else s.cap
    { s with len := cap, cap := cap }
  else s

/-- What `Vec` guarantees.  Matters in `read_to_end`, src/body.rs:69. -/
def GrowOk (grow : Nat → Nat → Nat) : Prop := ∀ cap len, len + 32 ≤ grow cap len

/-- How reading to the end stands: it goes on, it failed, or the end was reached.  The result of `read_to_end`, src/body.rs:69-71. -/
inductive Slurp
  | running
  | err (e : IoErr)
  | eof (bs : Bytes)
  deriving DecidableEq, Repr

/-- `read_to_end_internal` of futures-lite 1.11, stopped after `fuel` polls of the reader.  Awaiting it goes on behind a `Pending` with `buf` truncated to the bytes read.  Slicing `buf` behind its end panics.  src/body.rs:69, 78, 89, 101. -/
def readToEnd {ρ : Type} [AsyncRead ρ] (grow : Nat → Nat → Nat) : Nat → ρ → ToEnd → Run (ρ × Slurp)
  | 0, r, _ => .ret (r, .running)
  | fuel + 1, r, s =>
    let s := s.room grow
    if s.got.length ≤ s.len then do
      let (r, p) ← pollRead r (s.len - s.got.length)
      match p with
      | .pending => readToEnd grow fuel r { s with len := s.got.length }
      | .err e => .ret (r, .err e)
      | .data [] => .ret (r, .eof s.got)
      | .data bs => readToEnd grow fuel r { s with got := s.got ++ bs }
    else .panic

/-! ## src/body.rs, src/trailers.rs -/

/-- src/body.rs:11-21 `struct Body`, with a reader of type `ρ`.  `sender`: `trailer_sender.is_some()`.  The other end of the channel, `trailer_receiver`, is looked at in `recvTrailers`. -/
structure MsgBody (ρ : Type) where
  reader : ρ
  length : Option Nat
  sender : Bool

namespace MsgBody

/-- src/body.rs:25-34 `Body::empty`; the reader `Empty` is a cursor over nothing (`Model/BufReader.lean`). -/
def empty : MsgBody Cursor := ⟨⟨[]⟩, some 0, true⟩

/-- src/body.rs:40-52 `Body::from_reader`. -/
def fromReader {ρ : Type} (r : ρ) (len : Option Nat) : MsgBody ρ := ⟨r, len, true⟩

/-- src/body.rs:55-64 `Body::from_bytes`. -/
def fromBytes (bs : Bytes) : MsgBody Cursor := ⟨⟨bs⟩, some bs.length, true⟩

/-- src/body.rs:133-157 `impl From<String>` and `From<&str>`; a string is given by its bytes. -/
def fromText (bs : Bytes) : MsgBody Cursor := ⟨⟨bs⟩, some bs.length, true⟩

/-- src/body.rs:109-115 `Body::send_trailers`, without the sender that it returns. -/
def sendTrailers {ρ : Type} (b : MsgBody ρ) : Run (MsgBody ρ) := if b.sender then .ret { b with sender := false } else .panic

/-- src/body.rs:123-130 `Body::set_inner`. -/
def setInner {ρ τ : Type} (b : MsgBody ρ) (r : τ) (len : Option Nat) : MsgBody τ := ⟨r, len, b.sender⟩

end MsgBody

/-- How a conversion of a body stands: reading goes on, it failed (`BodyError::Conversion`), or it is done.  src/body.rs:67, 76. -/
inductive BodyRes
  | running
  | conversion (e : IoErr)
  | ok (bs : Bytes)
  deriving DecidableEq, Repr

/-- The result of `read_to_end`.  src/body.rs:69-72. -/
def BodyRes.ofBytes : Slurp → BodyRes
  | .running => .running
  | .err e => .conversion e
  | .eof bs => .ok bs

/-- The result of `read_to_string` of futures-lite: as of `read_to_end`, and the bytes must be UTF-8.  src/body.rs:78-81. -/
def BodyRes.ofText : Slurp → BodyRes
  | .running => .running
  | .err e => .conversion e
  | .eof bs => if utf8Valid bs then .ok bs else .conversion .notUtf8

/-- `String::with_capacity(n)` panics for more than `isize::MAX` bytes.  (That the memory may not be there is not modelled.)  src/body.rs:77, 100. -/
def stringCapacity (n : Nat) : Run Nat := if n ≤ isizeMax then .ret n else .panic

section
variable {ρ : Type} [AsyncRead ρ]

/-- src/body.rs:67-73 `Body::into_bytes`, stopped after `fuel` polls; the reader that is left is returned as well.  src/body.rs:159-167: a `Body` reads from its reader. -/
def MsgBody.intoBytes (grow : Nat → Nat → Nat) (fuel : Nat) (b : MsgBody ρ) : Run (ρ × BodyRes) := do
  let (r, x) ← readToEnd grow fuel b.reader (ToEnd.new 1024)
  .ret (r, .ofBytes x)

/-- src/body.rs:76-82 `Body::into_string`. -/
def MsgBody.intoString (grow : Nat → Nat → Nat) (fuel : Nat) (b : MsgBody ρ) : Run (ρ × BodyRes) := do
  let cap ← stringCapacity (b.length.getD 0)
  let (r, x) ← readToEnd grow fuel b.reader (ToEnd.new cap)
  .ret (r, .ofText x)

end

/-- Readers that may hold a sender of the trailer channel of the body they are in (src/chunked/decoder.rs:41), and what they have sent. -/
class Announces (ρ : Type) where
  holds : ρ → Bool
  sent : ρ → List HeaderMap

/-- The sender is in `trailer_sender`, or in the future of `State::TrailerSending` (src/chunked/decoder.rs:158-171). -/
instance {ρ : Type} : Announces (ChunkedDecoder ρ) where
  holds d := d.hasSender || match d.state with
    | .trailerSending _ => true
    | _ => false
  sent d := d.sent

/-- A `BufReader` does not send trailers itself; see src/server/decode.rs:141. -/
instance {ρ : Type} [Announces ρ] : Announces (BufRd ρ) where
  holds r := Announces.holds r.inner
  sent r := Announces.sent r.inner

/-- src/util.rs:6-8: no trailers. -/
instance : Announces Cursor where
  holds _ := false
  sent _ := []

/-- src/server/decode.rs:138-146: only a chunked body has a sender. -/
instance {ρ : Type} : Announces (ReqBody ρ) where
  holds
    | .fixed _ => false
    | .chunked r => Announces.holds r
  sent
    | .fixed _ => []
    | .chunked r => Announces.sent r

/-- src/client/decode.rs:96-119: only a chunked body has a sender. -/
instance {ρ : Type} : Announces (ReplyBody ρ) where
  holds
    | .empty => false
    | .stream r => Announces.holds r
  sent
    | .empty => []
    | .stream r => Announces.sent r

/-- How awaiting the trailers stands.  src/body.rs:119-121. -/
inductive Recv
  | got (m : HeaderMap)
  | none
  | waiting
  deriving DecidableEq, Repr

/-- src/body.rs:119-121 `Body::recv_trailers`, `receiver.recv().await.ok()` of async-channel: the oldest message; without one, `None` if there is no sender any more; with a sender it waits.
`kept`: the application has called `send_trailers` and keeps what it returned. -/
def MsgBody.recvTrailers {ρ : Type} [Announces ρ] (b : MsgBody ρ) (kept : Bool) : Recv :=
  match Announces.sent b.reader with
  | m :: _ => .got m
  | [] => if b.sender || Announces.holds b.reader || kept then .waiting else .none

/-- How a conversion with trailers stands; `waiting`: the body has been read, and it waits for the trailers.  Nobody polls the reader any more, so this changes only if the
application drops a sender that it kept.  src/body.rs:85-106. -/
inductive TrailerRes
  | running
  | conversion (e : IoErr)
  | waiting (bs : Bytes)
  | ok (bs : Bytes) (trailers : Option HeaderMap)
  deriving DecidableEq, Repr

/-- Behind the reading of the body.  src/body.rs:92-93, 104-105. -/
def MsgBody.thenTrailers {ρ : Type} [Announces ρ] (b : MsgBody ρ) (kept : Bool) : BodyRes → TrailerRes
  | .running => .running
  | .conversion e => .conversion e
  | .ok bs => match b.recvTrailers kept with
    | .got m => .ok bs (some m)
    | .none => .ok bs none
    | .waiting => .waiting bs

section
variable {ρ : Type} [AsyncRead ρ] [Announces ρ]

/-- src/body.rs:85-94 `Body::into_bytes_with_trailer`. -/
def MsgBody.intoBytesWithTrailer (grow : Nat → Nat → Nat) (fuel : Nat) (b : MsgBody ρ) (kept : Bool) : Run TrailerRes := do
  let (r, x) ← b.intoBytes grow fuel
  .ret (MsgBody.thenTrailers { b with reader := r } kept x)

/-- src/body.rs:97-106 `Body::into_string_with_trailer`. -/
def MsgBody.intoStringWithTrailer (grow : Nat → Nat → Nat) (fuel : Nat) (b : MsgBody ρ) (kept : Bool) : Run TrailerRes := do
  let (r, x) ← b.intoString grow fuel
  .ret (MsgBody.thenTrailers { b with reader := r } kept x)

end

/-- The body of a request, src/server/decode.rs:138-147: for a chunked one the sender has been taken out and given to the decoder. -/
def Request.toBody {ρ : Type} (req : Request ρ) : MsgBody (ReqBody ρ) :=
  match req.body with
  | .fixed r => MsgBody.fromReader (.fixed r) req.length
  | .chunked r => ({ MsgBody.empty with sender := false } : MsgBody Cursor).setInner (.chunked r) none

/-- The body of a response, src/client/decode.rs:96-117. -/
def ClientResponse.toBody {ρ : Type} (rsp : ClientResponse ρ) : MsgBody (ReplyBody ρ) :=
  match rsp.body with
  | .empty => MsgBody.empty.setInner .empty (some 0)
  | .stream (.fixed r) => MsgBody.fromReader (.stream (.fixed r)) rsp.length
  | .stream (.chunked r) => ({ MsgBody.empty with sender := false } : MsgBody Cursor).setInner (.stream (.chunked r)) none

end Tophat
