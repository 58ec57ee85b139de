import Verif.Proofs.Framing
import Verif.Props.ChunkedRequest
import Verif.Props.Accept
/-!
# Property C77: where a request ends

`Framing fs len` (`Verif.Spec.Framing`) is what RFC 7230 section 3.3.3 says about the framing of a request with the header fields `fs`; it holds for no `len` if the request has to be
refused.  If the server thought otherwise than a proxy in front of it, then part of the body of one request could be taken for another request.
-/

set_option linter.unusedSectionVars false
set_option synthInstance.maxSize 1000

namespace Tophat
open Spec

section
variable {ρ : Type} [AsyncRead ρ] [LawfulRead ρ] {σ : Type} [AsyncBufRead σ]

/-- **C77**: if the connection goes on with a whole request (of which the head ends with CRLF CRLF) and with anything behind it, then an endpoint that is called at all is called for
that request, with the framing that RFC 7230 prescribes, and what it reads (up to the first error) is the beginning of the body of that request. -/
theorem C77_agree {env : Env} (hx : HexLenOk env.hexLen) (hp : ∀ n, (env.pool n).Ok) {opts : ServerOpts} {endpoint : Endpoint σ} {fuel n : Nat} {c c' : Conn ρ}
    {ev : List Event} {res : Option AcceptRes} (hs : acceptStep env opts endpoint fuel n c = .ret (c', ev, res)) {head : ReqHead} {len : Option Nat} (hc : .call head len ∈ ev)
    {h m t b body r : Bytes} {fs : List (Bytes × Bytes)} {l : Option Nat} (hr : rem c.rd = h ++ b ++ r) (hh : RequestHead h m t 1 fs) (hb : EndsBlank h) (hl : Framing fs l) (he : Encloses l b body) :
    head.method = m ∧ head.uri = t ∧ MapOf head.headers fs ∧ len = l ∧ received ((untilErr (bodyReads ev)).map (·.2)) <+: body := by
  obtain ⟨h', fs', h1, h2, h3, h4, -, h6, -⟩ := C25_given hx hs hc
  obtain ⟨rfl, rfl, rfl, -, rfl⟩ := firstHead_of_requestHead (r := b ++ r) (by rw [hr]; simp) hh hb h1 h2
  have hlen := framing_bodyLength h4 hl h6
  subst hlen
  have hd : (rem c.rd).drop h'.length = b ++ r := by rw [hr, List.append_assoc, List.drop_left]
  refine ⟨rfl, rfl, h3, rfl, ?_⟩
  cases he with
  | length =>
    have := C26_prefix hx hs hc h1
    rwa [hd, List.take_left] at this
  | chunked hbd =>
    obtain ⟨x, g1, g2⟩ := C60_prefix hx hp hs hc h1
    rw [hd] at g1
    exact g2.trans (hbd.total x g1)

/-- **C77**: and when the endpoint, reading with non-empty buffers, sees the end of the body, then it has got exactly the body: if its length is given, or else if the framing of the
chunks takes at most 4096 bytes.  (Property C13: longer chunked bodies can be cut off.) -/
theorem C77_whole_partial {env : Env} (hx : HexLenOk env.hexLen) (hp : ∀ n, (env.pool n).Ok) {opts : ServerOpts} {endpoint : Endpoint σ} {fuel n : Nat} {c c' : Conn ρ}
    {ev : List Event} {res : Option AcceptRes} (hs : acceptStep env opts endpoint fuel n c = .ret (c', ev, res)) {head : ReqHead} {len : Option Nat} (hc : .call head len ∈ ev)
    {h m t b body r : Bytes} {fs : List (Bytes × Bytes)} {l : Option Nat} (hr : rem c.rd = h ++ b ++ r) (hh : RequestHead h m t 1 fs) (hb : EndsBlank h) (hl : Framing fs l)
    (he : (l = some body.length ∧ b = body) ∨ l = none ∧ ∃ tr, Roomy b body tr ∧ tr.length ≤ 16)
    (hk : ∀ x ∈ bodyReads ev, 0 < x.1) (hE : SawEof ((untilErr (bodyReads ev)).map (·.2))) :
    received ((untilErr (bodyReads ev)).map (·.2)) = body := by
  obtain ⟨h', fs', h1, h2, h3, h4, -, h6, -⟩ := C25_given hx hs hc
  obtain ⟨rfl, rfl, rfl, -, rfl⟩ := firstHead_of_requestHead (r := b ++ r) (by rw [hr]; simp) hh hb h1 h2
  have hlen := framing_bodyLength h4 hl h6
  subst hlen
  have hd : (rem c.rd).drop h'.length = b ++ r := by rw [hr, List.append_assoc, List.drop_left]
  rcases he with ⟨rfl, rfl⟩ | ⟨rfl, tr, h7, h8⟩
  · have := ((C26_complete hx hs hc h1 hk).1 hE).1
    rwa [hd, List.take_left] at this
  · exact (C60_complete hx hp hs hc h1 hk h7 h8 hd).2.1 (.inl hE)

/-- **C77**: the requests that are served although RFC 7230 prescribes no framing for them are exactly those whose last transfer coding is `identity`, those (without transfer coding) with
a plus sign in a Content-Length, and those (without transfer coding) with different lengths. -/
theorem C77_exact {env : Env} (hx : HexLenOk env.hexLen) {opts : ServerOpts} {endpoint : Endpoint σ} {fuel n : Nat} {c c' : Conn ρ}
    {ev : List Event} {res : Option AcceptRes} (hs : acceptStep env opts endpoint fuel n c = .ret (c', ev, res)) {head : ReqHead} {len : Option Nat} (hc : .call head len ∈ ev) :
    ∃ h fs, FirstHead (rem c.rd) h ∧ HasHead h head.method head.uri 1 fs ∧ (Framing fs len ∨
      (∃ c, (valuesOf (ascii "transfer-encoding") fs).getLast? = some c ∧ lower c = ascii "identity") ∨
      (valuesOf (ascii "transfer-encoding") fs = [] ∧ ((∃ v ∈ valuesOf (ascii "content-length") fs, v.head? = some 43) ∨
        ∃ v ∈ valuesOf (ascii "content-length") fs, ∃ w ∈ valuesOf (ascii "content-length") fs, decNum v ≠ decNum w))) := by
  obtain ⟨h, fs, h1, h2, h3, h4, -, h6, -⟩ := C25_given hx hs hc
  refine ⟨h, fs, h1, h2, ?_⟩
  by_cases hf : ∃ l, Framing fs l
  · obtain ⟨l, hl⟩ := hf
    rw [framing_bodyLength h4 hl h6]
    exact .inl hl
  · exact .inr ((framing_missing h4).1 fun l hl => hf ⟨l, hl⟩)

/-- **C77**: a head that ends with a bare LF takes bytes of what follows it with it: the server goes on behind the next CRLF CRLF, and has dropped what is in between. -/
theorem C77_swallows {env : Env} (hx : HexLenOk env.hexLen) {opts : ServerOpts} {endpoint : Endpoint σ} {fuel n : Nat} {c c' : Conn ρ}
    {ev : List Event} {res : Option AcceptRes} (hs : acceptStep env opts endpoint fuel n c = .ret (c', ev, res)) {head : ReqHead} {len : Option Nat} (hc : .call head len ∈ ev)
    {h m t r : Bytes} {fs : List (Bytes × Bytes)} (hr : rem c.rd = h ++ r) (hh : RequestHead h m t 1 fs) (hb : ¬ EndsBlank h) :
    head.method = m ∧ head.uri = t ∧ ∃ junk r', junk ≠ [] ∧ r = junk ++ r' ∧ FirstHead (rem c.rd) (h ++ junk) ∧
      ∀ k, len = some k → received ((untilErr (bodyReads ev)).map (·.2)) <+: r'.take k := by
  obtain ⟨h', fs', h1, ⟨hd, junk, rfl, h2, _⟩, -⟩ := C25_given hx hs hc
  obtain ⟨q, hq⟩ := h1.1
  obtain ⟨rfl, e2, rfl, rfl, -, rfl⟩ := requestHead_unique (r := junk ++ q) (r' := r) h2 hh (by rw [← hr, ← hq]; simp)
  refine ⟨rfl, rfl, junk, q, ?_, e2.symm, h1, fun k hk => ?_⟩
  · rintro rfl
    rw [List.append_nil] at h1
    exact hb h1.2.1
  · subst hk
    have := C26_prefix hx hs hc h1
    rwa [← hq, List.drop_left] at this

end

/-! ## Concrete cases -/

/-- A request that all recipients understand in the same way, in two pieces, with another one behind it. -/
def clearHead : Bytes := ascii "POST /p HTTP/1.1\r\nHost: x\r\nContent-Length: 5\r\nContent-Length: 5\r\n\r\n"
def clearFields : List (Bytes × Bytes) := [(ascii "Host", ascii "x"), (ascii "Content-Length", ascii "5"), (ascii "Content-Length", ascii "5")]
def clearConn : Conn Script := connOf [clearHead ++ ascii "he", ascii "lloGET / HTTP/1.1\r\n\r\n"]

theorem clearHead_is : RequestHead clearHead (ascii "POST") (ascii "/p") 1 clearFields := by
  obtain ⟨h, e, hh, _⟩ := (Httparse.parseRequest_ok 16 clearHead [] (ascii "POST") (ascii "/p") 1 clearFields).1 (by decide +kernel)
  rw [List.append_nil] at e
  rwa [e]

theorem clear_framing : Framing clearFields (some 5) := .length (by decide) (by decide) (by unfold Decimal; decide)

/-- `clearConn` meets the hypotheses of `C77_agree` and of `C77_whole_partial`, and the endpoint has got `hello`. -/
example : ∃ c' ev res head len, acceptStep demoEnv plainOpts (reading [3, 3, 8, 8, 8]) 1000 0 clearConn = .ret (c', ev, res) ∧ .call head len ∈ ev ∧
    rem clearConn.rd = clearHead ++ ascii "hello" ++ ascii "GET / HTTP/1.1\r\n\r\n" ∧ EndsBlank clearHead ∧ Encloses (some 5) (ascii "hello") (ascii "hello") ∧
    (∀ x ∈ bodyReads ev, 0 < x.1) ∧ received ((untilErr (bodyReads ev)).map (·.2)) = ascii "hello" ∧ SawEof ((untilErr (bodyReads ev)).map (·.2)) := by
  have h : observed (reading [3, 3, 8, 8, 8]) clearConn = .ret ([
      .call ⟨ascii "POST", ascii "/p", [(ascii "host", [ascii "x"]), (ascii "content-length", [ascii "5", ascii "5"])]⟩ (some 5),
      .got 3 (.data (ascii "he")), .got 3 .pending, .got 8 (.data (ascii "llo")), .got 8 (.data []), .got 8 (.data []),
      .wrote (ascii "HTTP/1.1 200 OK\r\ncontent-length: 5\r\ndate: NOW\r\ncontent-type: application/octet-stream\r\n\r\nhello")], none) := by decide +kernel
  obtain ⟨c', h1⟩ := observed_ret h
  exact ⟨c', _, _, _, _, h1, List.mem_cons_self, by decide +kernel, ⟨clearHead.take (clearHead.length - 4), by decide +kernel⟩, .length (body := ascii "hello"), by decide, by decide, by unfold SawEof; decide⟩

/-- The response of an endpoint that has read `hello`. -/
def okHello : Bytes := responseHead .http11 200 [] (some 5) (ascii "NOW") ++ ascii "hello"

/-- **C77** is false of requests with two different lengths: RFC 7230 has them refused, but the endpoint is called, with the last one. -/
theorem C77_refuted_lengths : observed (reading [8, 8]) (connOf [ascii "POST /p HTTP/1.1\r\nHost: x\r\nContent-Length: 2\r\nContent-Length: 5\r\n\r\nhello"]) =
      .ret ([.call ⟨ascii "POST", ascii "/p", [(ascii "host", [ascii "x"]), (ascii "content-length", [ascii "2", ascii "5"])]⟩ (some 5),
        .got 8 (.data (ascii "hello")), .got 8 (.data []), .wrote okHello], none) ∧
    ∀ len, ¬ Framing [(ascii "Host", ascii "x"), (ascii "Content-Length", ascii "2"), (ascii "Content-Length", ascii "5")] len :=
  ⟨by decide +kernel, (framing_missing (by decide +kernel)).2 (.inr ⟨by decide, .inr (by decide)⟩)⟩

/-- **C77** is false of requests whose last transfer coding is `identity`: here the chunked body that comes first is not read, and stays on the connection. -/
theorem C77_refuted_identity : observed (reading [8]) (connOf [ascii "POST /p HTTP/1.1\r\nHost: x\r\nTransfer-Encoding: chunked\r\nTransfer-Encoding: identity\r\n\r\n", ascii "0\r\n\r\n"]) =
      .ret ([.call ⟨ascii "POST", ascii "/p", [(ascii "host", [ascii "x"]), (ascii "transfer-encoding", [ascii "chunked", ascii "identity"])]⟩ (some 0), .got 8 (.data []), .wrote okEmpty], none) ∧
    ∀ len, ¬ Framing [(ascii "Host", ascii "x"), (ascii "Transfer-Encoding", ascii "chunked"), (ascii "Transfer-Encoding", ascii "identity")] len :=
  ⟨by decide +kernel, (framing_missing (by decide +kernel)).2 (.inl ⟨ascii "identity", by decide, by decide⟩)⟩

/-- **C77** is false of lengths with a plus sign. -/
theorem C77_refuted_plus : observed (reading [8, 8]) (connOf [ascii "POST /p HTTP/1.1\r\nHost: x\r\nContent-Length: +5\r\n\r\nhello"]) =
      .ret ([.call ⟨ascii "POST", ascii "/p", [(ascii "host", [ascii "x"]), (ascii "content-length", [ascii "+5"])]⟩ (some 5),
        .got 8 (.data (ascii "hello")), .got 8 (.data []), .wrote okHello], none) ∧
    ∀ len, ¬ Framing [(ascii "Host", ascii "x"), (ascii "Content-Length", ascii "+5")] len :=
  ⟨by decide +kernel, (framing_missing (by decide +kernel)).2 (.inr ⟨by decide, .inl (by decide)⟩)⟩

/-- A head with bare LFs. -/
def lfHead : Bytes := ascii "GET /a HTTP/1.1\nHost: x\n\n"

theorem lfHead_is : RequestHead lfHead (ascii "GET") (ascii "/a") 1 [(ascii "Host", ascii "x")] := by
  obtain ⟨h, e, hh, _⟩ := (Httparse.parseRequest_ok 16 lfHead [] (ascii "GET") (ascii "/a") 1 [(ascii "Host", ascii "x")]).1 (by decide +kernel)
  rw [List.append_nil] at e
  rwa [e]

theorem getB_is : RequestHead getB (ascii "GET") (ascii "/b") 1 [(ascii "Host", ascii "x")] := by
  obtain ⟨h, e, hh, _⟩ := (Httparse.parseRequest_ok 16 getB [] (ascii "GET") (ascii "/b") 1 [(ascii "Host", ascii "x")]).1 (by decide +kernel)
  rw [List.append_nil] at e
  rwa [e]

/-- **C77** is false of heads that end with a bare LF: the stream consists of two requests, which come in two packets, but the endpoint is called for the first one only, and the second one is
never answered. -/
theorem C77_refuted_lf : OneRequest lfHead (ascii "GET") (ascii "/a") [(ascii "Host", ascii "x")] [] ∧ OneRequest getB (ascii "GET") (ascii "/b") [(ascii "Host", ascii "x")] [] ∧
    watched plainOpts (reading []) 9 (connOf [lfHead, getB]) = .ret ([.call ⟨ascii "GET", ascii "/a", hostX⟩ (some 0), .wrote okEmpty], .ok) ∧
    watched plainOpts (reading []) 9 (connOf [getA, getB]) =
      .ret ([.call ⟨ascii "GET", ascii "/a", hostX⟩ (some 0), .wrote okEmpty, .call ⟨ascii "GET", ascii "/b", hostX⟩ (some 0), .wrote okEmpty], .ok) := by
  refine ⟨⟨lfHead, [], some 0, by simp, lfHead_is, .nothing (by decide) (by decide), .length (body := [])⟩,
    ⟨getB, [], some 0, by simp, getB_is, .nothing (by decide) (by decide), .length (body := [])⟩, by decide +kernel, by decide +kernel⟩

/-- `lfHead` meets the hypotheses of `C77_swallows`. -/
example : rem (connOf [lfHead, getB]).rd = lfHead ++ getB ∧ ¬ EndsBlank lfHead := ⟨by decide +kernel, by decide +kernel⟩

end Tophat
