import Verif.Props.RoundTrip
import Verif.Proofs.Recipient
import Verif.Proofs.Framing
/-!
# Property C92: whatever one side sends, the other accepts

The server takes at most 16 header fields, the client a head of at most 128 fields and less than 8 KiB, and neither side sees the blanks at the beginning of a header value; but neither side keeps the
other, or the application, from sending them.
-/

set_option linter.unusedSectionVars false
set_option synthInstance.maxSize 1000

namespace Tophat
open Spec

/-! ## Requests -/

theorem Spec.PlainField.ok {f : Bytes × Bytes} (h : PlainField f) : FieldOk f := ⟨h.1, h.2.1, h.2.2.1⟩

theorem FieldOk.line {f : Bytes × Bytes} (h : FieldOk f) : f.1 ++ [58, 32] ++ f.2 ≠ [] ∧ (10 : UInt8) ∉ f.1 ++ [58, 32] ++ f.2 := by
  refine ⟨by simp, ?_⟩
  simp only [List.mem_append, not_or]
  exact ⟨⟨fun hm => tokenByte_ne_lf (h.2.1 _ hm) rfl, by decide⟩, fun hm => valueByte_ne_lf (h.2.2 _ hm) rfl⟩

theorem firstHead_seen {m t : Bytes} {fs : List (Bytes × Bytes)} (hm : ∀ b ∈ m, tokenByte b) (ht : ∀ b ∈ t, targetByte b) (h : ∀ f ∈ fs, FieldOk f) (rest : Bytes) :
    FirstHead (renderRequest m t fs ++ rest) (renderRequest m t fs) := by
  rw [renderRequest_lines]
  refine firstHead_lines (by simp) ?_ rest
  intro l hl
  rcases List.mem_cons.1 hl with rfl | hl
  · refine ⟨by simp, ?_⟩
    simp only [List.mem_append, List.mem_cons, not_or]
    exact ⟨fun h => tokenByte_ne_lf (hm _ h) rfl, by decide, fun h => targetByte_ne_lf (ht _ h) rfl, by decide⟩
  · obtain ⟨f, hf, rfl⟩ := List.mem_map.1 hl
    exact (h f hf).line

theorem requestHead_seen {m t : Bytes} {fs : List (Bytes × Bytes)} (hm : ∀ b ∈ m, tokenByte b) (ht : ∀ b ∈ t, targetByte b) (h : ∀ f ∈ fs, FieldOk f) :
    RequestHead (renderRequest m t fs) m t 1 (fs.map fun f => (f.1, trimmed f.2)) := by
  refine ⟨[], [13, 10], renderFields fs ++ [13, 10], ?_, .nil, hm, ht, by omega, .inl rfl, fieldSection_seen h⟩
  unfold renderRequest
  have e1 : ascii " HTTP/1.1\r\n" = 32 :: (ascii "HTTP/1." ++ (UInt8.ofNat (48 + 1) :: [13, 10])) := by decide
  have e2 : ascii "\r\n" = [13, 10] := by decide
  have e3 : ascii " " = [32] := by decide
  rw [e1, e2, e3]
  simp

theorem valuesOf_trimmed (k : Bytes) (fs : List (Bytes × Bytes)) : valuesOf k (fs.map fun f => (f.1, trimmed f.2)) = (valuesOf k fs).map trimmed := by
  unfold valuesOf
  rw [List.filter_map, List.map_map, List.map_map]
  rfl

section
variable {σ : Type} [AsyncBufRead σ] [LawfulBufRead σ] {ρ : Type} [AsyncRead ρ] [LawfulRead ρ] {τ : Type} [AsyncBufRead τ]

theorem Postable.ok {uriOk : Bytes → Bool} {req : ClientRequest σ} {t : Bytes} {fs : List (Bytes × Bytes)} (h : Postable uriOk req t fs) : ∀ f ∈ fs, FieldOk f := by
  have hf := h.fields
  have tok : ∀ n v : Bytes, (n ≠ [] ∧ (n.all fun b => isTokenByte b) = true) → (v.all fun b => headerValueByte b) = true → FieldOk (n, v) :=
    fun n v h1 h2 => ⟨h1.1, fun b hb => (Httparse.isTokenByte_iff b).1 (List.all_eq_true.1 h1.2 b hb), fun b hb => valueByte_of (List.all_eq_true.1 h2 b hb)⟩
  unfold fieldsOf at hf
  simp only [Option.map_eq_some_iff] at hf
  obtain ⟨hs, h1, rfl⟩ := hf
  intro f hf
  simp only [List.mem_append] at hf
  rcases hf with ((hf | hf) | hf) | hf
  · split at h1
    · simp only [Option.map_eq_some_iff] at h1
      obtain ⟨a, h2, rfl⟩ := h1
      simp only [List.mem_singleton] at hf
      subst hf
      exact (h.host a h2).ok
    · injection h1 with h1; subst h1; cases hf
  · split at hf
    · simp only [List.mem_singleton] at hf
      subst hf
      exact tok _ _ (by decide) (by decide)
    · cases hf
  · simp only [List.mem_singleton] at hf
    subst hf
    refine tok _ _ (by decide) (List.all_eq_true.2 fun b hb => ?_)
    obtain ⟨d1, d2⟩ := decimal_digit _ b hb
    have h127 : b.toNat ≠ 127 := by omega
    have : 32 ≤ b.toNat := by omega
    simp [headerValueByte, h127, this]
  · obtain ⟨h1, h2, h3⟩ := headerName_token (h.headers.names f hf)
    obtain ⟨h4, h5⟩ := headerValue_byte (h.headers.values f hf)
    exact ⟨h1, fun b hb => (Httparse.isTokenByte_iff b).1 (h2 b hb), fun b hb => valueByte_of (h4 b hb)⟩

/-- The bytes that the client has written. -/
theorem Postable.written {uriOk : Bytes → Bool} {req : ClientRequest σ} {t : Bytes} {fs : List (Bytes × Bytes)} (hr : Postable uriOk req t fs) {cfuel : Nat} {w w' : Writer} (hw : w.got = [])
    (hsend : clientSend cfuel req w = .ret (w', .sent)) : w'.got = renderRequest req.method t fs ++ rem req.body := by
  obtain ⟨sent, h1, -, -, h2⟩ := C50_written hsend
  obtain ⟨H, used, h3, h4, -⟩ := h2 rfl
  rw [hr.head] at h3
  injection h3 with h3
  subst h3
  rw [h1, hw, h4]; simp

/-- C92 is false of the code: a request with more than 16 header fields (with those that the client adds), which a tophat client sends without objection, does not reach the endpoint of a tophat server: it is refused with
400, however it is fragmented and delayed, and whatever follows it. -/
theorem C92_refuted_many {env : Env} (hx : HexLenOk env.hexLen) {opts : ServerOpts} {endpoint : Endpoint τ} {req : ClientRequest σ} {t : Bytes} {fs : List (Bytes × Bytes)}
    (hr : Postable env.uriOk req t fs) (hmany : 16 < fs.length) {cfuel : Nat} {w w' : Writer} (hw : w.got = []) (hsend : clientSend cfuel req w = .ret (w', .sent))
    {fuel k : Nat} {c c' : Conn ρ} {more : Bytes} (hc : rem c.rd = w'.got ++ more) (hrel : c.wr.Reliable) (ht : NoTimeout opts c) {ev : List Event} {res : Option AcceptRes}
    (hs : acceptStep env opts endpoint fuel k c = .ret (c', ev, res)) :
    res = none ∧ calls ev = [] ∧ ev = [.wrote (errorResponse 400 (env.now k))] ∧ c'.wr.got = c.wr.got ++ errorResponse 400 (env.now k) := by
  have hrem : rem c.rd = renderRequest req.method t fs ++ (rem req.body ++ more) := by rw [hc, hr.written hw hsend]; simp
  have hfirst : FirstHead (rem c.rd) (renderRequest req.method t fs) := by rw [hrem]; exact firstHead_seen hr.method.2 hr.targetOk.1 hr.ok _
  have hj : Judged env.uriOk (renderRequest req.method t fs) (.refuse false 400) := by
    refine .malformed ?_
    rintro m t' v fs' ⟨hd, junk, e, h1, h2⟩
    have := requestHead_unique (requestHead_seen hr.method.2 hr.targetOk.1 hr.ok) h1 (r := []) (r' := junk) (by rw [← e]; simp)
    rw [← this.2.2.2.2.2, List.length_map] at h2
    omega
  obtain ⟨g1, g2, g3⟩ := refused_inv (acceptStep_spec hx hs) hfirst hj hrel ht
  have g2 : ev = [.wrote (errorResponse 400 (env.now k))] := by rw [g2]; rfl
  exact ⟨g1, by rw [g2]; rfl, g2, by rw [g3]; rfl⟩

/-- **C92**, for requests of at most 16 header fields: they reach the endpoint with their method, target and header values, but for the blanks at the beginning of the values.  (That these get lost is `C92_refuted_blanks`.) -/
theorem C92_request_partial {env : Env} (hx : HexLenOk env.hexLen) {opts : ServerOpts} {endpoint : Endpoint τ} {req : ClientRequest σ} {t : Bytes} {fs : List (Bytes × Bytes)}
    (hr : Postable env.uriOk req t fs) (hfew : fs.length ≤ 16) {cfuel : Nat} {w w' : Writer} (hw : w.got = []) (hsend : clientSend cfuel req w = .ret (w', .sent))
    {fuel k : Nat} {c c' : Conn ρ} {more : Bytes} (hc : rem c.rd = w'.got ++ more) (hrel : c.wr.Reliable) (ht : NoTimeout opts c) {ev : List Event} {res : Option AcceptRes}
    (hs : acceptStep env opts endpoint fuel k c = .ret (c', ev, res)) :
    res = none ∧ ∃ hmap, calls ev = [(⟨req.method, t, hmap⟩, some (rem req.body).length)] ∧
      ∀ k, k ∉ [ascii "host", ascii "proxy-connection", ascii "content-length"] → hmap.getAll k = (req.headers.getAll k).map trimmed := by
  have hrem : rem c.rd = renderRequest req.method t fs ++ (rem req.body ++ more) := by rw [hc, hr.written hw hsend]; simp
  have hfirst : FirstHead (rem c.rd) (renderRequest req.method t fs) := by rw [hrem]; exact firstHead_seen hr.method.2 hr.targetOk.1 hr.ok _
  have hhas : HasHead (renderRequest req.method t fs) req.method t 1 (fs.map fun f => (f.1, trimmed f.2)) :=
    ⟨_, [], (List.append_nil _).symm, requestHead_seen hr.method.2 hr.targetOk.1 hr.ok, by rw [List.length_map]; exact hfew⟩
  obtain ⟨-, v1, v2, v3⟩ := hr.values []
  have v1' : valuesOf (ascii "content-length") (fs.map fun f => (f.1, trimmed f.2)) = [decimal (rem req.body).length] := by
    rw [valuesOf_trimmed, v1, List.map_singleton, trimmed_decimal]
  have v2' : valuesOf (ascii "transfer-encoding") (fs.map fun f => (f.1, trimmed f.2)) = [] := by rw [valuesOf_trimmed, v2]; rfl
  have hgood : ∀ f ∈ fs.map fun f => (f.1, trimmed f.2), GoodField f := by
    intro f hf
    refine ⟨fun hb => ?_, fun hb => ?_⟩
    · have : f.2 ∈ valuesOf (ascii "content-length") (fs.map fun f => (f.1, trimmed f.2)) := List.mem_map.2 ⟨f, List.mem_filter.2 ⟨hf, by simp [hb.1]⟩, rfl⟩
      rw [v1', List.mem_singleton] at this
      exact hb.2 _ (this ▸ isLength_decimal hr.body.2)
    · have : f.2 ∈ valuesOf (ascii "transfer-encoding") (fs.map fun f => (f.1, trimmed f.2)) := List.mem_map.2 ⟨f, List.mem_filter.2 ⟨hf, by simp [hb.1]⟩, rfl⟩
      rw [v2'] at this
      cases this
  have hlen : BodyLength (fs.map fun f => (f.1, trimmed f.2)) (some (rem req.body).length) :=
    ((C25_lengths _).2.1 [] _ _ v2' (by rw [v1']; rfl) (isLength_decimal hr.body.2) _).2 rfl
  obtain ⟨g1, hmap, g2, g3⟩ := C25_served hx hfirst hhas hr.method.1 hgood (by rw [valuesOf_trimmed]; simpa using v3) hr.targetOk.2 hlen hrel ht hs
  refine ⟨g1, hmap, g3, fun k hk => ?_⟩
  simp only [List.mem_cons, List.not_mem_nil, or_false, not_or] at hk
  have : hmap.getAll k = valuesOf k (fs.map fun f => (f.1, trimmed f.2)) := g2.2 k
  rw [this, valuesOf_trimmed, (hr.values k).1 hk.1 hk.2.1 hk.2.2]

end

/-! ## Responses -/

section
variable {σ : Type} [AsyncBufRead σ] [LawfulBufRead σ] {ρ : Type} [AsyncRead ρ] [LawfulRead ρ]

/-- A response that a tophat server sends as the endpoint gives it: version 1.1, and a status and headers that the `http` crate can represent. -/
structure Presentable (resp : InnerResponse σ) (now : Bytes) : Prop where
  version : resp.version = .http11
  status : 100 ≤ resp.status ∧ resp.status < 1000
  wf : resp.headers.WF
  valid : resp.headers.Valid
  clock : ∀ b ∈ now, valueByte b

theorem Presentable.first {resp : InnerResponse σ} {now : Bytes} (t : Presentable resp now) (rest : Bytes) : FirstReply (headOf resp now ++ rest) (headOf resp now) := by
  have h := sentFields_ok (len := resp.length) t.valid t.clock
  unfold headOf responseHead
  rw [t.version, responseHead_lines]
  refine firstReply_lines (by simp) ?_ rest
  intro l hl
  rcases List.mem_cons.1 hl with rfl | hl
  · refine ⟨by simp, ?_⟩
    simp only [statusDisplay, List.mem_append, not_or]
    exact ⟨⟨by decide, by decide⟩, ⟨decimal_not_mem (by decide), by decide⟩, fun hm => valueByte_ne_lf (reason_valueBytes _ _ hm) rfl⟩
  · obtain ⟨f, hf, rfl⟩ := List.mem_map.1 hl
    exact (h f hf).line

theorem Presentable.reply {resp : InnerResponse σ} {now : Bytes} (t : Presentable resp now) :
    ReplyHead (headOf resp now) 1 resp.status (seenFields resp.headers resp.length now) := by
  unfold headOf
  rw [t.version]
  exact replyHead_seen t.status.1 t.status.2 t.valid t.clock

/-- C92 is false of the code: a response whose head has 8 KiB or more, or more than 128 fields (with those that the server adds), which a tophat server sends without objection and with success, is not returned by a tophat client:
it reports an error, however the response is fragmented and delayed. -/
theorem C92_refuted_large {hexLen : Nat → Nat} (hx : HexLenOk hexLen) {resp : InnerResponse σ} {now : Bytes} (t : Presentable resp now)
    (hlarge : 8192 ≤ (headOf resp now).length ∨ 128 < (sentFields resp.headers resp.length now).length)
    (hn : ∀ n, resp.length = some n → 8192 + n < usizeLimit) {sfuel : Nat} {w w' : Writer} {amt : Nat} (hw : w.got = [])
    (hsend : sendResponse hexLen now sfuel resp w = .ret (w', .ok amt))
    {io : ρ} {more : Bytes} (hio : rem io = w'.got ++ more) (now' : Bytes) {pool : Pool} {fuel : Nat} (hf : 2 * (rem io).length + meas io < fuel) :
    ∃ e, ClientDecode.decode now' pool fuel io = .ret (.done (.err e)) := by
  obtain ⟨msg, h1, -, h2, -⟩ := C10_bytes_written hx t.wf hn hsend
  obtain ⟨body, hmsg⟩ : ∃ body, msg = headOf resp now ++ body := by
    cases hl : resp.length with
    | none => rw [hl] at h2; obtain ⟨wire, h2, -⟩ := h2; exact ⟨_, h2⟩
    | some n => rw [hl] at h2; exact ⟨_, h2⟩
  have hrem : rem io = headOf resp now ++ (body ++ more) := by rw [hio, h1, hw, hmsg]; simp
  have hfirst : FirstReply (rem io) (headOf resp now) := by rw [hrem]; exact t.first _
  obtain ⟨r, hd, hk⟩ := C54_iff now' pool hf
  have : Rejected (rem io) := by
    refine .inr ⟨_, hfirst, ?_⟩
    rcases hlarge with h | h
    · exact .inl h
    · refine .inr (.malformed ?_)
      rintro v code fs ⟨hd, junk, e, h3, h4⟩
      have := (replyHead_unique t.reply h3 (r := []) (r' := junk) (by rw [← e]; simp)).2.2.2
      rw [← this, seenFields, List.length_map] at h4
      omega
  obtain ⟨e, rfl⟩ := hk.2 this
  exact ⟨e, hd⟩

/-- **C92**, for responses with heads of at most 128 fields and less than 8 KiB and bodies of declared length: they are returned with their status and header values, but for the blanks at the beginning of the values. -/
theorem C92_response_partial {hexLen : Nat → Nat} (hx : HexLenOk hexLen) {resp : InnerResponse σ} {now : Bytes} (t : Presentable resp now)
    (hfields : (sentFields resp.headers resp.length now).length ≤ 128) (hsmall : (headOf resp now).length < 8192)
    {n : Nat} (hl : resp.length = some n) (hn : 8192 + n < usizeLimit) {sfuel : Nat} {w w' : Writer} {amt : Nat} (hw : w.got = [])
    (hsend : sendResponse hexLen now sfuel resp w = .ret (w', .ok amt))
    {io : ρ} {more : Bytes} (hio : rem io = w'.got ++ more) (now' : Bytes) {pool : Pool} {fuel : Nat} (hf : 2 * (rem io).length + meas io < fuel) :
    ∃ res, ClientDecode.decode now' pool fuel io = .ret (.done (.ok res)) ∧ res.status = resp.status ∧
      ∀ k, k ∉ [ascii "content-length", ascii "transfer-encoding", ascii "date", ascii "content-type"] → res.headers.getAll k = (resp.headers.getAll k).map trimmed := by
  obtain ⟨msg, h1, -, h2, -⟩ := C10_bytes_written hx t.wf (fun m hm => by rw [hl] at hm; injection hm with hm; omega) hsend
  rw [hl] at h2
  have hmsg : msg = headOf resp now ++ (rem resp.body).take n := h2
  have hrem : rem io = headOf resp now ++ ((rem resp.body).take n ++ more) := by rw [hio, h1, hw, hmsg]; simp
  have hfirst : FirstReply (rem io) (headOf resp now) := by rw [hrem]; exact t.first _
  have hrep : HasReply (headOf resp now) 1 resp.status (seenFields resp.headers resp.length now) :=
    ⟨_, [], (List.append_nil _).symm, t.reply, by rw [seenFields, List.length_map]; exact hfields⟩
  rw [hl] at hrep
  have hcl : valuesOf (ascii "content-length") (seenFields resp.headers (some n) now) = [decimal n] := by
    rw [valuesOf_framing t.valid _ _ _ (.inl rfl), if_pos (by rfl), framingField, trimmed_decimal]
  have hte : valuesOf (ascii "transfer-encoding") (seenFields resp.headers (some n) now) = [] := by
    rw [valuesOf_framing t.valid _ _ _ (.inr rfl), if_neg (by show ¬ ascii "content-length" = _; decide)]
  have hnl : IsLength (decimal n) n := isLength_decimal (by have : usizeLimit = 2 ^ 64 := rfl; omega)
  obtain ⟨d, hd, hk⟩ := C54_iff now' pool hf
  have hgood : ¬ Rejected (rem io) := by
    rintro (hr | ⟨h, h4, h5 | h5⟩)
    · exact hfirst.not_noReply hr
    · have := h4.unique hfirst; subst this; omega
    · have := h4.unique hfirst; subst this
      have := h5.unique (.fixed hrep (fun h => h.2 hte) (by rw [hcl]; rfl) hnl t.status.1)
      cases this
  cases d with
  | err e => exact absurd (hk.1 ⟨e, rfl⟩) hgood
  | ok res =>
    obtain ⟨h, code, fs, c1, c2, c3⟩ := C53_returned_partial hd
    have := c1.unique hfirst; subst this
    obtain ⟨-, rfl, rfl⟩ := c2.unique hrep
    obtain ⟨c4, c5⟩ := c3 (by unfold SaysChunked; rw [hte]; simp)
    refine ⟨res, hd, c4, fun k hk => ?_⟩
    simp only [List.mem_cons, List.not_mem_nil, or_false, not_or] at hk
    obtain ⟨k1, k2, k3, k4⟩ := hk
    have : res.headers.getAll k = valuesOf k (withDate (seenFields resp.headers (some n) now) now') := c5.2 k
    have hd : valuesOf k (withDate (seenFields resp.headers (some n) now) now') = valuesOf k (seenFields resp.headers (some n) now) := by
      unfold withDate
      split
      · rw [valuesOf_append, valuesOf_one, show lower (ascii "date") = ascii "date" by decide, if_neg (fun h => k3 h.symm), List.append_nil]
      · rw [List.append_nil]
    rw [this, hd, valuesOf_seen, valuesOf_sent t.valid, if_neg (fun h => k1 h.symm), if_neg (fun h => k3 h.2.symm), if_pos ⟨k1, k2⟩, if_neg (fun h => k4 h.2.symm)]
    simp

end

/-! ## Exchanges -/

section
variable {α : Type} [AsyncBufRead α] [LawfulBufRead α] {β : Type} [AsyncBufRead β] {ρ : Type} [AsyncRead ρ] [LawfulRead ρ] {τ : Type} [AsyncRead τ] [LawfulRead τ]

/-- A refusal is transmittable. -/
theorem refusal_ok {st : StatusCode} {now : Bytes} (hs : 100 ≤ st ∧ st < 1000) (hc : (∀ b ∈ now, valueByte b) ∧ ∀ b, now.head? = some b → b ≠ 32 ∧ b ≠ 9) (hsmall : (errorResponse st now).length < 8192) :
    Transmittable (⟨st, [], .http11, ⟨[]⟩, some 0⟩ : InnerResponse Cursor) now :=
  ⟨rfl, hs, (show HeaderMap.WF [] from ⟨by simp, by simp⟩), (show HeaderMap.Valid [] from ⟨by decide, by decide⟩), by simp [HeaderMap.iter], hc, by simp [sentFields, HeaderMap.getAll, HeaderMap.iter], hsmall⟩

/-- The client's side of `C92_refuted_many`, for requests with more than 16 header fields: the endpoint is not called, and `connect` returns a response with the status 400, no headers but a length and a date, and an empty body. -/
theorem C92_refuted_exchange {env : Env} (hx : HexLenOk env.hexLen) {opts : ServerOpts} {endpoint : Endpoint β} {req : ClientRequest α} {t : Bytes} {fs : List (Bytes × Bytes)}
    (hr : Postable env.uriOk req t fs) (hmany : 16 < fs.length) {n : Nat}
    (hclock : (∀ b ∈ env.now n, valueByte b) ∧ ∀ b, (env.now n).head? = some b → b ≠ 32 ∧ b ≠ 9) (hsmall : (errorResponse 400 (env.now n)).length < 8192)
    {now : Bytes} {pool : Pool} (hp : pool.Ok) {cfuel cfuel' : Nat} {w w' : Writer} (hw : w.got = [])
    (hsent : clientSend cfuel req w = .ret (w', .sent)) {io : τ} (hcf : 2 * (rem io).length + meas io < cfuel')
    {sfuel : Nat} {c c' : Conn ρ} (hgot : c.wr.got = []) (hrel : c.wr.Reliable) (ht : NoTimeout opts c) {ev : List Event} {res : Option AcceptRes}
    (hs : acceptStep env opts endpoint sfuel n c = .ret (c', ev, res))
    {x y : Bytes} (hup : rem c.rd = w'.got ++ x) (hdown : rem io = c'.wr.got ++ y) :
    calls ev = [] ∧ ∃ rsp, connect now pool cfuel cfuel' req io w = .ret (w', .done (.ok rsp)) ∧ rsp.status = 400 ∧
      MapOf rsp.headers [(ascii "content-length", ascii "0"), (ascii "date", env.now n)] ∧ rsp.length = some 0 ∧
      ∀ ks, ∃ b ps, polls rsp.body ks = .ret (b, ps) ∧ received ps = [] ∧ ∀ x, .err x ∉ ps := by
  obtain ⟨-, g1, -, g2⟩ := C92_refuted_many hx hr hmany hw hsent hup hrel ht hs
  rw [hgot, List.nil_append] at g2
  obtain ⟨rsp, q1, q2, q3, -, q5, q6⟩ := (refusal_ok (st := 400) (by decide) hclock hsmall).arrives rfl (by decide) (Nat.zero_le _) (io := io) (more := y) (by rw [hdown, g2]; rfl) now hp hcf
  refine ⟨g1, rsp, ?_, q2, q3, q5, fun ks => ?_⟩
  · unfold connect
    rw [hsent]
    simp only [Run.ret_bind]
    rw [q1]
    rfl
  · obtain ⟨b, ps, e1, e2, e3, -⟩ := q6 ks
    exact ⟨b, ps, e1, by simpa using e2, e3⟩

end

/-! ## Concrete cases -/

theorem demoRequest_postable (hs : HeaderMap) (h : hs.Valid) (h0 : hs.getAll (ascii "host") = []) (h1 : hs.getAll (ascii "content-length") = []) (h2 : hs.getAll (ascii "transfer-encoding") = []) :
    Postable demoEnv.uriOk { demoRequest with headers := hs } (ascii "/a?q=1") ([(ascii "host", ascii "h.org:81"), (ascii "content-length", ascii "5")] ++ hs.iter) := by
  have d := demoRequest_ok.postable
  refine ⟨d.method, d.target, d.targetOk, h, d.host, h1, h2, d.body, ?_⟩
  have e1 : authority demoRequest.uri = some (ascii "h.org:81") := by decide +kernel
  have e2 : demoRequest.method ≠ ascii "CONNECT" := by decide
  have e3 : decimal (rem demoRequest.body).length = ascii "5" := by decide +kernel
  unfold fieldsOf
  simp only [h0, if_true, e1, Option.map_some, if_neg e2, e3, List.append_nil, List.cons_append, List.nil_append]

/-- The same name, 15 times. -/
def fifteen : HeaderMap := [(ascii "x-a", List.replicate 15 (ascii "1"))]

/-- With the two fields that the client adds, these are 17. -/
example : Postable demoEnv.uriOk { demoRequest with headers := fifteen } (ascii "/a?q=1") ([(ascii "host", ascii "h.org:81"), (ascii "content-length", ascii "5")] ++ fifteen.iter) ∧
    16 < ([(ascii "host", ascii "h.org:81"), (ascii "content-length", ascii "5")] ++ fifteen.iter).length :=
  ⟨demoRequest_postable _ (HeaderMap.plain_ok (by decide +kernel)).1 (by decide) (by decide) (by decide), by decide⟩

/-- The exchange. -/
example : exchange { demoRequest with headers := fifteen } (reading [3, 9, 9]) = .ret ([.wrote (errorResponse 400 (ascii "NOW"))],
    some (400, [(ascii "content-length", [ascii "0"]), (ascii "date", [ascii "NOW"])], some 0, [.data [], .data [], .data [], .data []])) := by decide +kernel

/-- One field less, and the endpoint is called. -/
example : (do let r ← exchange { demoRequest with headers := [(ascii "x-a", List.replicate 14 (ascii "1"))] } (reading [3, 9, 9]); Run.ret (calls r.1).length) = Run.ret 1 := by decide +kernel

/-- A value that begins with blanks. -/
def blankValue : HeaderMap := [(ascii "x-a", [ascii "  1 ", ascii "2"])]

example : Postable demoEnv.uriOk { demoRequest with headers := blankValue } (ascii "/a?q=1") ([(ascii "host", ascii "h.org:81"), (ascii "content-length", ascii "5")] ++ blankValue.iter) :=
  demoRequest_postable _ ⟨by decide +kernel, by decide +kernel⟩ (by decide) (by decide) (by decide)

/-- C92 is false of the code: the endpoint gets it without them. -/
theorem C92_refuted_blanks : (do let r ← exchange { demoRequest with headers := blankValue } (reading [3, 9, 9]); Run.ret ((calls r.1).map fun c => c.1.headers.getAll (ascii "x-a"))) =
    Run.ret [[ascii "1 ", ascii "2"]] := by decide +kernel

/-- A response with a header value of 8200 bytes, and one with 127 header values. -/
def largeResponse : InnerResponse Script := { demoFixed with headers := [(ascii "x-a", [List.replicate 8200 97])] }

/-- The second. -/
def manyResponse : InnerResponse Script := { demoFixed with headers := [(ascii "x-a", List.replicate 127 (ascii "1"))] }

example : Presentable manyResponse (ascii "NOW") ∧ 128 < (sentFields manyResponse.headers manyResponse.length (ascii "NOW")).length :=
  ⟨⟨rfl, by decide, ⟨by decide, by decide⟩, (HeaderMap.plain_ok (by decide +kernel)).1, nowOk.1⟩, by decide +kernel⟩

example : Presentable largeResponse (ascii "NOW") ∧ 8192 ≤ (headOf largeResponse (ascii "NOW")).length :=
  ⟨⟨rfl, by decide, ⟨by decide, by decide⟩, (HeaderMap.plain_ok (by decide +kernel)).1, nowOk.1⟩, by decide +kernel⟩

/-- The client returns the response with the value that begins with blanks without them, and reports an error instead of that with the 127 values. -/
example : (do let r ← relayed { demoFixed with headers := blankValue } ⟨[], [], 0⟩ []; Run.ret (r.map fun x => x.2.1.getAll (ascii "x-a"))) = Run.ret (some [ascii "1 ", ascii "2"]) ∧
    (do let (w, _) ← sendResponse exactHexLen (ascii "NOW") 100 manyResponse ⟨[], [], 0⟩
        let d ← ClientDecode.decode (ascii "NOW") zeroPool 1000 (replyOf [w.got])
        Run.ret (match d with | .done (.err _) => true | _ => false)) = Run.ret true := by decide +kernel

end Tophat
