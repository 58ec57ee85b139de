import Verif.Proofs.RoundTrip
import Verif.Props.Copy
import Verif.Props.ServerDecode
import Verif.Proofs.OneAnswer
import Verif.Props.ClientEncode
import Verif.Props.ClientDecode
/-!
# Properties C52 and C55: what one tophat sends, the other receives
-/

set_option linter.unusedSectionVars false
set_option synthInstance.maxSize 1000

namespace Tophat
open Spec

/-! ## Reading a body returns -/

theorem polls_lift {α β : Type} [AsyncRead α] [AsyncRead β] (f : α → β) (hf : ∀ a k, pollRead (f a) k = (pollRead a k).bind fun (a', p) => .ret (f a', p))
    (ks : List Nat) : ∀ {a a' : α} {ps : List RPoll}, polls a ks = .ret (a', ps) → polls (f a) ks = .ret (f a', ps) := by
  induction ks with
  | nil => intro a a' ps h; simp only [polls, Run.ret.injEq, Prod.mk.injEq] at h ⊢; exact ⟨by rw [h.1], h.2⟩
  | cons k ks ih =>
    intro a a' ps h
    simp only [polls, hf] at h ⊢
    cases hr : pollRead a k with
    | panic => rw [hr] at h; simp at h
    | diverge => rw [hr] at h; simp at h
    | ret x =>
      obtain ⟨a1, p⟩ := x
      rw [hr] at h
      simp only [Run.bind, Run.ret_bind] at h ⊢
      cases p with
      | err e =>
        simp only [Run.ret.injEq, Prod.mk.injEq] at h ⊢
        exact ⟨by rw [h.1], h.2⟩
      | pending =>
        simp only at h ⊢
        cases hp : polls a1 ks with
        | panic => rw [hp] at h; cases h
        | diverge => rw [hp] at h; cases h
        | ret y =>
          obtain ⟨a2, ps2⟩ := y
          rw [hp] at h
          rw [ih hp]
          simp only [Run.bind, Run.ret_bind, Run.ret.injEq, Prod.mk.injEq] at h ⊢
          exact ⟨by rw [h.1], h.2⟩
      | data bs =>
        simp only at h ⊢
        cases hp : polls a1 ks with
        | panic => rw [hp] at h; cases h
        | diverge => rw [hp] at h; cases h
        | ret y =>
          obtain ⟨a2, ps2⟩ := y
          rw [hp] at h
          rw [ih hp]
          simp only [Run.bind, Run.ret_bind, Run.ret.injEq, Prod.mk.injEq] at h ⊢
          exact ⟨by rw [h.1], h.2⟩

section
variable {ρ : Type} [AsyncRead ρ] [LawfulRead ρ]

theorem BodyAt.returns {pool : Pool} (hp : pool.Ok) {s : Bytes} {e : Option IoErr} {m : Nat} {len : Option Nat} {body : ReqBody ρ} (h : BodyAt pool s e m len body)
    (ks : List Nat) : ∃ b ps, polls body ks = .ret (b, ps) := by
  cases h with
  | fixed =>
    rename_i r n _ _ _
    obtain ⟨t, ps, h1, _⟩ := polls_lawful (⟨r, n⟩ : Take (BufRd ρ)) ks
    exact ⟨_, ps, polls_lift ReqBody.fixed (fun a k => rfl) ks h1⟩
  | chunked =>
    rename_i r _ _ _
    obtain ⟨b, ps, h1, _⟩ := bufDec_polls ks (BufRd.new (ChunkedDecoder.new r pool)) (Dec.decInv_new r pool hp)
    exact ⟨_, ps, polls_lift ReqBody.chunked (fun a k => rfl) ks h1⟩

/-- Reading the body of a returned response returns. -/
theorem reply_reads {now : Bytes} {pool : Pool} (hp : pool.Ok) {io : ρ} {fuel : Nat} {res : ClientResponse ρ} (hd : ClientDecode.decode now pool fuel io = .ret (.done (.ok res)))
    (ks : List Nat) : ∃ b ps, polls res.body ks = .ret (b, ps) := by
  obtain ⟨d, h1, h2⟩ := clientDecode_spec now pool fuel io
  rw [hd] at h1
  injection h1 with h1
  subst h1
  cases h2 with
  | response a b c d f =>
    cases f with
    | fixed _ f =>
      obtain ⟨b, ps, h⟩ := f.returns hp ks
      exact ⟨_, ps, polls_lift ReplyBody.stream (fun a k => rfl) ks h⟩
    | bare =>
      obtain ⟨ps, h, _⟩ := polls_empty (ρ := ρ) ks
      exact ⟨_, ps, h⟩
    | chunked f =>
      obtain ⟨b, ps, h⟩ := f.returns hp ks
      exact ⟨_, ps, polls_lift ReplyBody.stream (fun a k => rfl) ks h⟩

end

/-! ## C55 -/

section
variable {σ : Type} [AsyncBufRead σ] [LawfulBufRead σ] {ρ : Type} [AsyncRead ρ] [LawfulRead ρ]

/-- A response that arrives as it is sent: version 1.1, a status and headers that the `http` crate can represent, no header value that begins with a blank, and a head
(with what tophat adds) of at most 128 fields and less than 8 KiB. -/
structure Transmittable (resp : InnerResponse σ) (now : Bytes) : Prop where
  version : resp.version = .http11
  status : 100 ≤ resp.status ∧ resp.status < 1000
  wf : resp.headers.WF
  valid : resp.headers.Valid
  blanks : ∀ f ∈ resp.headers.iter, ∀ b, f.2.head? = some b → b ≠ 32 ∧ b ≠ 9
  clock : (∀ b ∈ now, valueByte b) ∧ ∀ b, now.head? = some b → b ≠ 32 ∧ b ≠ 9
  fields : (sentFields resp.headers resp.length now).length ≤ 128
  small : (headOf resp now).length < 8192

theorem Transmittable.first {resp : InnerResponse σ} {now : Bytes} (t : Transmittable resp now) (rest : Bytes) : FirstReply (headOf resp now ++ rest) (headOf resp now) := by
  have h := sentFields_plain (len := resp.length) t.valid t.blanks t.clock
  unfold headOf responseHead
  rw [t.version]
  exact firstReply_render h rest

theorem Transmittable.reply {resp : InnerResponse σ} {now : Bytes} (t : Transmittable resp now) :
    HasReply (headOf resp now) 1 resp.status (sentFields resp.headers resp.length now) := by
  have h := sentFields_plain (len := resp.length) t.valid t.blanks t.clock
  unfold headOf responseHead
  rw [t.version]
  exact hasReply_render t.status.1 t.status.2 h t.fields

/-- A response whose bytes are on the connection is returned. -/
theorem Transmittable.arrives {resp : InnerResponse σ} {now : Bytes} (t : Transmittable resp now) {n : Nat} (hl : resp.length = some n) (hn : n < 2 ^ 64) (hlen : n ≤ (rem resp.body).length)
    {io : ρ} {more : Bytes} (hrem : rem io = headOf resp now ++ ((rem resp.body).take n ++ more)) (now' : Bytes) {pool : Pool} (hp : pool.Ok) {fuel : Nat} (hf : 2 * (rem io).length + meas io < fuel) :
    ∃ res, ClientDecode.decode now' pool fuel io = .ret (.done (.ok res)) ∧ res.status = resp.status ∧
      MapOf res.headers (sentFields resp.headers (some n) now) ∧
      (∀ k, k ∉ [ascii "content-length", ascii "transfer-encoding", ascii "date", ascii "content-type"] → res.headers.getAll k = resp.headers.getAll k) ∧
      res.length = some n ∧
      ∀ ks, ∃ b ps, polls res.body ks = .ret (b, ps) ∧ received ps <+: (rem resp.body).take n ∧ (∀ x, .err x ∉ ps) ∧
        ((∀ k ∈ ks, 0 < k) → SawEof ps → received ps = (rem resp.body).take n) ∧
        ((∀ k ∈ ks, 0 < k) → n + meas io < ks.length → SawEof ps) := by
  have hfirst : FirstReply (rem io) (headOf resp now) := by rw [hrem]; exact t.first _
  have hrep := t.reply
  rw [hl] at hrep
  have hcl : valuesOf (ascii "content-length") (sentFields resp.headers (some n) now) = [decimal n] := by
    rw [valuesOf_sent t.valid, if_pos (by rfl), if_neg (by intro h; exact absurd h.2 (by decide)), if_neg (by intro h; exact h.1 rfl),
      if_neg (by intro h; exact absurd h.2 (by decide))]
    rfl
  have hte : valuesOf (ascii "transfer-encoding") (sentFields resp.headers (some n) now) = [] := by
    rw [valuesOf_sent t.valid, if_neg (by show ¬ ascii "content-length" = _; decide), if_neg (by intro h; exact absurd h.2 (by decide)), if_neg (by intro h; exact h.2 rfl),
      if_neg (by intro h; exact absurd h.2 (by decide))]
    rfl
  have hnl : IsLength (decimal n) n := isLength_decimal (hn)
  obtain ⟨d, hd, hk⟩ := C54_iff now' pool hf
  have hgood : ¬ Rejected (rem io) := by
    rintro (hr | ⟨h, h4, h5 | h5⟩)
    · exact hfirst.not_noReply hr
    · have := h4.unique hfirst; subst this; have := t.small; omega
    · have := h4.unique hfirst; subst this
      have := h5.unique (.fixed hrep (fun h => h.2 hte) (by rw [hcl]; rfl) hnl t.status.1)
      cases this
  cases d with
  | err e => exact absurd (hk.1 ⟨e, rfl⟩) hgood
  | ok res =>
    obtain ⟨h, code, fs, c1, c2, c3⟩ := C53_returned_partial hd
    have := c1.unique hfirst; subst this
    obtain ⟨-, rfl, rfl⟩ := c2.unique hrep
    obtain ⟨c4, c5⟩ := c3 (by unfold SaysChunked; rw [hte]; simp)
    have hdate : valuesOf (ascii "date") (sentFields resp.headers (some n) now) ≠ [] := by
      rw [valuesOf_sent t.valid]
      intro h
      simp only [List.append_eq_nil_iff] at h
      obtain ⟨⟨⟨-, h2⟩, h3⟩, -⟩ := h
      rw [if_pos (by decide)] at h3
      rw [h3] at h2
      simp at h2
    have hwd : withDate (sentFields resp.headers (some n) now) now' = sentFields resp.headers (some n) now := by
      unfold withDate; rw [if_neg hdate, List.append_nil]
    rw [hwd] at c5
    have hbody := fun (ks : List Nat) (b : ReplyBody ρ) (ps : List RPoll) (hps : polls res.body ks = .ret (b, ps)) =>
      C63_fixed_partial hd hfirst hrem hrep (by rw [hcl]; rfl) hnl hps
    have htake : ((rem resp.body).take n ++ more).take n = (rem resp.body).take n := by
      rw [List.take_append_of_le_length (by rw [List.length_take]; omega), List.take_take]; simp
    have hle : n ≤ ((rem resp.body).take n ++ more).length := by rw [List.length_append, List.length_take]; omega
    refine ⟨res, hd, c4, c5, ?_, ?_, ?_⟩
    · intro k hk
      simp only [List.mem_cons, List.not_mem_nil, or_false, not_or] at hk
      obtain ⟨k1, k2, k3, k4⟩ := hk
      have : res.headers.getAll k = valuesOf k (sentFields resp.headers (some n) now) := c5.2 k
      rw [this, valuesOf_sent t.valid, if_neg (fun h => k1 h.symm), if_neg (fun h => k3 h.2.symm), if_pos ⟨k1, k2⟩, if_neg (fun h => k4 h.2.symm)]
      simp
    · obtain ⟨b, ps, hps⟩ := reply_reads hp hd []
      exact (hbody _ _ _ hps).1
    · intro ks
      obtain ⟨b, ps, hps⟩ := reply_reads hp hd ks
      obtain ⟨-, g1, g2, g3, g4⟩ := hbody _ _ _ hps
      rw [htake] at g1 g3
      have hne : ∀ x, .err x ∉ ps := fun x hx => by have := (g2 x hx).2.1; omega
      refine ⟨b, ps, hps, g1, hne, fun hk hs => (g3 hk hs).1, fun hk hl => ?_⟩
      rcases g4 hk hl with h | ⟨x, h⟩
      · exact h
      · exact absurd h (hne x)

/-- **C55.**  A response with a body of declared length, sent by a tophat server on any transport, and received by a tophat client in any fragmentation, with any delays, and
whatever follows on the connection, is returned: with the same status, the same headers (the application's, apart from framing, and the date and content type that the server adds), and
reading the body yields a prefix of the bytes the server sent, without an error; all of them once the end is seen, which is at the latest at the read number
`n + meas io + 1`. -/
theorem C55_round_trip {hexLen : Nat → Nat} (hx : HexLenOk hexLen) {resp : InnerResponse σ} {now : Bytes} (t : Transmittable resp now)
    {n : Nat} (hl : resp.length = some n) (hn : 8192 + n < usizeLimit) {sfuel : Nat} {w w' : Writer} {amt : Nat} (hw : w.got = [])
    (hsend : sendResponse hexLen now sfuel resp w = .ret (w', .ok amt))
    {io : ρ} {more : Bytes} (hio : rem io = w'.got ++ more) (now' : Bytes) {pool : Pool} (hp : pool.Ok) {fuel : Nat} (hf : 2 * (rem io).length + meas io < fuel) :
    ∃ res, ClientDecode.decode now' pool fuel io = .ret (.done (.ok res)) ∧ res.status = resp.status ∧
      MapOf res.headers (sentFields resp.headers (some n) now) ∧
      (∀ k, k ∉ [ascii "content-length", ascii "transfer-encoding", ascii "date", ascii "content-type"] → res.headers.getAll k = resp.headers.getAll k) ∧
      res.length = some n ∧
      ∀ ks, ∃ b ps, polls res.body ks = .ret (b, ps) ∧ received ps <+: (rem resp.body).take n ∧ (∀ x, .err x ∉ ps) ∧
        ((∀ k ∈ ks, 0 < k) → SawEof ps → received ps = (rem resp.body).take n) ∧
        ((∀ k ∈ ks, 0 < k) → n + meas io < ks.length → SawEof ps) := by
  obtain ⟨msg, h1, -, h2, -, h3, -⟩ := C10_bytes_written hx t.wf (fun m hm => by rw [hl] at hm; injection hm with hm; omega) hsend
  rw [hl] at h2
  have hmsg : msg = headOf resp now ++ (rem resp.body).take n := h2
  have hlen := h3 n hl
  have hrem : rem io = headOf resp now ++ ((rem resp.body).take n ++ more) := by rw [hio, h1, hw, hmsg]; simp
  exact t.arrives hl (by have : usizeLimit = 2 ^ 64 := rfl; omega) hlen hrem now' hp hf

/-- The head of a response whose length is not declared is accepted by the client. -/
theorem Transmittable.accepted {resp : InnerResponse σ} {now : Bytes} (t : Transmittable resp now) (hl : resp.length = none) {io : ρ} {rest : Bytes} (hrem : rem io = headOf resp now ++ rest)
    (now' : Bytes) {pool : Pool} {fuel : Nat} (hf : 2 * (rem io).length + meas io < fuel) :
    FirstReply (rem io) (headOf resp now) ∧ HasReply (headOf resp now) 1 resp.status (sentFields resp.headers none now) ∧ SaysChunked (sentFields resp.headers none now) ∧
      ∃ res, ClientDecode.decode now' pool fuel io = .ret (.done (.ok res)) := by
  have hfirst : FirstReply (rem io) (headOf resp now) := by rw [hrem]; exact t.first _
  have hrep := t.reply
  rw [hl] at hrep
  have hcl : valuesOf (ascii "content-length") (sentFields resp.headers none now) = [] := by
    rw [valuesOf_sent t.valid, if_neg (by show ¬ ascii "transfer-encoding" = _; decide), if_neg (by intro h; exact absurd h.2 (by decide)), if_neg (by intro h; exact h.1 rfl),
      if_neg (by intro h; exact absurd h.2 (by decide))]
    rfl
  have hte : SaysChunked (sentFields resp.headers none now) := by
    unfold SaysChunked
    rw [valuesOf_sent t.valid, if_pos (by rfl)]
    rfl
  obtain ⟨d, hd, hk⟩ := C54_iff now' pool hf
  have hgood : ¬ Rejected (rem io) := by
    rintro (hr | ⟨h, h4, h5 | h5⟩)
    · exact hfirst.not_noReply hr
    · have := h4.unique hfirst; subst this; have := t.small; omega
    · have := h4.unique hfirst; subst this
      have := h5.unique (.chunked hrep (fun h => h.1 hcl) hte)
      cases this
  cases d with
  | err e => exact absurd (hk.1 ⟨e, rfl⟩) hgood
  | ok res => exact ⟨hfirst, hrep, hte, res, hd⟩

/-- Responses whose length is not declared, for comparison: the client returns status 200 and no headers, whatever the server sent.  What is read of the body is a prefix of what the server sent;
all of it arrives if its framing takes at most 4096 bytes (`Roomy`), in particular if the encoding has at most 4096 bytes. -/
theorem C55_refuted_chunked {hexLen : Nat → Nat} (hx : HexLenOk hexLen) {resp : InnerResponse σ} {now : Bytes} (t : Transmittable resp now)
    (hl : resp.length = none) (hb : (rem resp.body).length < 2 ^ 64) {sfuel : Nat} {w w' : Writer} {amt : Nat} (hw : w.got = [])
    (hsend : sendResponse hexLen now sfuel resp w = .ret (w', .ok amt))
    {io : ρ} {more : Bytes} (hio : rem io = w'.got ++ more) (now' : Bytes) {pool : Pool} (hp : pool.Ok) {fuel : Nat} (hf : 2 * (rem io).length + meas io < fuel) :
    ∃ res, ClientDecode.decode now' pool fuel io = .ret (.done (.ok res)) ∧ res.status = 200 ∧ res.headers = [] ∧
      ∀ ks, (∀ k ∈ ks, 0 < k) → ∃ b ps, polls res.body ks = .ret (b, ps) ∧ received ps <+: rem resp.body ∧
        (amt ≤ (headOf resp now).length + 4096 ∨ (∃ wire, w'.got = headOf resp now ++ wire ∧ Roomy wire (rem resp.body) []) →
          (SawEof ps ∨ (∃ e, .err e ∈ ps) → received ps = rem resp.body) ∧ ((rem resp.body).length + meas io < ks.length → SawEof ps ∨ ∃ e, .err e ∈ ps)) := by
  obtain ⟨msg, h1, hamt, h2, -, -, -⟩ := C10_bytes_written hx t.wf (fun m hm => by rw [hl] at hm; cases hm) hsend
  rw [hl] at h2
  obtain ⟨wire, hmsg, hcm⟩ := h2
  have hrem : rem io = headOf resp now ++ (wire ++ more) := by rw [hio, h1, hw, hmsg]; simp
  obtain ⟨hfirst, hrep, hte, res, hd⟩ := t.accepted hl hrem now' (pool := pool) hf
  obtain ⟨c1, c2⟩ := C53_refuted_chunked hd hfirst hrep hte
  refine ⟨res, hd, c1, c2, fun ks hks => ?_⟩
  obtain ⟨b, ps, hps⟩ := reply_reads hp hd ks
  refine ⟨b, ps, hps, ?_, fun hroom => ?_⟩
  · obtain ⟨x, y1, y2⟩ := C63_chunked_prefix hp hd hfirst hrem hrep hte hps
    exact y2.trans ((hcm.body hb).total _ y1)
  · have hroomy : Roomy wire (rem resp.body) [] := by
      rcases hroom with hlen | ⟨wire', e, hroom⟩
      · exact roomy_of_length (hcm.body hb) (by rw [hamt, hmsg, List.length_append] at hlen; omega)
      · rw [h1, hw, hmsg] at e
        have : wire' = wire := by simpa using e.symm
        rw [← this]; exact hroom
    exact (C63_chunked_partial hp hd hfirst hrep hte hroomy (by simp) hrem hks hps).2

end

/-! ## C52 -/

section
variable {σ : Type} [AsyncBufRead σ] [LawfulBufRead σ] {ρ : Type} [AsyncRead ρ] [LawfulRead ρ] {τ : Type} [AsyncBufRead τ]

/-- A request that a tophat client sends as the application gives it: a method that is a token, a request target of permitted bytes that the `http` crate accepts, headers that it can represent, no framing headers of
its own, and a body that has the declared length.  `t` is the target and `fs` are the fields that are sent. -/
structure Postable (uriOk : Bytes → Bool) (req : ClientRequest σ) (t : Bytes) (fs : List (Bytes × Bytes)) : Prop where
  method : req.method ≠ [] ∧ ∀ b ∈ req.method, tokenByte b
  target : targetOf req.method req.uri = some t
  targetOk : (∀ b ∈ t, targetByte b) ∧ uriOk t = true
  headers : req.headers.Valid
  host : ∀ a, authority req.uri = some a → PlainField (ascii "host", a)
  length : req.headers.getAll (ascii "content-length") = []
  coding : req.headers.getAll (ascii "transfer-encoding") = []
  body : req.length = some (rem req.body).length ∧ (rem req.body).length < 2 ^ 64
  fields : fieldsOf req (rem req.body).length = some fs

/-- A request that arrives as it is sent: a method that is a token, a request target of permitted bytes that the `http` crate accepts, headers that it can represent, no header value that
begins with a blank, no framing headers of its own, a body that has the declared length, and at most 16 header fields with those that tophat adds. -/
structure Requestable (uriOk : Bytes → Bool) (req : ClientRequest σ) (t : Bytes) (fs : List (Bytes × Bytes)) : Prop where
  method : req.method ≠ [] ∧ ∀ b ∈ req.method, tokenByte b
  target : targetOf req.method req.uri = some t
  targetOk : (∀ b ∈ t, targetByte b) ∧ uriOk t = true
  headers : req.headers.Valid
  blanks : ∀ f ∈ req.headers.iter, ∀ b, f.2.head? = some b → b ≠ 32 ∧ b ≠ 9
  host : ∀ a, authority req.uri = some a → PlainField (ascii "host", a)
  length : req.headers.getAll (ascii "content-length") = []
  coding : req.headers.getAll (ascii "transfer-encoding") = []
  body : req.length = some (rem req.body).length ∧ (rem req.body).length < 2 ^ 64
  fields : fieldsOf req (rem req.body).length = some fs
  few : fs.length ≤ 16

theorem Requestable.postable {uriOk : Bytes → Bool} {req : ClientRequest σ} {t : Bytes} {fs : List (Bytes × Bytes)} (h : Requestable uriOk req t fs) : Postable uriOk req t fs :=
  ⟨h.method, h.target, h.targetOk, h.headers, h.host, h.length, h.coding, h.body, h.fields⟩

theorem Requestable.plain {uriOk : Bytes → Bool} {req : ClientRequest σ} {t : Bytes} {fs : List (Bytes × Bytes)} (h : Requestable uriOk req t fs) : ∀ f ∈ fs, PlainField f := by
  have hf := h.fields
  have tok : ∀ n v : Bytes, (n ≠ [] ∧ (n.all fun b => isTokenByte b) = true) → (v.all fun b => headerValueByte b && b != 32 && b != 9) = true → PlainField (n, v) := by
    intro n v h1 h2
    have h' := List.all_eq_true.1 h2
    simp only [Bool.and_eq_true, bne_iff_ne] at h'
    refine ⟨h1.1, fun b hb => (Httparse.isTokenByte_iff b).1 (List.all_eq_true.1 h1.2 b hb), fun b hb => valueByte_of (h' b hb).1.1, fun b hb => ?_⟩
    have := h' b (List.mem_of_mem_head? hb)
    exact ⟨this.1.2, this.2⟩
  unfold fieldsOf at hf
  simp only [Option.map_eq_some_iff] at hf
  obtain ⟨hs, h1, rfl⟩ := hf
  intro f hf
  simp only [List.mem_append] at hf
  rcases hf with ((hf | hf) | hf) | hf
  · split at h1
    · simp only [Option.map_eq_some_iff] at h1
      obtain ⟨a, h2, rfl⟩ := h1
      simp only [List.mem_singleton] at hf
      subst hf
      exact h.host a h2
    · injection h1 with h1; subst h1; cases hf
  · split at hf
    · simp only [List.mem_singleton] at hf
      subst hf
      exact tok _ _ (by decide) (by decide)
    · cases hf
  · simp only [List.mem_singleton] at hf
    subst hf
    refine tok _ _ (by decide) (List.all_eq_true.2 fun b hb => ?_)
    obtain ⟨d1, d2⟩ := decimal_digit _ b hb
    have h32 : b ≠ 32 := by rintro rfl; revert d1; decide
    have h9 : b ≠ 9 := by rintro rfl; revert d1; decide
    have h127 : b.toNat ≠ 127 := by omega
    have : 32 ≤ b.toNat := by omega
    simp [headerValueByte, h32, h9, h127, this]
  · obtain ⟨h1, h2, h3⟩ := headerName_token (h.headers.names f hf)
    obtain ⟨h4, h5⟩ := headerValue_byte (h.headers.values f hf)
    exact ⟨h1, fun b hb => (Httparse.isTokenByte_iff b).1 (h2 b hb), fun b hb => valueByte_of (h4 b hb), h.blanks f hf⟩

/-- The values of a name among the fields of a request. -/
theorem Postable.values {uriOk : Bytes → Bool} {req : ClientRequest σ} {t : Bytes} {fs : List (Bytes × Bytes)} (h : Postable uriOk req t fs) (k : Bytes) :
    (k ≠ ascii "host" → k ≠ ascii "proxy-connection" → k ≠ ascii "content-length" → valuesOf k fs = req.headers.getAll k) ∧
    valuesOf (ascii "content-length") fs = [decimal (rem req.body).length] ∧ valuesOf (ascii "transfer-encoding") fs = [] ∧ valuesOf (ascii "host") fs ≠ [] := by
  have hf := h.fields
  unfold fieldsOf at hf
  simp only [Option.map_eq_some_iff] at hf
  obtain ⟨hs, h1, rfl⟩ := hf
  have hp : ∀ k, k ≠ ascii "proxy-connection" → valuesOf k (if req.method = ascii "CONNECT" then [(ascii "proxy-connection", ascii "keep-alive")] else []) = [] := by
    intro k hk
    have : lower (ascii "proxy-connection") = ascii "proxy-connection" := by decide
    split
    · rw [valuesOf_one, this, if_neg (fun h => hk h.symm)]
    · rfl
  have hh : ∀ k, k ≠ ascii "host" → valuesOf k hs = [] := by
    intro k hk
    have : lower (ascii "host") = ascii "host" := by decide
    split at h1
    · simp only [Option.map_eq_some_iff] at h1
      obtain ⟨a, h2, rfl⟩ := h1
      rw [valuesOf_one, this, if_neg (fun h => hk h.symm)]
    · injection h1 with h1; subst h1; rfl
  have hc : lower (ascii "content-length") = ascii "content-length" := by decide
  refine ⟨fun k1 k2 k3 => ?_, ?_, ?_, ?_⟩
  · simp only [valuesOf_append, hp k k2, hh k k1, valuesOf_one, hc, if_neg (fun h => k3 h.symm : ¬ ascii "content-length" = k), valuesOf_iter h.headers, List.nil_append]
  · simp only [valuesOf_append, hp _ (by decide : ascii "content-length" ≠ ascii "proxy-connection"), hh _ (by decide : ascii "content-length" ≠ ascii "host"), valuesOf_one, hc, if_true, valuesOf_iter h.headers, h.length,
      List.nil_append, List.append_nil]
  · simp only [valuesOf_append, hp _ (by decide : ascii "transfer-encoding" ≠ ascii "proxy-connection"), hh _ (by decide : ascii "transfer-encoding" ≠ ascii "host"), valuesOf_one, hc,
      if_neg (by decide : ¬ ascii "content-length" = ascii "transfer-encoding"), valuesOf_iter h.headers, h.coding, List.append_nil]
  · intro he
    simp only [valuesOf_append, List.append_eq_nil_iff, valuesOf_iter h.headers] at he
    rw [if_pos he.2] at h1
    simp only [Option.map_eq_some_iff] at h1
    obtain ⟨a, h2, rfl⟩ := h1
    have := he.1.1.1
    rw [valuesOf_one, if_pos (by decide)] at this
    cases this

theorem Requestable.values {uriOk : Bytes → Bool} {req : ClientRequest σ} {t : Bytes} {fs : List (Bytes × Bytes)} (h : Requestable uriOk req t fs) (k : Bytes) :
    (k ≠ ascii "host" → k ≠ ascii "proxy-connection" → k ≠ ascii "content-length" → valuesOf k fs = req.headers.getAll k) ∧
    valuesOf (ascii "content-length") fs = [decimal (rem req.body).length] ∧ valuesOf (ascii "transfer-encoding") fs = [] ∧ valuesOf (ascii "host") fs ≠ [] :=
  h.postable.values k

theorem Requestable.good {uriOk : Bytes → Bool} {req : ClientRequest σ} {t : Bytes} {fs : List (Bytes × Bytes)} (h : Requestable uriOk req t fs) : ∀ f ∈ fs, GoodField f := by
  obtain ⟨-, h1, h2, -⟩ := h.values []
  intro f hf
  refine ⟨fun hb => ?_, fun hb => ?_⟩
  · have : f.2 ∈ valuesOf (ascii "content-length") fs := List.mem_map.2 ⟨f, List.mem_filter.2 ⟨hf, by simp [hb.1]⟩, rfl⟩
    rw [h1, List.mem_singleton] at this
    exact hb.2 _ (this ▸ isLength_decimal h.body.2)
  · have : f.2 ∈ valuesOf (ascii "transfer-encoding") fs := List.mem_map.2 ⟨f, List.mem_filter.2 ⟨hf, by simp [hb.1]⟩, rfl⟩
    rw [h2] at this
    cases this

theorem Postable.head {uriOk : Bytes → Bool} {req : ClientRequest σ} {t : Bytes} {fs : List (Bytes × Bytes)} (h : Postable uriOk req t fs) :
    headOfRequest req = some (renderRequest req.method t fs) := by
  unfold headOfRequest
  rw [h.target, h.body.1]
  simp only [h.fields, Option.map_some]

theorem Requestable.head {uriOk : Bytes → Bool} {req : ClientRequest σ} {t : Bytes} {fs : List (Bytes × Bytes)} (h : Requestable uriOk req t fs) :
    headOfRequest req = some (renderRequest req.method t fs) := h.postable.head

/-- **C52.**  A request with a body of known length, written by a tophat client on any transport, and received by a tophat server in any fragmentation, with any delays, and whatever follows
on the connection: the endpoint is called once, with the same method, target and headers (and host, content-length and, for CONNECT, proxy-connection as the client adds them).  What it reads of the body is a prefix of the body sent,
without an error; all of it once it has seen the end, which it does at the latest at the read number `n + meas c.rd + c.wr.script.length + 1`. -/
theorem C52_round_trip {env : Env} (hx : HexLenOk env.hexLen) {opts : ServerOpts} {endpoint : Endpoint τ} {req : ClientRequest σ} {t : Bytes} {fs : List (Bytes × Bytes)}
    (hr : Requestable env.uriOk req t fs) {cfuel : Nat} {w w' : Writer} (hw : w.got = []) (hsend : clientSend cfuel req w = .ret (w', .sent))
    {fuel k : Nat} {c c' : Conn ρ} {more : Bytes} (hc : rem c.rd = w'.got ++ more) (hrel : c.wr.Reliable) (ht : NoTimeout opts c) {ev : List Event} {res : Option AcceptRes}
    (hs : acceptStep env opts endpoint fuel k c = .ret (c', ev, res)) :
    res = none ∧
    (∃ hmap, MapOf hmap fs ∧ calls ev = [(⟨req.method, t, hmap⟩, some (rem req.body).length)] ∧
      (∀ k, k ∉ [ascii "host", ascii "proxy-connection", ascii "content-length"] → hmap.getAll k = req.headers.getAll k)) ∧
    received ((untilErr (bodyReads ev)).map (·.2)) <+: rem req.body ∧ (∀ e j, (j, .err e) ∉ untilErr (bodyReads ev)) ∧
    ((∀ x ∈ bodyReads ev, 0 < x.1) →
      (SawEof ((untilErr (bodyReads ev)).map (·.2)) → received ((untilErr (bodyReads ev)).map (·.2)) = rem req.body) ∧
      ((rem req.body).length + meas c.rd + c.wr.script.length < (bodyReads ev).length → SawEof ((untilErr (bodyReads ev)).map (·.2)))) := by
  obtain ⟨sent, h1, -, -, h2⟩ := C50_written hsend
  obtain ⟨H, used, h3, h4, -⟩ := h2 rfl
  rw [hr.head] at h3
  injection h3 with h3
  subst h3
  have hrem : rem c.rd = renderRequest req.method t fs ++ (rem req.body ++ more) := by rw [hc, h1, hw, h4]; simp
  have hfirst : FirstHead (rem c.rd) (renderRequest req.method t fs) := by rw [hrem]; exact firstHead_render hr.method.2 hr.targetOk.1 hr.plain _
  have hhas := hasHead_render hr.method.2 hr.targetOk.1 hr.plain hr.few
  obtain ⟨-, v1, v2, v3⟩ := hr.values []
  have hlen : BodyLength fs (some (rem req.body).length) :=
    ((C25_lengths fs).2.1 [] _ _ v2 (by rw [v1]; rfl) (isLength_decimal hr.body.2) _).2 rfl
  obtain ⟨g1, hmap, g2, g3⟩ := C25_served hx hfirst hhas hr.method.1 hr.good v3 hr.targetOk.2 hlen hrel ht hs
  have hcall : .call ⟨req.method, t, hmap⟩ (some (rem req.body).length) ∈ ev := mem_calls.1 (by rw [g3]; simp)
  have hdrop : (rem c.rd).drop (renderRequest req.method t fs).length = rem req.body ++ more := by rw [hrem, List.drop_left]
  have htake : (rem req.body ++ more).take (rem req.body).length = rem req.body := List.take_left
  have p1 := C26_prefix hx hs hcall hfirst
  rw [hdrop, htake] at p1
  refine ⟨g1, ⟨hmap, g2, g3, fun k hk => ?_⟩, p1, ?_, fun hk => ?_⟩
  · simp only [List.mem_cons, List.not_mem_nil, or_false, not_or] at hk
    have : hmap.getAll k = valuesOf k fs := g2.2 k
    rw [this, (hr.values k).1 hk.1 hk.2.1 hk.2.2]
  · intro e j he
    have := (C26_error hx hs hcall hfirst he).1
    rw [hdrop, List.length_append] at this
    omega
  · obtain ⟨q1, q2, q3⟩ := C26_complete hx hs hcall hfirst hk
    rw [hdrop] at q1 q2
    rw [htake] at q1
    refine ⟨fun h => (q1 h).1, fun h => ?_⟩
    rcases q3 h with h | ⟨e, j, h⟩
    · exact h
    · have := (q2 e j h).1
      rw [List.length_append] at this
      omega

end

/-! ## C65 -/

theorem mem_bodyReads {ev : List Event} {k : Nat} {p : RPoll} : (k, p) ∈ bodyReads ev ↔ .got k p ∈ ev := by
  induction ev with
  | nil => simp [bodyReads]
  | cons e ev ih => cases e <;> simp [bodyReads, ih]

section
variable {ρ : Type} [AsyncRead ρ] [LawfulRead ρ] {σ : Type} [AsyncBufRead σ] [LawfulBufRead σ]

theorem Prog.Answers.to {P : InnerResponse σ → Prop} (a : Prog σ) : a.Answers P → ∀ m left, a.AnswersTo P m left := by
  induction a with
  | read k next ih => exact fun h m left => ⟨fun _ => ih _ (h _ (by intro e he; cases he)) _ _, fun bs rest _ _ _ => ih _ (h _ (by intro e he; cases he)) _ _⟩
  | send => exact fun h _ _ => h
  | sendFor => exact fun h _ _ => h
  | glitch => exact fun h _ _ => h

theorem Prog.AnswersTo.mono {P : InnerResponse σ → Prop} (a : Prog σ) : ∀ {m m' : Nat} {left : Bytes}, m' ≤ m → a.AnswersTo P m left → a.AnswersTo P m' left := by
  induction a with
  | read k next ih => exact fun hm h => ⟨fun h0 => ih _ (by omega) (h.1 (by omega)), fun bs rest h1 h2 h3 => ih _ hm (h.2 bs rest h1 h2 h3)⟩
  | send => exact fun _ h => h
  | sendFor => exact fun _ h => h
  | glitch => exact fun _ h => h

theorem runProg_answers {env : Env} (hx : HexLenOk env.hexLen) {fuel n : Nat} {P : InnerResponse σ → Prop}
    (hP : ∀ resp, P resp → resp.headers.WF ∧ fin resp.body = none ∧ ∀ n, resp.length = some n → 8192 + n < usizeLimit) (a : Prog σ) :
    ∀ (t : Take (BufRd ρ)) (body' : ReqBody ρ) (w w' : Writer) (ev : List Event) (g : Option Glitch) (m : Nat), fin t = none → meas t ≤ m → a.AnswersTo P m (rem t) → w.Reliable →
    runProg env fuel n a (.fixed t) w = .ret (body', w', ev, g) →
    g = none ∧ ∃ resp amt, P resp ∧ sendResponse env.hexLen (env.now n) fuel resp w = .ret (w', .ok amt) := by
  induction a with
  | read k next ih =>
    intro t body' w w' ev g m hf hm ho hr h
    simp only [runProg] at h
    obtain ⟨t1, p, h1, hk⟩ := LawfulRead.read_ok t k
    have h1' : pollRead (ReqBody.fixed t) k = .ret (.fixed t1, p) := by
      show (pollRead t k >>= _) = _
      rw [h1]; rfl
    rw [h1'] at h
    simp only [Run.ret_bind] at h
    obtain ⟨⟨b2, w2, ev2, g2⟩, h3, h4⟩ := Run.bind_eq_ret.1 h
    simp only [Run.ret.injEq, Prod.mk.injEq] at h4
    obtain ⟨rfl, rfl, rfl, rfl⟩ := h4
    cases hk with
    | pending a b c => exact ih _ _ _ _ _ _ _ (m - 1) (b.trans hf) (by omega) (a ▸ ho.1 (by omega)) hr h3
    | err a b => rw [hf] at b; cases b
    | data a b c d e =>
      refine ih _ _ _ _ _ _ _ m (c.trans hf) (by omega) (ho.2 _ _ b a fun h0 => ?_) hr h3
      by_cases hk0 : 0 < k
      · right
        have := (e hk0 h0).1
        rw [b] at this
        exact (List.append_eq_nil_iff.1 this).2
      · left; omega
  | send resp onOk onErr =>
    intro t body' w w' ev g m hf hm ho hr h
    simp only [runProg] at h
    obtain ⟨⟨w1, r⟩, h1, h2⟩ := Run.bind_eq_ret.1 h
    obtain ⟨o1, o2, o3⟩ := hP resp ho.1
    obtain ⟨amt, msg, rfl, k1, k2⟩ := sendFully_whole hx o1 o2 o3 hr h1
    dsimp only at h2
    obtain ⟨⟨b2, ev2, g2⟩, h3, h4⟩ := Run.bind_eq_ret.1 h2
    simp only [Run.ret.injEq, Prod.mk.injEq] at h4
    obtain ⟨rfl, rfl, rfl, rfl⟩ := h4
    refine ⟨runAfter_quiet _ _ _ _ _ (ho.2 amt) h3, resp, amt, ho.1, ?_⟩
    unfold sendFully at h1
    obtain ⟨⟨w2, r2⟩, h5, h6⟩ := Run.bind_eq_ret.1 h1
    dsimp only at h6
    split at h6
    · cases h6
    · simp only [Run.ret.injEq, Prod.mk.injEq] at h6
      obtain ⟨rfl, rfl⟩ := h6
      exact h5
  | sendFor => intro t body' w w' ev g m hf hm ho; exact ho.elim
  | glitch gl => intro t body' w w' ev g m hf hm ho; exact ho.elim

end

section
variable {α : Type} [AsyncBufRead α] [LawfulBufRead α] {β : Type} [AsyncBufRead β] [LawfulBufRead β] {ρ : Type} [AsyncRead ρ] [LawfulRead ρ] {τ : Type} [AsyncRead τ] [LawfulRead τ]

/-- What the server does in an exchange: it sends a response that fulfils `P`, with success. -/
theorem exchange_server {env : Env} (hx : HexLenOk env.hexLen) {opts : ServerOpts} {endpoint : Endpoint β} {req : ClientRequest α} {t : Bytes} {fs : List (Bytes × Bytes)}
    (hr : Requestable env.uriOk req t fs) (hexp : Expects fs = false) {n : Nat} {P : InnerResponse β → Prop}
    (hP : ∀ resp, P resp → resp.headers.WF ∧ fin resp.body = none ∧ ∀ n, resp.length = some n → 8192 + n < usizeLimit) {cfuel : Nat} {w w' : Writer} (hw : w.got = [])
    (hsent : clientSend cfuel req w = .ret (w', .sent)) {sfuel : Nat} {c c' : Conn ρ} (hgot : c.wr.got = []) (hrel : c.wr.Reliable) (ht : NoTimeout opts c) {ev : List Event} {res : Option AcceptRes}
    (he : ∀ hmap, MapOf hmap fs → (endpoint ⟨req.method, t, hmap⟩ (some (rem req.body).length)).AnswersTo P (meas c.rd + c.wr.script.length) (rem req.body))
    (hs : acceptStep env opts endpoint sfuel n c = .ret (c', ev, res)) {x : Bytes} (hup : rem c.rd = w'.got ++ x) :
    ∃ resp w1 amt, P resp ∧ w1.got = [] ∧ sendResponse env.hexLen (env.now n) sfuel resp w1 = .ret (c'.wr, .ok amt) := by
  obtain ⟨sent, h1, -, -, h2⟩ := C50_written hsent
  obtain ⟨H, used, h3, h4, -⟩ := h2 rfl
  rw [hr.head] at h3
  injection h3 with h3
  subst h3
  have hrem : rem c.rd = renderRequest req.method t fs ++ (rem req.body ++ x) := by rw [hup, h1, hw, h4]; simp
  have hfirst : FirstHead (rem c.rd) (renderRequest req.method t fs) := by rw [hrem]; exact firstHead_render hr.method.2 hr.targetOk.1 hr.plain _
  have hhas := hasHead_render hr.method.2 hr.targetOk.1 hr.plain hr.few
  obtain ⟨-, v1, v2, v3⟩ := hr.values []
  have hlen : BodyLength fs (some (rem req.body).length) :=
    ((C25_lengths fs).2.1 [] _ _ v2 (by rw [v1]; rfl) (isLength_decimal hr.body.2) _).2 rfl
  obtain ⟨-, hmap, hsv⟩ := served_inv (acceptStep_spec hx hs) hfirst (.serve hhas hr.method.1 hr.good v3 hr.targetOk.2 hlen) (fun _ => hrel) ht
  obtain ⟨used', body, body', w1, w2, ev1, g, ev2, a1, a2, a3, a4, a5, a6, a7⟩ := hsv.run
  have hr1 : w1.Reliable := hrel.suffix a2
  generalize hL : some (rem req.body).length = L at a3
  have hdrop : (rem c.rd).drop (renderRequest req.method t fs).length = rem req.body ++ x := by rw [hrem, List.drop_left]
  rw [hdrop] at a3
  cases a3 with
  | chunked => cases hL
  | fixed c1 c2 c3 =>
  rename_i rr k0
  injection hL with hL
  subst hL
  have hremT : rem (⟨rr, (rem req.body).length⟩ : Take (BufRd ρ)) = rem req.body := by
    show (rem rr).take _ = _
    rw [c1, List.take_left]
  have hfinT : fin (⟨rr, (rem req.body).length⟩ : Take (BufRd ρ)) = none := by
    show (if _ ≤ (rem rr).length then none else _) = _
    rw [c1, if_pos (by simp)]
  obtain ⟨rfl, resp, amt, p1, p2⟩ := runProg_answers hx hP _ _ _ _ _ _ _ _ hfinT c3 (by rw [hremT]; exact he hmap hsv.headers) hr1 a4
  simp only [answerGlitch, Run.ret.injEq, Prod.mk.injEq] at a5
  obtain ⟨rfl, -⟩ := a5
  have hw1 : w1.got = [] := by rw [a1, hgot, hexp]; rfl
  exact ⟨resp, w1, amt, p1, hw1, p2⟩

/-- **C65.**  A tophat client connected to a tophat server: `connect` returns the response that the endpoint sends, with its status, headers and body, provided that the request and the response arrive as they are sent
(`Requestable`, `Transmittable`), the response has a declared length, and the request does not say `expect: 100-continue`.  (`P` are the responses that the endpoint may answer to this request with this body.) -/
theorem C65_exchange_partial {env : Env} (hx : HexLenOk env.hexLen) {opts : ServerOpts} {endpoint : Endpoint β} {req : ClientRequest α} {t : Bytes} {fs : List (Bytes × Bytes)}
    (hr : Requestable env.uriOk req t fs) (hexp : Expects fs = false) {n : Nat} {P : InnerResponse β → Prop}
    (hP : ∀ resp, P resp → Transmittable resp (env.now n) ∧ fin resp.body = none ∧ ∃ k, resp.length = some k ∧ 8192 + k < usizeLimit)
    -- the client, and its connection `io`, `w`; it has written its request, and waits long enough for the response
    {now : Bytes} {pool : Pool} (hp : pool.Ok) {cfuel cfuel' : Nat} {w w' : Writer} (hw : w.got = [])
    (hsent : clientSend cfuel req w = .ret (w', .sent)) {io : τ} (hcf : 2 * (rem io).length + meas io < cfuel')
    -- the server, its connection `c`, and what it did
    {sfuel : Nat} {c c' : Conn ρ} (hgot : c.wr.got = []) (hrel : c.wr.Reliable) (ht : NoTimeout opts c) {ev : List Event} {res : Option AcceptRes}
    (he : ∀ hmap, MapOf hmap fs → (endpoint ⟨req.method, t, hmap⟩ (some (rem req.body).length)).AnswersTo P (meas c.rd + c.wr.script.length) (rem req.body))
    (hs : acceptStep env opts endpoint sfuel n c = .ret (c', ev, res))
    -- the connection carries bytes both ways, in any fragments
    {x y : Bytes} (hup : rem c.rd = w'.got ++ x) (hdown : rem io = c'.wr.got ++ y) :
    ∃ resp k rsp, P resp ∧ resp.length = some k ∧ 
      connect now pool cfuel cfuel' req io w = .ret (w', .done (.ok rsp)) ∧ rsp.status = resp.status ∧ MapOf rsp.headers (sentFields resp.headers (some k) (env.now n)) ∧ rsp.length = some k ∧
      ∀ ks, ∃ b ps, polls rsp.body ks = .ret (b, ps) ∧ received ps <+: (rem resp.body).take k ∧ (∀ x, .err x ∉ ps) ∧
        ((∀ k ∈ ks, 0 < k) → SawEof ps → received ps = (rem resp.body).take k) ∧ ((∀ k ∈ ks, 0 < k) → k + meas io < ks.length → SawEof ps) := by
  obtain ⟨resp, w1, amt, p1, hw1, p2⟩ := exchange_server hx hr hexp (P := P)
    (by
      intro resp hp
      obtain ⟨b1, b2, k, b3, b4⟩ := hP resp hp
      exact ⟨b1.wf, b2, fun n hn => by rw [b3] at hn; injection hn with hn; omega⟩)
    hw hsent hgot hrel ht he hs hup
  -- the client
  obtain ⟨b1, b2, k, b3, b4⟩ := hP resp p1
  obtain ⟨rsp, q1, q2, q3, q4, q5, q6⟩ := C55_round_trip hx b1 b3 b4 hw1 p2 hdown now hp hcf
  refine ⟨resp, k, rsp, p1, b3, ?_, q2, q3, q5, q6⟩
  unfold connect
  rw [hsent]
  simp only [Run.ret_bind]
  rw [q1]
  rfl

/-- **C65**, for responses whose length is not declared (streams, server-sent events).  `connect` returns the body that the endpoint sent: what is read of it is a prefix, and all of it if its framing
takes at most 4096 bytes; but not its status and headers. -/
theorem C65_streamed_partial {env : Env} (hx : HexLenOk env.hexLen) {opts : ServerOpts} {endpoint : Endpoint β} {req : ClientRequest α} {t : Bytes} {fs : List (Bytes × Bytes)}
    (hr : Requestable env.uriOk req t fs) (hexp : Expects fs = false) {n : Nat} {P : InnerResponse β → Prop}
    (hP : ∀ resp, P resp → Transmittable resp (env.now n) ∧ fin resp.body = none ∧ resp.length = none ∧ (rem resp.body).length < 2 ^ 64)
    -- the client, and its connection `io`, `w`; it has written its request, and waits long enough for the response
    {now : Bytes} {pool : Pool} (hp : pool.Ok) {cfuel cfuel' : Nat} {w w' : Writer} (hw : w.got = [])
    (hsent : clientSend cfuel req w = .ret (w', .sent)) {io : τ} (hcf : 2 * (rem io).length + meas io < cfuel')
    -- the server, its connection `c`, and what it did
    {sfuel : Nat} {c c' : Conn ρ} (hgot : c.wr.got = []) (hrel : c.wr.Reliable) (ht : NoTimeout opts c) {ev : List Event} {res : Option AcceptRes}
    (he : ∀ hmap, MapOf hmap fs → (endpoint ⟨req.method, t, hmap⟩ (some (rem req.body).length)).AnswersTo P (meas c.rd + c.wr.script.length) (rem req.body))
    (hs : acceptStep env opts endpoint sfuel n c = .ret (c', ev, res))
    -- the connection carries bytes both ways, in any fragments
    {x y : Bytes} (hup : rem c.rd = w'.got ++ x) (hdown : rem io = c'.wr.got ++ y) :
    ∃ resp rsp, P resp ∧ connect now pool cfuel cfuel' req io w = .ret (w', .done (.ok rsp)) ∧ rsp.status = 200 ∧ rsp.headers = [] ∧
      ∀ ks, (∀ k ∈ ks, 0 < k) → ∃ b ps, polls rsp.body ks = .ret (b, ps) ∧ received ps <+: rem resp.body ∧
        (c'.wr.got.length ≤ (headOf resp (env.now n)).length + 4096 ∨ (∃ wire, c'.wr.got = headOf resp (env.now n) ++ wire ∧ Roomy wire (rem resp.body) []) →
          (SawEof ps ∨ (∃ e, .err e ∈ ps) → received ps = rem resp.body) ∧ ((rem resp.body).length + meas io < ks.length → SawEof ps ∨ ∃ e, .err e ∈ ps)) := by
  obtain ⟨resp, w1, amt, p1, hw1, p2⟩ := exchange_server hx hr hexp (P := P)
    (by
      intro resp hp
      obtain ⟨b1, b2, b3, -⟩ := hP resp hp
      exact ⟨b1.wf, b2, fun n hn => by rw [b3] at hn; cases hn⟩)
    hw hsent hgot hrel ht he hs hup
  obtain ⟨b1, b2, b3, b4⟩ := hP resp p1
  have hamt : amt = c'.wr.got.length := by
    obtain ⟨msg, h1, h2, -⟩ := C10_bytes_written hx b1.wf (fun m hm => by rw [b3] at hm; cases hm) p2
    rw [h1, hw1, h2]; simp
  obtain ⟨rsp, q1, q2, q3, q4⟩ := C55_refuted_chunked hx b1 b3 b4 hw1 p2 hdown now hp hcf
  refine ⟨resp, rsp, p1, ?_, q2, q3, fun ks hks => ?_⟩
  · unfold connect
    rw [hsent]
    simp only [Run.ret_bind]
    rw [q1]
    rfl
  · rw [← hamt]
    exact q4 ks hks

end

/-! ## Concrete cases -/

/-- Header maps with printable contents. -/
def HeaderMap.plain (m : HeaderMap) : Bool :=
  m.iter.all fun f => (headerNameFromBytes f.1 == some f.1) && (headerValueFromBytes f.2 == some f.2) && f.2.head? != some 32 && f.2.head? != some 9

theorem HeaderMap.plain_ok {m : HeaderMap} (h : m.plain = true) : m.Valid ∧ ∀ f ∈ m.iter, ∀ b, f.2.head? = some b → b ≠ 32 ∧ b ≠ 9 := by
  have h' := List.all_eq_true.1 h
  simp only [Bool.and_eq_true, beq_iff_eq, bne_iff_ne] at h'
  refine ⟨⟨fun f hf => (h' f hf).1.1.1, fun f hf => (h' f hf).1.1.2⟩, fun f hf b hb => ⟨?_, ?_⟩⟩
  · rintro rfl; exact (h' f hf).1.2 hb
  · rintro rfl; exact (h' f hf).2 hb

theorem nowOk : (∀ b ∈ ascii "NOW", valueByte b) ∧ ∀ b, (ascii "NOW").head? = some b → b ≠ 32 ∧ b ≠ 9 := by
  have h : ((ascii "NOW").all fun b => headerValueByte b) = true := by decide
  refine ⟨fun b hb => valueByte_of (List.all_eq_true.1 h b hb), fun b hb => ?_⟩
  have : b = 78 := by have e : (ascii "NOW").head? = some 78 := by decide
                      rw [e] at hb; injection hb with hb; exact hb.symm
  subst this; decide

/-- The response `demoFixed` meets the hypotheses of `C55_round_trip`, ... -/
theorem demoFixed_ok : Transmittable demoFixed (ascii "NOW") :=
  ⟨rfl, by decide, demo_wf, (HeaderMap.plain_ok (by decide +kernel)).1, (HeaderMap.plain_ok (by decide +kernel)).2, nowOk, by decide, by decide +kernel⟩

/-- What a client sees of a response that a server sends: the server writes to `w`, and its bytes reach the client in pieces of 7 bytes. -/
def relayed (resp : InnerResponse Script) (w : Writer) (ks : List Nat) : Run (Option (StatusCode × HeaderMap × Option Nat × List RPoll)) := do
  let (w, _) ← sendResponse exactHexLen (ascii "NOW") 100 resp w
  replySeen (pieces 100 w.got) ks
where
  /-- Pieces of 7 bytes. -/
  pieces : Nat → Bytes → List Bytes
    | 0, _ => []
    | n + 1, bs => if bs = [] then [] else bs.take 7 :: pieces n (bs.drop 7)

/-- ... and arrives. -/
example : relayed demoFixed ⟨[.accept 50, .pending, .accept 10], [], 0⟩ [5, 5, 5, 5, 5, 5] =
    .ret (some (200, [(ascii "content-length", [ascii "8"]), (ascii "date", [ascii "NOW"]), (ascii "x-a", [ascii "1", ascii "2"]),
      (ascii "content-type", [ascii "application/octet-stream"])], some 8, [.pending, .data (ascii "hello"), .data (ascii " w"), .pending, .data (ascii "o"), .data []])) := by decide +kernel

/-- A 404 without declared length arrives as a 200. -/
example : relayed { demoStream with status := 404 } ⟨[], [], 0⟩ [5, 5, 5, 5, 5, 5, 5, 5, 5, 5, 5, 5] = .ret (some (200, [], none,
    [.data (ascii "he"), .pending, .data (ascii "llo"), .pending, .data (ascii " worl"), .data (ascii "d"), .pending, .data [], .pending, .data [], .data [], .data []])) := by decide +kernel

/-- The request `demoRequest` meets the hypotheses of `C52_round_trip`. -/
theorem demoRequest_ok : Requestable demoEnv.uriOk demoRequest (ascii "/a?q=1")
    [(ascii "host", ascii "h.org:81"), (ascii "content-length", ascii "5"), (ascii "x-a", ascii "1"), (ascii "x-a", ascii "2")] := by
  have tok : ∀ n : Bytes, (n.all fun b => isTokenByte b) = true → ∀ b ∈ n, tokenByte b := fun n h b hb => (Httparse.isTokenByte_iff b).1 (List.all_eq_true.1 h b hb)
  refine ⟨⟨by decide, tok _ (by decide)⟩, by decide +kernel, ⟨?_, by decide +kernel⟩, (HeaderMap.plain_ok (by decide +kernel)).1, (HeaderMap.plain_ok (by decide +kernel)).2, ?_, by decide, by decide,
    by decide, by decide +kernel, by decide⟩
  · unfold targetByte; decide
  · intro a ha
    have : a = ascii "h.org:81" := by
      have e : authority demoRequest.uri = some (ascii "h.org:81") := by decide +kernel
      rw [e] at ha; injection ha with ha; exact ha.symm
    subst this
    unfold PlainField
    refine ⟨by decide, tok _ (by decide), ?_, ?_⟩
    · unfold valueByte; decide
    · intro b hb
      have e : (ascii "h.org:81").head? = some 104 := by decide
      have hb' : (ascii "h.org:81").head? = some b := hb
      rw [e] at hb'; injection hb' with hb'; subst hb'; decide

/-- A client and a server, connected by pieces of 7 bytes: what the server's endpoint sees, and what `connect` returns. -/
def exchange (req : ClientRequest Script) (endpoint : Endpoint Cursor) : Run (List Event × Option (StatusCode × HeaderMap × Option Nat × List RPoll)) := do
  let (w, _) ← clientSend 100 req ⟨[], [], 0⟩
  let (c', ev, _) ← acceptStep demoEnv plainOpts endpoint 1000 0 (connOf (relayed.pieces 100 w.got))
  let r ← replySeen (relayed.pieces 100 c'.wr.got) [9, 9, 9, 9]
  .ret (ev, r)

/-- The endpoint reads the body and sends it back; `connect` returns it. -/
example : exchange demoRequest (reading [3, 9, 9]) = .ret ([.call ⟨ascii "POST", ascii "/a?q=1", [(ascii "host", [ascii "h.org:81"]), (ascii "content-length", [ascii "5"]), (ascii "x-a", [ascii "1", ascii "2"])]⟩ (some 5),
      .got 3 (.data (ascii "he")), .got 9 .pending, .got 9 (.data (ascii "llo")), .wrote (responseHead .http11 200 [] (some 5) (ascii "NOW") ++ ascii "hello")],
    some (200, [(ascii "content-length", [ascii "5"]), (ascii "date", [ascii "NOW"]), (ascii "content-type", [ascii "application/octet-stream"])], some 5, [.data (ascii "he"), .pending, .data (ascii "llo"), .data []])) := by decide +kernel

/-- With `P resp` saying that `resp` is a 200 with a short body, the endpoint meets the hypothesis of `C65_exchange_partial`. -/
example (head : ReqHead) (len : Option Nat) : (reading [3, 9, 9] head len).Answers (fun resp => resp.status = 200 ∧ resp.headers = [] ∧ ∃ bs : Bytes, resp.body = ⟨bs⟩ ∧ resp.length = some bs.length) := by
  have key : ∀ ks acc, (readThenSend ks acc).Answers (fun resp => resp.status = 200 ∧ resp.headers = [] ∧ ∃ bs : Bytes, resp.body = ⟨bs⟩ ∧ resp.length = some bs.length) := by
    intro ks
    induction ks with
    | nil => intro acc; exact ⟨⟨rfl, rfl, acc, rfl, rfl⟩, fun _ => trivial⟩
    | cons k ks ih =>
      intro acc p hp
      cases p with
      | err e => exact absurd rfl (hp e)
      | pending => exact ih _
      | data bs => exact ih _
  exact key _ _

/-- C65 is false of the code for requests that expect an interim response: `connect` returns the interim response, while the server's endpoint has been called, has read the body and has sent its response. -/
theorem C65_refuted_expect : ∃ rs, exchange { demoRequest with headers := [(ascii "expect", [ascii "100-continue"])] } (reading [9, 9, 9]) = .ret (rs, some (100, [(ascii "date", [ascii "NOW"])], some 0, [.data [], .data [], .data [], .data []])) ∧
    calls rs ≠ [] ∧ written rs = continueResponse ++ responseHead .http11 200 [] (some 5) (ascii "NOW") ++ ascii "hello" := by
  refine ⟨[.wrote continueResponse, .call ⟨ascii "POST", ascii "/a?q=1", [(ascii "host", [ascii "h.org:81"]), (ascii "content-length", [ascii "5"]), (ascii "expect", [ascii "100-continue"])]⟩ (some 5),
      .got 9 (.data (ascii "hel")), .got 9 .pending, .got 9 (.data (ascii "lo")), .wrote (responseHead .http11 200 [] (some 5) (ascii "NOW") ++ ascii "hello")], ?_, by decide, by decide +kernel⟩
  decide +kernel

end Tophat
