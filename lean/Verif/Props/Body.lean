import Verif.Proofs.Body
import Verif.Proofs.Utf8
import Verif.Props.RoundTrip
/-!
# Properties C56, C57 and C66: conversions of bodies, and their trailers
-/

set_option linter.unusedSectionVars false
set_option synthInstance.maxSize 1000

namespace Tophat
open Spec

/-! ## More polls do not change a result -/

theorem readToEnd_more {ρ : Type} [AsyncRead ρ] {grow : Nat → Nat → Nat} {x : Slurp} (hx : x ≠ .running) {r' : ρ} (m : Nat) : ∀ (fuel : Nat) {r : ρ} {s : ToEnd},
    readToEnd grow fuel r s = .ret (r', x) → readToEnd grow (fuel + m) r s = .ret (r', x) := by
  intro fuel
  induction fuel with
  | zero => intro r s h; simp only [readToEnd, Run.ret.injEq, Prod.mk.injEq] at h; exact absurd h.2.symm hx
  | succ fuel ih =>
    intro r s h
    rw [Nat.add_right_comm]
    simp only [readToEnd] at h ⊢
    split at h
    · rw [if_pos (by assumption)]
      obtain ⟨⟨r1, p⟩, h1, h2⟩ := Run.bind_eq_ret.1 h
      rw [h1]
      simp only [Run.ret_bind]
      dsimp only at h2 ⊢
      cases p with
      | pending => exact ih h2
      | err e => exact h2
      | data bs =>
        cases bs with
        | nil => exact h2
        | cons a bs => exact ih h2
    · cases h

section
variable {ρ : Type} [AsyncRead ρ]

theorem intoBytes_ret {grow : Nat → Nat → Nat} {fuel : Nat} {b : MsgBody ρ} {r : ρ} {x : Slurp} (h : readToEnd grow fuel b.reader (ToEnd.new 1024) = .ret (r, x)) :
    b.intoBytes grow fuel = .ret (r, .ofBytes x) := by
  simp only [MsgBody.intoBytes, h, Run.ret_bind]

theorem intoString_ret {grow : Nat → Nat → Nat} {fuel : Nat} {b : MsgBody ρ} (hl : b.length.getD 0 ≤ isizeMax) {r : ρ} {x : Slurp}
    (h : readToEnd grow fuel b.reader (ToEnd.new (b.length.getD 0)) = .ret (r, x)) : b.intoString grow fuel = .ret (r, .ofText x) := by
  simp only [MsgBody.intoString, stringCapacity, if_pos hl, h, Run.ret_bind]

theorem intoString_panic {grow : Nat → Nat → Nat} {fuel : Nat} {b : MsgBody ρ} (hl : isizeMax < b.length.getD 0) : b.intoString grow fuel = .panic := by
  simp only [MsgBody.intoString, stringCapacity, if_neg (show ¬ b.length.getD 0 ≤ isizeMax by omega), Run.panic_bind]

end

/-! ## C56 -/

section
variable {ρ : Type} [AsyncRead ρ] [LawfulRead ρ]

/-- **C56**: `Body::from_reader(r, len).into_bytes()`, for any declared length and any reader, in whatever pieces and with whatever delays it delivers: all its bytes if it ends, or its error if it fails.
It needs at most one poll more than there are bytes and delays. -/
theorem C56_reader {grow : Nat → Nat → Nat} (hg : GrowOk grow) {fuel : Nat} {r : ρ} (len : Option Nat) (hf : (rem r).length + meas r < fuel) :
    ∃ r' x, (MsgBody.fromReader r len).intoBytes grow fuel = .ret (r', x) ∧
      ((fin r = none ∧ x = .ok (rem r)) ∨ ∃ e, fin r = some e ∧ x = .conversion e) := by
  obtain ⟨r', x, h1, h2⟩ := readToEnd_lawful hg fuel r 1024
  refine ⟨r', .ofBytes x, intoBytes_ret h1, ?_⟩
  cases x with
  | running => dsimp only at h2; omega
  | err e => exact .inr ⟨e, h2, rfl⟩
  | eof bs => obtain ⟨rfl, h2⟩ := h2; exact .inl ⟨h2, rfl⟩

/-- **C56**: `Body::from_reader(r, len).into_string()` with a declared length up to `isize::MAX`, or none: all its bytes if it ends and they are UTF-8; otherwise the error. -/
theorem C56_reader_text {grow : Nat → Nat → Nat} (hg : GrowOk grow) {fuel : Nat} {r : ρ} {len : Option Nat} (hl : len.getD 0 ≤ isizeMax) (hf : (rem r).length + meas r < fuel) :
    ∃ r' x, (MsgBody.fromReader r len).intoString grow fuel = .ret (r', x) ∧
      ((fin r = none ∧ IsUtf8 (rem r) ∧ x = .ok (rem r)) ∨ (fin r = none ∧ ¬ IsUtf8 (rem r) ∧ x = .conversion .notUtf8) ∨ ∃ e, fin r = some e ∧ x = .conversion e) := by
  obtain ⟨r', x, h1, h2⟩ := readToEnd_lawful hg fuel r (len.getD 0)
  refine ⟨r', .ofText x, intoString_ret hl h1, ?_⟩
  cases x with
  | running => dsimp only at h2; omega
  | err e => exact .inr (.inr ⟨e, h2, rfl⟩)
  | eof bs =>
    obtain ⟨rfl, h2⟩ := h2
    simp only [BodyRes.ofText]
    by_cases hu : utf8Valid (rem r) = true
    · exact .inl ⟨h2, (utf8Valid_iff _).1 hu, by rw [if_pos hu]⟩
    · exact .inr (.inl ⟨h2, fun h => hu ((utf8Valid_iff _).2 h), by rw [if_neg hu]⟩)

end

/-- **C56**: `Body::from_bytes(b).into_bytes()` is `b`, and the declared length is the number of bytes. -/
theorem C56_bytes {grow : Nat → Nat → Nat} (hg : GrowOk grow) {fuel : Nat} {bs : Bytes} (hf : bs.length < fuel) :
    (MsgBody.fromBytes bs).length = some bs.length ∧ ∃ r', (MsgBody.fromBytes bs).intoBytes grow fuel = .ret (r', .ok bs) := by
  refine ⟨rfl, ?_⟩
  obtain ⟨r', x, h1, h2⟩ := C56_reader (ρ := Cursor) hg (fuel := fuel) (r := ⟨bs⟩) (some bs.length) (by show bs.length + 0 < fuel; omega)
  rcases h2 with ⟨-, rfl⟩ | ⟨e, h, -⟩
  · exact ⟨r', h1⟩
  · cases h

/-- **C56**: `Body::empty()` declares that it has no bytes, and has none. -/
theorem C56_empty {grow : Nat → Nat → Nat} (hg : GrowOk grow) {fuel : Nat} (hf : 0 < fuel) :
    MsgBody.empty.length = some 0 ∧ (∃ r', MsgBody.empty.intoBytes grow fuel = .ret (r', .ok [])) ∧ ∃ r', MsgBody.empty.intoString grow fuel = .ret (r', .ok []) := by
  refine ⟨rfl, ?_, ?_⟩
  · obtain ⟨r', x, h1, h2⟩ := C56_reader (ρ := Cursor) hg (fuel := fuel) (r := ⟨[]⟩) (some 0) (by show 0 + 0 < fuel; omega)
    rcases h2 with ⟨-, rfl⟩ | ⟨e, h, -⟩
    · exact ⟨r', h1⟩
    · cases h
  · obtain ⟨r', x, h1, h2⟩ := C56_reader_text (ρ := Cursor) hg (fuel := fuel) (r := ⟨[]⟩) (len := some 0) (by decide) (by show 0 + 0 < fuel; omega)
    rcases h2 with ⟨-, -, rfl⟩ | ⟨-, h, -⟩ | ⟨e, h, -⟩
    · exact ⟨r', h1⟩
    · exact absurd ⟨[], by simp, rfl⟩ h
    · cases h

/-- **C56**: `Body::from(text).into_string()` is `text`, and the declared length is the number of bytes of its UTF-8 encoding. -/
theorem C56_text {grow : Nat → Nat → Nat} (hg : GrowOk grow) {fuel : Nat} {cs : List Nat} (hc : ∀ c ∈ cs, Scalar c) (hl : (encodeText cs).length ≤ isizeMax)
    (hf : (encodeText cs).length < fuel) :
    (MsgBody.fromText (encodeText cs)).length = some (encodeText cs).length ∧
      ∃ r', (MsgBody.fromText (encodeText cs)).intoString grow fuel = .ret (r', .ok (encodeText cs)) := by
  refine ⟨rfl, ?_⟩
  obtain ⟨r', x, h1, h2⟩ := C56_reader_text (ρ := Cursor) hg (fuel := fuel) (r := ⟨encodeText cs⟩) (len := some (encodeText cs).length) hl
    (by show (encodeText cs).length + 0 < fuel; omega)
  rcases h2 with ⟨-, -, rfl⟩ | ⟨-, h, -⟩ | ⟨e, h, -⟩
  · exact ⟨r', h1⟩
  · exact absurd ⟨cs, hc, rfl⟩ h
  · cases h

/-- **C56**: `Body::from_bytes(b).into_string()` succeeds if and only if `b` is UTF-8, and then gives `b`. -/
theorem C56_bytes_text {grow : Nat → Nat → Nat} (hg : GrowOk grow) {fuel : Nat} {bs : Bytes} (hl : bs.length ≤ isizeMax) (hf : bs.length < fuel) :
    (IsUtf8 bs → ∃ r', (MsgBody.fromBytes bs).intoString grow fuel = .ret (r', .ok bs)) ∧
      (¬ IsUtf8 bs → ∃ r', (MsgBody.fromBytes bs).intoString grow fuel = .ret (r', .conversion .notUtf8)) := by
  obtain ⟨r', x, h1, h2⟩ := C56_reader_text (ρ := Cursor) hg (fuel := fuel) (r := ⟨bs⟩) (len := some bs.length) hl (by show bs.length + 0 < fuel; omega)
  rcases h2 with ⟨-, h, rfl⟩ | ⟨-, h, rfl⟩ | ⟨e, h, -⟩
  · exact ⟨fun _ => ⟨r', h1⟩, fun h' => absurd h h'⟩
  · exact ⟨fun h' => absurd h' h, fun _ => ⟨r', h1⟩⟩
  · cases h

/-- Amortised growth, as of `Vec`. -/
def doubling (cap len : Nat) : Nat := max (2 * cap) (len + 32)

theorem doubling_ok : GrowOk doubling := fun cap len => by unfold doubling; omega

/-- "hé€𝄞" is a text of seven bytes more than it has letters; a reader in three pieces with delays; a truncated letter is not UTF-8. -/
example : (∀ c ∈ [0x68, 0xE9, 0x20AC, 0x1D11E], Scalar c) ∧ encodeText [0x68, 0xE9, 0x20AC, 0x1D11E] = [0x68, 0xC3, 0xA9, 0xE2, 0x82, 0xAC, 0xF0, 0x9D, 0x84, 0x9E] ∧
    ((MsgBody.fromReader ([.data (ascii "ab"), .pending, .data (ascii "c")] : Script) none).intoBytes doubling 10 >>= fun x => Run.ret x.2) = .ret (.ok (ascii "abc")) ∧
    ((MsgBody.fromReader ([.data [0xE2, 0x82], .pending, .data [0xAC]] : Script) (some 7)).intoString doubling 10 >>= fun x => Run.ret x.2) = .ret (.ok [0xE2, 0x82, 0xAC]) ∧
    ((MsgBody.fromBytes [0xE2, 0x82]).intoString doubling 10 >>= fun x => Run.ret x.2) = .ret (.conversion .notUtf8) ∧
    ((MsgBody.fromReader ([.data (ascii "ab"), .err (.transport 7)] : Script) none).intoBytes doubling 10 >>= fun x => Run.ret x.2) = .ret (.conversion (.transport 7)) := by
  refine ⟨?_, by decide, by decide +kernel, by decide +kernel, by decide +kernel, by decide +kernel⟩
  intro c hc
  simp only [List.mem_cons, List.not_mem_nil, or_false] at hc
  unfold Scalar
  omega

/-! ## Received bodies -/

section
variable {ρ : Type} [AsyncRead ρ] [LawfulRead ρ]

/-- On the connection `c`, as its request number `n`, the server hands `req` to the endpoint. -/
def Receives (env : Env) (opts : ServerOpts) (fuel n : Nat) (c : Conn ρ) (req : Request ρ) : Prop :=
  ∃ w clock, awaitDecode env opts fuel (env.pool n) fuel (DecFut.start c.rd) c.wr c.clock = .ret (w, clock, .ready (.request req))

/-- This is what the step of the server does with the endpoint. -/
theorem Receives.served {σ : Type} [AsyncBufRead σ] {env : Env} {opts : ServerOpts} {fuel n : Nat} {c : Conn ρ} {req : Request ρ} (hr : Receives env opts fuel n c req) {endpoint : Endpoint σ}
    {c' : Conn ρ} {ev : List Event} {res : Option AcceptRes} (hs : acceptStep env opts endpoint fuel n c = .ret (c', ev, res)) : .call req.head req.length ∈ ev := by
  obtain ⟨w, clock, hr⟩ := hr
  unfold acceptStep at hs
  rw [hr] at hs
  simp only [Run.ret_bind] at hs
  obtain ⟨⟨b, w1, e1, g⟩, -, hs⟩ := Run.bind_eq_ret.1 hs
  obtain ⟨⟨w2, e2⟩, -, hs⟩ := Run.bind_eq_ret.1 hs
  simp only [Run.ret.injEq, Prod.mk.injEq] at hs
  rw [← hs.2.1]
  simp

theorem Receives.body {env : Env} {opts : ServerOpts} {fuel n : Nat} {c : Conn ρ} {req : Request ρ} (hr : Receives env opts fuel n c req) {h : Bytes} (hh : FirstHead (rem c.rd) h) :
    BodyAt (env.pool n) ((rem c.rd).drop h.length) (fin c.rd) (meas c.rd + c.wr.script.length) req.length req.body := by
  obtain ⟨w, clock, hr⟩ := hr
  rcases awaitDecode_spec (env := env) (opts := opts) (pool := env.pool n) fuel fuel c.clock (decInv_start c.rd c.wr) with ⟨h1, _⟩ | ⟨w', clock', a, h1, h2⟩
  · rw [hr] at h1; cases h1
  · rw [hr] at h1
    injection h1 with h1
    injection h1 with e1 h1; injection h1 with e2 e3
    subst e1; subst e2; subst e3
    cases h2 with
    | ready h2 =>
      generalize hd : DecRes.request req = d at h2
      have h2 := h2.decided
      cases h2 with
      | serve a b c d f g h' =>
        injection hd with hd
        subst hd
        have := a.unique hh
        subst this
        assumption
      | _ => cases hd

theorem toBody_fixed {req : Request ρ} {pool : Pool} {s : Bytes} {e : Option IoErr} {m n : Nat} (hb : BodyAt pool s e m (some n) req.body) (hl : req.length = some n) :
    req.toBody = ⟨req.body, some n, true⟩ := by
  obtain ⟨head, body, len⟩ := req
  dsimp only at hb hl ⊢
  subst hl
  cases hb
  rfl

theorem toBody_chunked {req : Request ρ} {pool : Pool} {s : Bytes} {e : Option IoErr} {m : Nat} (hb : BodyAt pool s e m none req.body) :
    req.toBody = ⟨req.body, none, false⟩ := by
  obtain ⟨head, body, len⟩ := req
  dsimp only at hb ⊢
  cases hb
  rfl

theorem toBody_reader (req : Request ρ) : req.toBody.reader = req.body := by
  obtain ⟨head, body, len⟩ := req
  cases body <;> rfl

theorem clientToBody_reader (rsp : ClientResponse ρ) : rsp.toBody.reader = rsp.body := by
  obtain ⟨st, hm, body, len⟩ := rsp
  cases body with
  | empty => rfl
  | stream b => cases b <;> rfl

theorem readToEnd_empty {grow : Nat → Nat → Nat} (fuel cap : Nat) :
    readToEnd grow (fuel + 1) (ReplyBody.empty : ReplyBody ρ) (ToEnd.new cap) = .ret (.empty, .eof []) := by
  simp only [readToEnd, room_got]
  have h0 : (ToEnd.new cap).got.length = 0 := rfl
  rw [h0, if_pos (by omega)]
  rfl

/-! ## C57 -/

/-- **C57**: there is one sender of trailers for each body.  `send_trailers` panics when it is called again; the body of a chunked request has lost its sender to the decoder, so there it
panics at the first call; for every other body that comes from the library or is made by the application the first call succeeds, and leaves reader and length alone. -/
theorem C57_one_sender {τ : Type} :
    (∀ (b b' : MsgBody τ), b.sendTrailers = .ret b' → b'.reader = b.reader ∧ b'.length = b.length ∧ b'.sendTrailers = .panic) ∧
    (∀ (r : τ) (len : Option Nat), ∃ b', (MsgBody.fromReader r len).sendTrailers = .ret b') ∧
    (∀ bs, ∃ b', (MsgBody.fromBytes bs).sendTrailers = .ret b') ∧ (∀ bs, ∃ b', (MsgBody.fromText bs).sendTrailers = .ret b') ∧
    (∃ b', MsgBody.empty.sendTrailers = .ret b') ∧
    (∀ req : Request τ, (∃ d, req.body = .chunked d) → req.toBody.sendTrailers = .panic) ∧
    (∀ req : Request τ, (∃ t, req.body = .fixed t) → ∃ b', req.toBody.sendTrailers = .ret b') ∧
    (∀ rsp : ClientResponse τ, (∃ d, rsp.body = .stream (.chunked d)) → rsp.toBody.sendTrailers = .panic) := by
  refine ⟨?_, fun r len => ⟨_, rfl⟩, fun bs => ⟨_, rfl⟩, fun bs => ⟨_, rfl⟩, ⟨_, rfl⟩, ?_, ?_, ?_⟩
  · intro b b' h
    unfold MsgBody.sendTrailers at h
    split at h
    · cases h; exact ⟨rfl, rfl, rfl⟩
    · cases h
  · rintro req ⟨d, h⟩
    unfold Request.toBody
    rw [h]
    rfl
  · rintro req ⟨d, h⟩
    unfold Request.toBody
    rw [h]
    exact ⟨_, rfl⟩
  · rintro rsp ⟨d, h⟩
    unfold ClientResponse.toBody
    rw [h]
    rfl

/-- C57 is false of the code: the body of a request with declared length `k` (zero, if it has no body) that has arrived completely.  From some number of polls on (and for ever, because
nothing is left to be polled) `into_bytes_with_trailer` waits for trailers, whose sender is in the very body that it holds.  The same holds for `into_string_with_trailer` (the next theorem). -/
theorem C57_refuted_fixed {grow : Nat → Nat → Nat} (hg : GrowOk grow) {env : Env} {opts : ServerOpts} {fuel n : Nat} {c : Conn ρ} {req : Request ρ}
    (hr : Receives env opts fuel n c req) {h : Bytes} (hh : FirstHead (rem c.rd) h) {k : Nat} (hl : req.length = some k) (hk : k ≤ ((rem c.rd).drop h.length).length)
    (kept : Bool) {F : Nat} (hF : k + (meas c.rd + c.wr.script.length) < F) :
    req.toBody.intoBytesWithTrailer grow F kept = .ret (.waiting (((rem c.rd).drop h.length).take k)) := by
  have hb := hr.body hh
  rw [hl] at hb
  obtain ⟨t, x, h1, h2⟩ := hb.fixed_end hg F 1024
  have : x = .eof (((rem c.rd).drop h.length).take k) := by
    cases x with
    | running => dsimp only at h2; omega
    | err e => dsimp only at h2; omega
    | eof bs => rw [h2.1]
  subst this
  unfold MsgBody.intoBytesWithTrailer
  rw [intoBytes_ret (b := req.toBody) (by rw [toBody_reader]; exact h1)]
  rw [toBody_fixed hb hl]
  rfl

/-- The same for `into_string_with_trailer`. -/
theorem C57_refuted_fixed_text {grow : Nat → Nat → Nat} (hg : GrowOk grow) {env : Env} {opts : ServerOpts} {fuel n : Nat} {c : Conn ρ} {req : Request ρ}
    (hr : Receives env opts fuel n c req) {h : Bytes} (hh : FirstHead (rem c.rd) h) {k : Nat} (hl : req.length = some k) (hk : k ≤ ((rem c.rd).drop h.length).length)
    (hi : k ≤ isizeMax) (hu : IsUtf8 (((rem c.rd).drop h.length).take k))
    (kept : Bool) {F : Nat} (hF : k + (meas c.rd + c.wr.script.length) < F) :
    req.toBody.intoStringWithTrailer grow F kept = .ret (.waiting (((rem c.rd).drop h.length).take k)) := by
  have hb := hr.body hh
  rw [hl] at hb
  have hlen : req.toBody.length = some k := by rw [toBody_fixed hb hl]
  obtain ⟨t, x, h1, h2⟩ := hb.fixed_end hg F k
  have : x = .eof (((rem c.rd).drop h.length).take k) := by
    cases x with
    | running => dsimp only at h2; omega
    | err e => dsimp only at h2; omega
    | eof bs => rw [h2.1]
  subst this
  unfold MsgBody.intoStringWithTrailer
  rw [intoString_ret (b := req.toBody) (by rw [hlen]; exact hi) (by rw [toBody_reader, hlen]; exact h1)]
  rw [toBody_fixed hb hl]
  simp only [Run.ret_bind, BodyRes.ofText, if_pos ((utf8Valid_iff _).2 hu)]
  rfl

/-- C57 is false of the code: the same for the client, for every response that is not chunked and whose body has arrived completely. -/
theorem C57_refuted_client {grow : Nat → Nat → Nat} (hg : GrowOk grow) {now : Bytes} {pool : Pool} {io : ρ} {fuel : Nat} {res : ClientResponse ρ}
    (hd : ClientDecode.decode now pool fuel io = .ret (.done (.ok res))) {h rest : Bytes} (hh : FirstReply (rem io) h) (hrest : rem io = h ++ rest)
    {k : Nat} (hl : res.length = some k) (hk : k ≤ rest.length) (kept : Bool) {F : Nat} (hF : k + meas io < F) :
    res.toBody.intoBytesWithTrailer grow F kept = .ret (.waiting (rest.take k)) := by
  obtain ⟨d, h1, h2⟩ := clientDecode_spec now pool fuel io
  rw [hd] at h1
  injection h1 with h1
  subst h1
  cases h2 with
  | response a b' c d f =>
    have := a.unique hh
    subst this
    rename_i t
    have ht : t = rest := by rw [d] at hrest; exact List.append_cancel_left hrest
    subst ht
    cases f with
    | chunked f => cases hl
    | bare f =>
      injection hl with hl
      subst hl
      obtain ⟨F, rfl⟩ : ∃ F', F = F' + 1 := ⟨F - 1, by omega⟩
      unfold MsgBody.intoBytesWithTrailer
      rw [intoBytes_ret (readToEnd_empty F 1024)]
      rfl
    | fixed f1 f =>
      injection hl with hl
      subst hl
      rename_i n _ _
      obtain ⟨t', x, g1, g2⟩ := f.fixed_end hg F 1024
      have : x = .eof (t.take n) := by
        cases x with
        | running => dsimp only at g2; omega
        | err e => dsimp only at g2; omega
        | eof bs => rw [g2.1]
      subst this
      cases f with
      | fixed a b c =>
        unfold MsgBody.intoBytesWithTrailer
        rw [intoBytes_ret (by
          show readToEnd grow F (ReplyBody.stream _) _ = _
          rw [readToEnd_lift ReplyBody.stream (fun a k => rfl), g1]; rfl)]
        rfl

/-- **C57**, what can be said about all chunked request bodies: when `into_bytes_with_trailer` completes, then a complete chunked body has arrived, and payload and trailers are its payload and its trailer fields. -/
theorem C57_sound {grow : Nat → Nat → Nat} (hg : GrowOk grow) {env : Env} {opts : ServerOpts} {fuel n : Nat} (hp : (env.pool n).Ok) {c : Conn ρ} {req : Request ρ}
    (hr : Receives env opts fuel n c req) {h : Bytes} (hh : FirstHead (rem c.rd) h) {kept : Bool} {F : Nat} {bs : Bytes} {tr : Option HeaderMap}
    (hx : req.toBody.intoBytesWithTrailer grow F kept = .ret (.ok bs tr)) :
    req.length = none ∧ ∃ b fs m, b <+: (rem c.rd).drop h.length ∧ Body b bs fs ∧ tr = some m ∧ MapOf m fs := by
  have hb := hr.body hh
  unfold MsgBody.intoBytesWithTrailer at hx
  cases hl : req.length with
  | some k =>
    rw [hl] at hb
    obtain ⟨t, x, h1, h2⟩ := hb.fixed_end hg F 1024
    rw [intoBytes_ret (b := req.toBody) (by rw [toBody_reader]; exact h1), toBody_fixed hb hl] at hx
    cases x <;> cases hx
  | none =>
    rw [hl] at hb
    obtain ⟨t, x, h1, h2, -⟩ := hb.chunked_end hg F 1024 hp
    rw [intoBytes_ret (b := req.toBody) (by rw [toBody_reader]; exact h1), toBody_chunked hb] at hx
    cases x with
    | running => cases hx
    | err e => cases hx
    | eof y =>
      simp only [Run.ret_bind, BodyRes.ofBytes, MsgBody.thenTrailers, MsgBody.recvTrailers] at hx
      have e1 : Announces.sent (ReqBody.chunked t) = Announces.sent t := rfl
      have e2 : Announces.holds (ReqBody.chunked t) = Announces.holds t := rfl
      rw [e1, e2] at hx
      rcases h2 y rfl with ⟨i1, i2⟩ | ⟨b, fs, mp, i1, i2, -, i3, i4⟩
      · rw [i1, i2] at hx
        cases hx
      · rw [i3] at hx
        simp only [Run.ret.injEq, TrailerRes.ok.injEq] at hx
        obtain ⟨rfl, rfl⟩ := hx
        exact ⟨rfl, b, fs, mp, i1, i2, rfl, i4⟩

/-- C57 is false of the code: for a chunked body of which the peer has sent only a part (or which is malformed), `into_bytes_with_trailer` never completes with a result. -/
theorem C57_refuted_truncated {grow : Nat → Nat → Nat} (hg : GrowOk grow) {env : Env} {opts : ServerOpts} {fuel n : Nat} (hp : (env.pool n).Ok) {c : Conn ρ} {req : Request ρ}
    (hr : Receives env opts fuel n c req) {h : Bytes} (hh : FirstHead (rem c.rd) h) (ht : ∀ b p fs, Body b p fs → ¬ b <+: (rem c.rd).drop h.length)
    (kept : Bool) (F : Nat) (bs : Bytes) (tr : Option HeaderMap) : req.toBody.intoBytesWithTrailer grow F kept ≠ .ret (.ok bs tr) := by
  intro hx
  obtain ⟨-, b, fs, m, h1, h2, -⟩ := C57_sound hg hp hr hh hx
  exact ht b bs fs h2 h1

/-- **C57**, for complete chunked request bodies whose framing takes at most 4096 bytes, with at most 16 trailer fields: `into_bytes_with_trailer` completes, with payload and trailers, whatever
follows.  Missing: bodies with more framing (see C13), and bodies that are not chunked. -/
theorem C57_chunked_partial {grow : Nat → Nat → Nat} (hg : GrowOk grow) {env : Env} {opts : ServerOpts} {fuel n : Nat} (hp : (env.pool n).Ok) {c : Conn ρ} {req : Request ρ}
    (hr : Receives env opts fuel n c req) {h : Bytes} (hh : FirstHead (rem c.rd) h) (hl : req.length = none)
    {b x p : Bytes} {fs : List (Bytes × Bytes)} (hb : Roomy b p fs) (hn : fs.length ≤ 16) (hs : (rem c.rd).drop h.length = b ++ x)
    (kept : Bool) {F : Nat} (hF : p.length + (meas c.rd + c.wr.script.length) < F) :
    ∃ m, req.toBody.intoBytesWithTrailer grow F kept = .ret (.ok p (some m)) ∧ MapOf m fs := by
  have ha := hr.body hh
  rw [hl] at ha
  obtain ⟨t, y, h1, -, h2⟩ := ha.chunked_end hg F 1024 hp
  obtain ⟨rfl, m, i1, i2⟩ := h2 b x p fs hb hn hs hF
  refine ⟨m, ?_, i2⟩
  unfold MsgBody.intoBytesWithTrailer
  rw [intoBytes_ret (b := req.toBody) (by rw [toBody_reader]; exact h1), toBody_chunked ha]
  have e1 : Announces.sent (ReqBody.chunked t) = Announces.sent t := rfl
  simp only [Run.ret_bind, BodyRes.ofBytes, MsgBody.thenTrailers, MsgBody.recvTrailers, e1, i1]

/-- The same for `into_string_with_trailer`, if the payload is UTF-8; otherwise it fails. -/
theorem C57_chunked_text_partial {grow : Nat → Nat → Nat} (hg : GrowOk grow) {env : Env} {opts : ServerOpts} {fuel n : Nat} (hp : (env.pool n).Ok) {c : Conn ρ} {req : Request ρ}
    (hr : Receives env opts fuel n c req) {h : Bytes} (hh : FirstHead (rem c.rd) h) (hl : req.length = none)
    {b x p : Bytes} {fs : List (Bytes × Bytes)} (hb : Roomy b p fs) (hn : fs.length ≤ 16) (hs : (rem c.rd).drop h.length = b ++ x)
    (kept : Bool) {F : Nat} (hF : p.length + (meas c.rd + c.wr.script.length) < F) :
    (IsUtf8 p → ∃ m, req.toBody.intoStringWithTrailer grow F kept = .ret (.ok p (some m)) ∧ MapOf m fs) ∧
      (¬ IsUtf8 p → req.toBody.intoStringWithTrailer grow F kept = .ret (.conversion .notUtf8)) := by
  have ha := hr.body hh
  rw [hl] at ha
  obtain ⟨t, y, h1, -, h2⟩ := ha.chunked_end hg F 0 hp
  obtain ⟨rfl, m, i1, i2⟩ := h2 b x p fs hb hn hs hF
  have hlen : req.toBody.length = none := by rw [toBody_chunked ha]
  have key := intoString_ret (grow := grow) (fuel := F) (b := req.toBody) (by rw [hlen]; exact Nat.zero_le _) (by rw [toBody_reader, hlen]; exact h1)
  unfold MsgBody.intoStringWithTrailer
  rw [key, toBody_chunked ha]
  have e1 : Announces.sent (ReqBody.chunked t) = Announces.sent t := rfl
  constructor
  · intro hu
    refine ⟨m, ?_, i2⟩
    simp only [Run.ret_bind, BodyRes.ofText, if_pos ((utf8Valid_iff _).2 hu), MsgBody.thenTrailers, MsgBody.recvTrailers, e1, i1]
  · intro hu
    simp only [Run.ret_bind, BodyRes.ofText, if_neg (fun h => hu ((utf8Valid_iff _).1 h)), MsgBody.thenTrailers]

/-- **C57**, for bodies of declared length that have arrived completely, if the application first takes the sender of trailers out of the body: `into_bytes_with_trailer` completes, with the body and
without trailers, if the application has dropped that sender, and waits as long as the application keeps it.  Missing: applications that do not take it out (`C57_refuted_fixed`). -/
theorem C57_taken_partial {grow : Nat → Nat → Nat} (hg : GrowOk grow) {env : Env} {opts : ServerOpts} {fuel n : Nat} {c : Conn ρ} {req : Request ρ}
    (hr : Receives env opts fuel n c req) {h : Bytes} (hh : FirstHead (rem c.rd) h) {k : Nat} (hl : req.length = some k) (hk : k ≤ ((rem c.rd).drop h.length).length)
    {F : Nat} (hF : k + (meas c.rd + c.wr.script.length) < F) :
    ∃ b, req.toBody.sendTrailers = .ret b ∧
      b.intoBytesWithTrailer grow F false = .ret (.ok (((rem c.rd).drop h.length).take k) none) ∧
      b.intoBytesWithTrailer grow F true = .ret (.waiting (((rem c.rd).drop h.length).take k)) := by
  have hb := hr.body hh
  rw [hl] at hb
  obtain ⟨t, x, h1, h2⟩ := hb.fixed_end hg F 1024
  have : x = .eof (((rem c.rd).drop h.length).take k) := by
    cases x with
    | running => dsimp only at h2; omega
    | err e => dsimp only at h2; omega
    | eof bs => rw [h2.1]
  subst this
  refine ⟨⟨req.body, some k, false⟩, by rw [toBody_fixed hb hl]; rfl, ?_, ?_⟩
  · unfold MsgBody.intoBytesWithTrailer
    rw [intoBytes_ret (b := ⟨req.body, some k, false⟩) h1]
    rfl
  · unfold MsgBody.intoBytesWithTrailer
    rw [intoBytes_ret (b := ⟨req.body, some k, false⟩) h1]
    rfl

/-- The same for `into_string_with_trailer`, if the body is UTF-8 and not longer than a `String` can be. -/
theorem C57_taken_text_partial {grow : Nat → Nat → Nat} (hg : GrowOk grow) {env : Env} {opts : ServerOpts} {fuel n : Nat} {c : Conn ρ} {req : Request ρ}
    (hr : Receives env opts fuel n c req) {h : Bytes} (hh : FirstHead (rem c.rd) h) {k : Nat} (hl : req.length = some k) (hk : k ≤ ((rem c.rd).drop h.length).length)
    (hi : k ≤ isizeMax) (hu : IsUtf8 (((rem c.rd).drop h.length).take k))
    {F : Nat} (hF : k + (meas c.rd + c.wr.script.length) < F) :
    ∃ b, req.toBody.sendTrailers = .ret b ∧
      b.intoStringWithTrailer grow F false = .ret (.ok (((rem c.rd).drop h.length).take k) none) ∧
      b.intoStringWithTrailer grow F true = .ret (.waiting (((rem c.rd).drop h.length).take k)) := by
  have hb := hr.body hh
  rw [hl] at hb
  obtain ⟨t, x, h1, h2⟩ := hb.fixed_end hg F k
  have : x = .eof (((rem c.rd).drop h.length).take k) := by
    cases x with
    | running => dsimp only at h2; omega
    | err e => dsimp only at h2; omega
    | eof bs => rw [h2.1]
  subst this
  refine ⟨⟨req.body, some k, false⟩, by rw [toBody_fixed hb hl]; rfl, ?_, ?_⟩
  · unfold MsgBody.intoStringWithTrailer
    rw [intoString_ret (b := ⟨req.body, some k, false⟩) hi h1]
    simp only [Run.ret_bind, BodyRes.ofText, if_pos ((utf8Valid_iff _).2 hu)]
    rfl
  · unfold MsgBody.intoStringWithTrailer
    rw [intoString_ret (b := ⟨req.body, some k, false⟩) hi h1]
    simp only [Run.ret_bind, BodyRes.ofText, if_pos ((utf8Valid_iff _).2 hu)]
    rfl

/-! ## C66 -/

/-- C66 is false of the code: `into_string` and `into_string_with_trailer` panic for every request that declares a body of more than `isize::MAX` bytes, at once. -/
theorem C66_refuted {grow : Nat → Nat → Nat} {env : Env} {opts : ServerOpts} {fuel n : Nat} {c : Conn ρ} {req : Request ρ}
    (hr : Receives env opts fuel n c req) {h : Bytes} (hh : FirstHead (rem c.rd) h) {k : Nat} (hl : req.length = some k) (hk : isizeMax < k) (kept : Bool) (F : Nat) :
    req.toBody.intoString grow F = .panic ∧ req.toBody.intoStringWithTrailer grow F kept = .panic := by
  have hb := hr.body hh
  rw [hl] at hb
  have hlen : req.toBody.length = some k := by rw [toBody_fixed hb hl]
  have := intoString_panic (grow := grow) (fuel := F) (b := req.toBody) (by rw [hlen]; exact hk)
  exact ⟨this, by unfold MsgBody.intoStringWithTrailer; rw [this]; rfl⟩

/-- **C66**, what holds: `into_bytes` and `into_bytes_with_trailer` do not panic, whatever the peer sends; `into_string` does not if the declared length is at most `isize::MAX`, or there is none. -/
theorem C66_no_panic_partial {grow : Nat → Nat → Nat} (hg : GrowOk grow) {env : Env} {opts : ServerOpts} {fuel n : Nat} (hp : (env.pool n).Ok) {c : Conn ρ} {req : Request ρ}
    (hr : Receives env opts fuel n c req) {h : Bytes} (hh : FirstHead (rem c.rd) h) (kept : Bool) (F : Nat) :
    (∃ x, req.toBody.intoBytes grow F = .ret x) ∧ (∃ x, req.toBody.intoBytesWithTrailer grow F kept = .ret x) ∧
      (req.length.getD 0 ≤ isizeMax → (∃ x, req.toBody.intoString grow F = .ret x) ∧ ∃ x, req.toBody.intoStringWithTrailer grow F kept = .ret x) := by
  have hb := hr.body hh
  have htot : ∀ cap, ∃ x, readToEnd grow F req.body (ToEnd.new cap) = .ret x := by
    intro cap
    cases hl : req.length with
    | some k =>
      rw [hl] at hb
      obtain ⟨t, x, h1, -⟩ := hb.fixed_end hg F cap
      exact ⟨_, h1⟩
    | none =>
      rw [hl] at hb
      obtain ⟨t, x, h1, -⟩ := hb.chunked_end hg F cap hp
      exact ⟨_, h1⟩
  have hlen : req.toBody.length = req.length := by
    cases hl : req.length with
    | some k => rw [hl] at hb; rw [toBody_fixed hb hl]
    | none => rw [hl] at hb; rw [toBody_chunked hb]
  have h1 : ∃ x, req.toBody.intoBytes grow F = .ret x := by
    obtain ⟨⟨r, x⟩, h1⟩ := htot 1024
    exact ⟨_, intoBytes_ret (b := req.toBody) (by rw [toBody_reader]; exact h1)⟩
  refine ⟨h1, ?_, fun hi => ?_⟩
  · obtain ⟨x, h1⟩ := h1
    unfold MsgBody.intoBytesWithTrailer
    rw [h1]
    exact ⟨_, rfl⟩
  · obtain ⟨⟨r, x⟩, h2⟩ := htot (req.length.getD 0)
    have h3 := intoString_ret (b := req.toBody) (by rw [hlen]; exact hi) (by rw [toBody_reader, hlen]; exact h2)
    refine ⟨⟨_, h3⟩, ?_⟩
    unfold MsgBody.intoStringWithTrailer
    rw [h3]
    exact ⟨_, rfl⟩

/-- **C66** for the client: the same. -/
theorem C66_client_no_panic_partial {grow : Nat → Nat → Nat} (hg : GrowOk grow) {now : Bytes} {pool : Pool} (hp : pool.Ok) {io : ρ} {fuel : Nat} {res : ClientResponse ρ}
    (hd : ClientDecode.decode now pool fuel io = .ret (.done (.ok res))) (F : Nat) :
    (∃ x, res.toBody.intoBytes grow F = .ret x) ∧ (res.length.getD 0 ≤ isizeMax → ∃ x, res.toBody.intoString grow F = .ret x) := by
  obtain ⟨d, h1, h2⟩ := clientDecode_spec now pool fuel io
  rw [hd] at h1
  injection h1 with h1
  subst h1
  have key : res.toBody.length = res.length ∧ ∀ cap, ∃ x, readToEnd grow F res.body (ToEnd.new cap) = .ret x := by
    cases h2 with
    | response a b' c d f =>
      cases f with
      | fixed f1 f =>
        refine ⟨by cases f; rfl, fun cap => ?_⟩
        obtain ⟨t, x, h1, -⟩ := f.fixed_end hg F cap
        exact ⟨_, by rw [readToEnd_lift ReplyBody.stream (fun a k => rfl), h1]; rfl⟩
      | bare f =>
        refine ⟨rfl, fun cap => ?_⟩
        cases F with
        | zero => exact ⟨_, rfl⟩
        | succ F => exact ⟨_, readToEnd_empty F cap⟩
      | chunked f =>
        refine ⟨by cases f; rfl, fun cap => ?_⟩
        obtain ⟨t, x, h1, -⟩ := f.chunked_end hg F cap hp
        exact ⟨_, by rw [readToEnd_lift ReplyBody.stream (fun a k => rfl), h1]; rfl⟩
  obtain ⟨hlen, htot⟩ := key
  constructor
  · obtain ⟨⟨r, x⟩, h1⟩ := htot 1024
    exact ⟨_, intoBytes_ret (b := res.toBody) (by rw [clientToBody_reader]; exact h1)⟩
  · intro hi
    obtain ⟨⟨r, x⟩, h1⟩ := htot (res.length.getD 0)
    exact ⟨_, intoString_ret (b := res.toBody) (by rw [hlen]; exact hi) (by rw [clientToBody_reader, hlen]; exact h1)⟩

end

/-! ## Examples for C57 and C66 -/

/-- What becomes of the trailers of the first request on a connection. -/
def trailersOn (c : Conn Script) (conv : MsgBody (ReqBody Script) → Run α) : Run (Option Nat × α) := do
  let (_, _, a) ← awaitDecode demoEnv plainOpts 1000 zeroPool 1000 (DecFut.start c.rd) c.wr c.clock
  match a with
  | .ready (.request req) => do
    let x ← conv req.toBody
    .ret (req.length, x)
  | _ => .panic

theorem trailersOn_ret {α : Type} {c : Conn Script} {conv : MsgBody (ReqBody Script) → Run α} {len : Option Nat} {x : α} (h : trailersOn c conv = .ret (len, x)) :
    ∃ req, Receives demoEnv plainOpts 1000 0 c req ∧ req.length = len ∧ conv req.toBody = .ret x := by
  unfold trailersOn at h
  obtain ⟨⟨w, clock, a⟩, h1, h2⟩ := Run.bind_eq_ret.1 h
  dsimp only at h2
  split at h2
  · obtain ⟨y, h3, h4⟩ := Run.bind_eq_ret.1 h2
    simp only [Run.ret.injEq, Prod.mk.injEq] at h4
    obtain ⟨rfl, rfl⟩ := h4
    exact ⟨_, ⟨w, clock, h1⟩, rfl, h3⟩
  · cases h2

def fixedPost : Bytes := ascii "POST /c HTTP/1.1\r\nHost: x\r\nContent-Length: 3\r\n\r\n"
def hugePost : Bytes := ascii "POST /c HTTP/1.1\r\nHost: x\r\nContent-Length: 9223372036854775808\r\n\r\n"

def fixedConn : Conn Script := connOf [fixedPost, ascii "ab", ascii "c"]
def trailerConn : Conn Script := connOf [chunkedPost ++ ascii "3\r\nabc\r\n2\r", ascii "\nde\r\n0\r\nX: y\r\n\r\n"]
def cutConn : Conn Script := connOf [chunkedPost ++ ascii "3\r\nabc\r\n2\r"]
def hugeConn : Conn Script := connOf [hugePost]

theorem fixed_first : FirstHead (rem fixedConn.rd) fixedPost := by
  show FirstHead (Script.bytes fixedConn.rd) fixedPost
  decide +kernel

theorem trailer_first : FirstHead (rem trailerConn.rd) chunkedPost := by
  show FirstHead (Script.bytes trailerConn.rd) chunkedPost
  decide +kernel

theorem cut_first : FirstHead (rem cutConn.rd) chunkedPost := by
  show FirstHead (Script.bytes cutConn.rd) chunkedPost
  decide +kernel

theorem huge_first : FirstHead (rem hugeConn.rd) hugePost := by
  show FirstHead (Script.bytes hugeConn.rd) hugePost
  decide +kernel

/-- A request with three bytes: waits for ever. -/
example : ∃ req, Receives demoEnv plainOpts 1000 0 fixedConn req ∧ req.length = some 3 ∧
    ∀ F, 20 ≤ F → req.toBody.intoBytesWithTrailer doubling F false = .ret (.waiting (ascii "abc")) := by
  obtain ⟨req, h1, h2, h3⟩ := trailersOn_ret (c := fixedConn) (conv := fun _ => .ret ()) (len := some 3) (x := ()) (by decide +kernel)
  refine ⟨req, h1, h2, fun F hF => ?_⟩
  have hm : meas fixedConn.rd + fixedConn.wr.script.length < 17 := by
    show Script.pendings fixedConn.rd + _ < 17
    decide +kernel
  exact C57_refuted_fixed doubling_ok h1 fixed_first h2 (by show 3 ≤ ((Script.bytes fixedConn.rd).drop fixedPost.length).length; decide +kernel) false (by omega)

/-- The same request, if the application takes the sender out first: it completes once the sender is dropped. -/
example : ∃ req b, Receives demoEnv plainOpts 1000 0 fixedConn req ∧ req.toBody.sendTrailers = .ret b ∧
    ∀ F, 20 ≤ F → ∃ b, req.toBody.sendTrailers = .ret b ∧ b.intoBytesWithTrailer doubling F false = .ret (.ok (ascii "abc") none) := by
  obtain ⟨req, h1, h2, h3⟩ := trailersOn_ret (c := fixedConn) (conv := fun _ => .ret ()) (len := some 3) (x := ()) (by decide +kernel)
  have hm : meas fixedConn.rd + fixedConn.wr.script.length < 17 := by
    show Script.pendings fixedConn.rd + _ < 17
    decide +kernel
  have key := fun F (hF : 20 ≤ F) => C57_taken_partial doubling_ok h1 fixed_first h2 (F := F) (by show 3 ≤ ((Script.bytes fixedConn.rd).drop fixedPost.length).length; decide +kernel) (by omega)
  obtain ⟨b, hb, -⟩ := key 20 (Nat.le_refl _)
  exact ⟨req, b, h1, hb, fun F hF => let ⟨b, h, h', _⟩ := key F hF; ⟨b, h, h'⟩⟩

/-- A chunked request with a trailer completes. -/
example : ∃ req, Receives demoEnv plainOpts 1000 0 trailerConn req ∧ req.length = none ∧
    req.toBody.intoBytesWithTrailer doubling 20 false = .ret (.ok (ascii "abcde") (some [(ascii "x", [ascii "y"])])) :=
  trailersOn_ret (c := trailerConn) (conv := fun b => b.intoBytesWithTrailer doubling 20 false) (by decide +kernel)

/-- A chunked request that is cut short waits for ever. -/
theorem C57_refuted_cut : ∃ req, Receives demoEnv plainOpts 1000 0 cutConn req ∧ req.length = none ∧
    ∀ F, 20 ≤ F → req.toBody.intoBytesWithTrailer doubling F false = .ret (.waiting (ascii "abc")) := by
  obtain ⟨req, h1, h2, h3⟩ := trailersOn_ret (c := cutConn) (conv := fun b => b.intoBytesWithTrailer doubling 20 false) (len := none) (x := .waiting (ascii "abc")) (by decide +kernel)
  refine ⟨req, h1, h2, fun F hF => ?_⟩
  unfold MsgBody.intoBytesWithTrailer MsgBody.intoBytes at h3 ⊢
  obtain ⟨⟨r, x⟩, h3, h4⟩ := Run.bind_eq_ret.1 h3
  obtain ⟨⟨r', x'⟩, h5, h6⟩ := Run.bind_eq_ret.1 h3
  have hne : x' ≠ .running := by
    rintro rfl
    simp only [Run.ret.injEq, Prod.mk.injEq] at h6
    obtain ⟨-, rfl⟩ := h6
    cases h4
  obtain ⟨F', rfl⟩ : ∃ F', F = 20 + F' := ⟨F - 20, by omega⟩
  rw [readToEnd_more hne F' 20 h5]
  simp only [Run.ret_bind] at h6 ⊢
  simp only [Run.ret.injEq, Prod.mk.injEq] at h6
  obtain ⟨rfl, rfl⟩ := h6
  exact h4

theorem fieldSection_length {t : Bytes} {fs : List (Bytes × Bytes)} (h : FieldSection t fs) : fs.length ≤ t.length := by
  induction h with
  | blank => exact Nat.zero_le _
  | field h _ ih =>
    obtain ⟨ws, e, rfl, _⟩ := h
    simp only [List.length_append, List.length_cons]
    omega

/-- The hypothesis of `C57_refuted_truncated`: what has arrived here does not begin with a complete chunked body. -/
theorem cut_noBody : ∀ b p fs, Body b p fs → ¬ b <+: (rem cutConn.rd).drop chunkedPost.length := by
  intro b p fs hb hp
  obtain ⟨req, h1, h2, h3⟩ := C57_refuted_cut
  obtain ⟨x, hx⟩ := hp
  have hs : ((rem cutConn.rd).drop chunkedPost.length).length = 10 := by
    show ((Script.bytes cutConn.rd).drop chunkedPost.length).length = 10
    decide +kernel
  have hlen : b.length ≤ 10 := by rw [← hx] at hs; simp at hs; omega
  have hn : fs.length ≤ 10 := by
    obtain ⟨w, l, t, rfl, -, -, h⟩ := hb
    have := fieldSection_length h
    simp only [List.length_append] at hlen
    omega
  obtain ⟨m, h4, -⟩ := C57_chunked_partial doubling_ok (show (demoEnv.pool 0).Ok from zeroPool_ok) h1 cut_first h2 (roomy_of_length hb (by omega)) (by omega) hx.symm false
    (F := 20 + (p.length + (meas cutConn.rd + cutConn.wr.script.length) + 1)) (by omega)
  rw [h3 _ (by omega)] at h4
  cases h4

/-- A request that declares 2^63 bytes: `into_string` panics. -/
example : ∃ req, Receives demoEnv plainOpts 1000 0 hugeConn req ∧ req.length = some (2 ^ 63) ∧ ∀ F, req.toBody.intoString doubling F = .panic := by
  obtain ⟨req, h1, h2, h3⟩ := trailersOn_ret (c := hugeConn) (conv := fun _ => .ret ()) (len := some (2 ^ 63)) (x := ()) (by decide +kernel)
  exact ⟨req, h1, h2, fun F => (C66_refuted h1 huge_first h2 (by decide) false F).1⟩

/-- The limits, written out. -/
example : isizeMax = 9223372036854775807 ∧ usizeLimit = 18446744073709551616 := by decide

end Tophat
