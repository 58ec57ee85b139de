import Verif.Proofs.Gateway
/-!
# Property C79: passing on a response

`gateway env now fuel fuel' n req io up w` is an endpoint that sends the request `req` to another server (`up`, `io` are the two halves of the connection to it) and answers with the response that it gets, on the connection `w`.
`rem io` are all the bytes that the other server sends, `fin io` is how that connection ends.
-/

set_option linter.unusedSectionVars false
set_option synthInstance.maxSize 1000

namespace Tophat
open Spec

section
variable {ρ : Type} [AsyncRead ρ] [LawfulRead ρ] {σ : Type} [AsyncRead σ]

/-- What the gateway does with a response: it is the one that `decode` returns. -/
theorem gateway_sent {env : Env} {now : Bytes} {fuel fuel' n : Nat} {req : ClientRequest σ} {io : ρ} {up up' w w' : Writer} {r : CopyRes}
    (h : gateway env now fuel fuel' n req io up w = .ret (up', w', .sent r)) :
    ∃ res, ClientDecode.decode now (env.pool n) fuel io = .ret (.done (.ok res)) ∧ forward env fuel' n res w = .ret (w', r) := by
  unfold gateway at h
  obtain ⟨⟨up1, x⟩, h1, h2⟩ := Run.bind_eq_ret.1 h
  cases x with
  | writing => cases h2
  | reading => cases h2
  | done x =>
    cases x with
    | err e => cases h2
    | ok res =>
      dsimp only at h2
      obtain ⟨⟨w1, r1⟩, h3, h4⟩ := Run.bind_eq_ret.1 h2
      simp only [Run.ret.injEq, Prod.mk.injEq, GatewayRes.sent.injEq] at h4
      obtain ⟨_, rfl, rfl⟩ := h4
      refine ⟨res, ?_, h3⟩
      unfold connect at h1
      obtain ⟨⟨up2, y⟩, h5, h6⟩ := Run.bind_eq_ret.1 h1
      cases y with
      | writing => cases h6
      | failed e => cases h6
      | sent =>
        dsimp only at h6
        obtain ⟨d, h7, h8⟩ := Run.bind_eq_ret.1 h6
        cases d with
        | running => cases h8
        | done x =>
          simp only [Run.ret.injEq, Prod.mk.injEq, ConnectRes.done.injEq] at h8
          rw [h7, h8.2]

theorem forward_spec {env : Env} (hx : HexLenOk env.hexLen) {pool : Pool} (hp : pool.Ok) {now s : Bytes} {e : Option IoErr} {m : Nat} {v : Reply} {res : ClientResponse ρ}
    (ho : ResponseOk now pool s e m v res) (hlim : ∀ k, res.length = some k → 8192 + k < usizeLimit) {fuel n : Nat} {w w' : Writer} {r : CopyRes} (h : forward env fuel n res w = .ret (w', r)) :
    ∃ a sent used q, PassedAs now v a res.length ∧ Relayed env n a s res.length w w' r sent used q := by
  cases ho with
  | @fixed code fs k hs b hm hb =>
    unfold forward at h
    obtain ⟨⟨io, w1, r1⟩, h1, h2⟩ := Run.bind_eq_ret.1 h
    simp only [Run.ret.injEq, Prod.mk.injEq] at h2
    obtain ⟨rfl, rfl⟩ := h2
    obtain ⟨sent, used, q, hr⟩ := passOn_spec hx hp (a := (code, hs)) hm.1 hb hlim fuel n w h1
    exact ⟨(code, hs), sent, used, q, .fixed hm, hr⟩
  | chunked hb =>
    unfold forward at h
    obtain ⟨⟨io, w1, r1⟩, h1, h2⟩ := Run.bind_eq_ret.1 h
    simp only [Run.ret.injEq, Prod.mk.injEq] at h2
    obtain ⟨rfl, rfl⟩ := h2
    obtain ⟨sent, used, q, hr⟩ := passOn_spec hx hp (a := (200, [])) HeaderMap.wf_nil hb hlim fuel n w h1
    exact ⟨(200, []), sent, used, q, .chunked, hr⟩
  | @bare code fs hs hm =>
    unfold forward at h
    dsimp only at h
    rcases sendFully_memory hx (resp := ⟨code, hs, .http11, (⟨[]⟩ : Cursor), some 0⟩) ⟨hm.1, rfl, show 8192 + 0 < usizeLimit by decide⟩ fuel n w with ⟨k, _⟩ | ⟨w1, r1, k1, k2, k3, k4, k5⟩
    · rw [k] at h; cases h
    · rw [k1] at h
      simp only [Run.ret.injEq, Prod.mk.injEq] at h
      obtain ⟨rfl, rfl⟩ := h
      obtain ⟨d1, d2, d3, d4⟩ := k2
      rename_i sent used
      have e1 : wireOf (⟨code, hs, .http11, (⟨[]⟩ : Cursor), some 0⟩) (env.now n) = responseHead .http11 code hs (some 0) (env.now n) := by
        unfold wireOf; simp [headOf]
      rw [e1] at d2 d4 k4
      refine ⟨(code, hs), sent, used, [], .bare hm, k3, d1, d3, rfl, ?_, ⟨_, rfl, by simpa [relayHead] using d2⟩, ?_, ?_⟩
      · intro p hp
        exact (List.eq_nil_of_length_eq_zero hp.1).symm
      · intro amt hr
        have := k4 amt hr
        rw [d1] at this
        have := List.append_cancel_left this
        show sent = _ ++ _
        rw [this]; simp [relayHead]
      · intro x p hr _ hw
        obtain ⟨a, ha⟩ := k5 hw
        rw [hr] at ha; cases ha

/-- **C79**: nothing else is passed on.  If the endpoint has got a response and sends it, then all that it writes is the beginning of one response, whose body is a part of the body of the received one, and whose
status and header fields are those received (and a date), unless the response is chunked: then they are lost (`PassedAs`, `C79_refuted_chunked`).  If `send` reports success, that one response is written completely. -/
theorem C79_nothing_else {env : Env} (hx : HexLenOk env.hexLen) {now : Bytes} {fuel fuel' n : Nat} (hp : (env.pool n).Ok) {req : ClientRequest σ} {io : ρ} {up up' w w' : Writer} {r : CopyRes}
    (h : gateway env now fuel fuel' n req io up w = .ret (up', w', .sent r)) (hlim : ∀ hd code fs k, FirstReply (rem io) hd → ReplyTo hd (.fixed code fs k) → 8192 + k < usizeLimit) :
    ∃ hd s v a q sent msg, FirstReply (rem io) hd ∧ rem io = hd ++ s ∧ ReplyTo hd v ∧ PassedAs now v a v.length ∧ PartOfBody s v.length q ∧
      IsResponse (responseHead .http11 a.1 a.2 v.length (env.now n)) v.length q msg ∧ w'.got = w.got ++ sent ∧ sent <+: msg ∧ (∀ amt, r = .ok amt → sent = msg) ∧
      (∀ p, WholeBody s v.length p → q = p ∧ (w.Reliable → ∃ amt, r = .ok amt)) := by
  obtain ⟨res, h1, h2⟩ := gateway_sent h
  obtain ⟨d, k1, k2⟩ := clientDecode_spec now (env.pool n) fuel io
  rw [h1] at k1
  injection k1 with k1
  subst k1
  cases k2 with
  | @response hd v t res a1 a2 a3 a4 a5 =>
    have hl : res.length = v.length := by cases a5 <;> rfl
    obtain ⟨a, sent, used, q, b1, b2⟩ := forward_spec hx hp a5 (fun k hk => by
      cases a5 with
      | fixed => injection hk with hk; subst hk; exact hlim _ _ _ _ a1 a3
      | bare => injection hk with hk; subst hk; decide
      | chunked => cases hk) h2
    rw [hl] at b1 b2
    have hok : ∀ p, WholeBody t v.length p → q = p ∧ (w.Reliable → ∃ amt, r = .ok amt) := by
      intro p hp
      refine ⟨b2.whole p hp, fun hw => ?_⟩
      cases r with
      | ok amt => exact ⟨amt, rfl⟩
      | running => exact absurd rfl b2.ends
      | err x => exact absurd hw (b2.err x p rfl hp)
    by_cases hr : ∃ amt, r = .ok amt
    · obtain ⟨amt, hr⟩ := hr
      exact ⟨hd, t, v, a, q, sent, sent, a1, a4, a3, b1, b2.part, b2.ok amt hr, b2.got, List.prefix_refl _, fun _ _ => rfl, hok⟩
    · obtain ⟨msg, m1, m2⟩ := b2.message
      exact ⟨hd, t, v, a, q, sent, msg, a1, a4, a3, b1, b2.part, m1, b2.got, m2, fun amt ha => absurd ⟨amt, ha⟩ hr, hok⟩

/-- **C79**: if there is no response, nothing is passed on. -/
theorem C79_failed {env : Env} {now : Bytes} {fuel fuel' n : Nat} {req : ClientRequest σ} {io : ρ} {up up' w w' : Writer} {e : ClientErr}
    (h : gateway env now fuel fuel' n req io up w = .ret (up', w', .failed e)) : w' = w ∧ connect now (env.pool n) fuel fuel req io up = .ret (up', .done (.err e)) := by
  unfold gateway at h
  obtain ⟨⟨up1, x⟩, h1, h2⟩ := Run.bind_eq_ret.1 h
  cases x with
  | writing => cases h2
  | reading => cases h2
  | done x =>
    cases x with
    | err e =>
      simp only [Run.ret.injEq, Prod.mk.injEq, GatewayRes.failed.injEq] at h2
      obtain ⟨rfl, rfl, rfl⟩ := h2
      exact ⟨rfl, h1⟩
    | ok res =>
      dsimp only at h2
      obtain ⟨⟨w1, r1⟩, h3, h4⟩ := Run.bind_eq_ret.1 h2
      simp at h4

/-- **C79**, for responses that announce their length: the recipient gets the same status, the same header fields (apart from framing; a missing date and content type are filled in) and the same body, whatever follows it.
Missing: chunked responses, which lose status and fields (`C79_refuted_chunked`); responses that end with the connection, which lose their body (`C79_refuted_close`); and bodies that are cut off (`C79_refuted_spin`, `C79_refuted_cut`). -/
theorem C79_same_partial {env : Env} (hx : HexLenOk env.hexLen) {now : Bytes} (hn : ∀ b ∈ now, valueByte b) {fuel fuel' n : Nat} (hp : (env.pool n).Ok) (hn' : ∀ b ∈ env.now n, valueByte b)
    {req : ClientRequest σ} {io : ρ} {up up' w w' : Writer} {r : CopyRes} (h : gateway env now fuel fuel' n req io up w = .ret (up', w', .sent r)) (hw : w.Reliable)
    {m hd p : Bytes} {code k : Nat} {fs : List (Bytes × Bytes)} (hd1 : FirstReply (rem io) hd) (hd2 : HasReply hd 1 code fs) (hc : 100 ≤ code) (ha : Announced m code fs k)
    (hpk : p.length = k) (hpre : hd ++ p <+: rem io) (hlim : 8192 + k < usizeLimit) :
    ∃ amt msg fs', r = .ok amt ∧ w'.got = w.got ++ msg ∧ OneReply m msg code fs' p ∧ SameFields (trimmed now) fs fs' := by
  obtain ⟨h1, h2, h3⟩ := ha
  have hs : ¬ SaysChunked fs := by unfold SaysChunked; rw [h1]; simp
  have hamb : ¬ Ambiguous fs := fun a => a.2 h1
  have hv : ∃ v, ReplyTo hd v ∧ v.length = some k ∧ ∀ now a len, PassedAs now v a len → a.1 = code ∧ MapOf a.2 (withDate fs now) := by
    rcases h2 with ⟨v, i1, i2⟩ | ⟨i1, rfl⟩
    · exact ⟨_, .fixed hd2 hamb i1 i2 hc, rfl, fun _ _ _ a => by cases a; exact ⟨rfl, by assumption⟩⟩
    · exact ⟨_, .bare hd2 hs i1 hc, rfl, fun _ _ _ a => by cases a; exact ⟨rfl, by assumption⟩⟩
  obtain ⟨v, v1, v2, v3⟩ := hv
  obtain ⟨hd', s, v', a, q, sent, msg, a1, a2, a3, a4, a5, a6, a7, a8, a9, a10⟩ := C79_nothing_else hx hp h (by
    intro hd' code' fs' k' i1 i2
    have := hd1.unique i1
    subst this
    have := v1.unique i2
    subst this
    injection v2 with v2
    omega)
  have := hd1.unique a1
  subst this
  have := v1.unique a3
  subst this
  rw [v2] at a4 a5 a6 a10
  obtain ⟨b1, b2⟩ := v3 _ _ _ a4
  obtain ⟨c1, c2⟩ := a10 p ⟨hpk, by rw [a2] at hpre; exact (List.prefix_append_right_inj _).1 hpre⟩
  obtain ⟨amt, c3⟩ := c2 hw
  subst c1
  rw [a9 amt c3] at a7
  rw [b1] at a6
  have := oneReply_sent (m := m) hc hd2.code (valid_of_mapOf b2 (raw_withDate hd2.raw hn)) hn' (fun n hn => by injection hn with hn; omega) (fun h => by cases h) (fun hb => by rw [h3 hb]) a6
  rw [show sentBody (some k) q = q from List.take_of_length_le (by omega)] at this
  exact ⟨amt, msg, _, c3, a7, this, sameFields_seen hd2 hn b2 k⟩

/-- What becomes of `forward` if the whole body arrives: it comes to an end. -/
theorem forward_total {env : Env} (hx : HexLenOk env.hexLen) {pool : Pool} (hp : pool.Ok) {now s : Bytes} {e : Option IoErr} {m : Nat} {v : Reply} {res : ClientResponse ρ}
    (ho : ResponseOk now pool s e m v res) (hlim : ∀ k, res.length = some k → 8192 + k < usizeLimit) (n : Nat) (w : Writer) {p : Bytes} (hw : WholeBody s v.length p)
    (h03 : v = .chunked → p = [] → (responseHead .http11 200 [] none (env.now n)).length % 8192 ∉ [8188, 8189]) :
    ∃ N w' r, ∀ F, N ≤ F → forward env F n res w = .ret (w', r) := by
  cases ho with
  | @fixed code fs k hs b hm hb =>
    obtain ⟨N, io, w', r, h⟩ := passOn_total hx hp (a := (code, hs)) hm.1 (head := ⟨[], [], []⟩) hb hlim n w hw (fun h => by cases h)
    refine ⟨N, w', r, fun F hF => ?_⟩
    unfold forward
    have := (passOn_mono hF code hs ⟨⟨[], [], []⟩, b, some k⟩ w).ret h
    simp only [this, Run.ret_bind]
  | @chunked b hb =>
    obtain ⟨N, io, w', r, h⟩ := passOn_total hx hp (a := (200, [])) HeaderMap.wf_nil (head := ⟨[], [], []⟩) hb hlim n w hw (fun _ hp => h03 rfl hp)
    refine ⟨N, w', r, fun F hF => ?_⟩
    unfold forward
    have := (passOn_mono hF 200 [] ⟨⟨[], [], []⟩, b, none⟩ w).ret h
    simp only [this, Run.ret_bind]
  | @bare code fs hs hm =>
    have key := fun fuel => sendFully_memory hx (resp := ⟨code, hs, .http11, (⟨[]⟩ : Cursor), some 0⟩) ⟨hm.1, rfl, show 8192 + 0 < usizeLimit by decide⟩ fuel n w
    rcases key (sendBound ⟨code, hs, .http11, (⟨[]⟩ : Cursor), some 0⟩ (env.now n) w + 1) with ⟨_, k⟩ | ⟨w1, r1, k1, _⟩
    · omega
    · exact ⟨_, w1, r1, fun F hF => (sendFully_mono hF _ _).ret k1⟩

/-- **C79**, ends: if `connect` returns a response and its whole body arrives, then the endpoint comes to an end.  (If the body is chunked and empty, the length of the head is not one of those of C03.)
Missing: bodies that are cut off (`C79_refuted_spin`). -/
theorem C79_ends_partial {env : Env} (hx : HexLenOk env.hexLen) {now : Bytes} {fuel n : Nat} (hp : (env.pool n).Ok) {req : ClientRequest σ} {io : ρ} {up up' : Writer} {res : ClientResponse ρ}
    (h : connect now (env.pool n) fuel fuel req io up = .ret (up', .done (.ok res))) {hd s p : Bytes} {v : Reply} (hd1 : FirstReply (rem io) hd) (hd2 : ReplyTo hd v) (hs : rem io = hd ++ s)
    (hw : WholeBody s v.length p) (hlim : ∀ k, v.length = some k → 8192 + k < usizeLimit)
    (h03 : v = .chunked → p = [] → (responseHead .http11 200 [] none (env.now n)).length % 8192 ∉ [8188, 8189]) (w : Writer) :
    ∃ N w' r, ∀ F, N ≤ F → gateway env now fuel F n req io up w = .ret (up', w', .sent r) := by
  have h0 := h
  unfold connect at h
  obtain ⟨⟨up2, y⟩, h5, h6⟩ := Run.bind_eq_ret.1 h
  cases y with
  | writing => cases h6
  | failed e => simp at h6
  | sent =>
    dsimp only at h6
    obtain ⟨d, h7, h8⟩ := Run.bind_eq_ret.1 h6
    cases d with
    | running => simp at h8
    | done x =>
      simp only [Run.ret.injEq, Prod.mk.injEq, ConnectRes.done.injEq] at h8
      obtain ⟨rfl, rfl⟩ := h8
      obtain ⟨d, k1, k2⟩ := clientDecode_spec now (env.pool n) fuel io
      rw [h7] at k1
      injection k1 with k1
      subst k1
      cases k2 with
      | @response hd' v' t res a1 a2 a3 a4 a5 =>
        have := hd1.unique a1
        subst this
        have := hd2.unique a3
        subst this
        rw [hs] at a4
        have := List.append_cancel_left a4
        subst this
        have hl : res.length = v.length := by cases a5 <;> rfl
        obtain ⟨N, w', r, hN⟩ := forward_total hx hp a5 (by rw [hl]; exact hlim) n w hw h03
        refine ⟨N, w', r, fun F hF => ?_⟩
        unfold gateway
        rw [h0]
        simp only [Run.ret_bind, hN F hF]

/-- **C79 is false of the code** for every chunked response: whatever its status is and whatever fields it has, what is passed on is a response with status 200, without any of these fields.  The body is the same. -/
theorem C79_refuted_chunked {env : Env} (hx : HexLenOk env.hexLen) {now : Bytes} {fuel fuel' n : Nat} (hp : (env.pool n).Ok) (hn' : ∀ b ∈ env.now n, valueByte b)
    {req : ClientRequest σ} {io : ρ} {up up' w w' : Writer} {r : CopyRes} (h : gateway env now fuel fuel' n req io up w = .ret (up', w', .sent r)) (hw : w.Reliable)
    {m hd b p x : Bytes} {code : Nat} {fs ts : List (Bytes × Bytes)} (hd1 : FirstReply (rem io) hd) (hd2 : HasReply hd 1 code fs) (hc : SaysChunked fs) (ha : valuesOf (ascii "content-length") fs = [])
    (hm : m ≠ ascii "HEAD" ∧ m ≠ ascii "CONNECT") (hb : Roomy b p ts) (ht : ts.length ≤ 16) (hp64 : p.length < 2 ^ 64) (hr : rem io = hd ++ (b ++ x)) :
    ∃ amt msg, r = .ok amt ∧ w'.got = w.got ++ msg ∧
      OneReply m msg 200 [(ascii "transfer-encoding", ascii "chunked"), (ascii "date", trimmed (env.now n)), (ascii "content-type", ascii "application/octet-stream")] p := by
  have v1 : ReplyTo hd .chunked := .chunked hd2 (fun a => a.1 ha) hc
  obtain ⟨hd', s, v', a, q, sent, msg, a1, a2, a3, a4, a5, a6, a7, a8, a9, a10⟩ := C79_nothing_else hx hp h (by
    intro hd' code' fs' k' i1 i2
    have := hd1.unique i1
    subst this
    cases v1.unique i2)
  have := hd1.unique a1
  subst this
  have := v1.unique a3
  subst this
  cases a4
  rw [hr] at a2
  have := List.append_cancel_left a2
  subst this
  obtain ⟨rfl, c2⟩ := a10 p ⟨b, x, ts, hb, ht, rfl⟩
  obtain ⟨amt, c3⟩ := c2 hw
  rw [a9 amt c3] at a7
  have hbl : ¬ Bodiless m 200 := by
    rintro (h | h | h | h | h)
    · exact hm.1 h
    · exact absurd h (by decide)
    · cases h
    · cases h
    · exact hm.2 h.1
  refine ⟨amt, msg, c3, a7, ?_⟩
  exact oneReply_sent (m := m) (by decide) (by decide) ⟨(by intro f hf; cases hf), (by intro f hf; cases hf)⟩ hn' (fun n hn => by cases hn) (fun _ => hp64) (fun h => absurd h hbl) a6

/-- **C79 is false of the code** for every response that ends with the connection (neither Content-Length nor Transfer-Encoding): whatever its body is, what is passed on is a complete response with an empty body. -/
theorem C79_refuted_close {env : Env} (hx : HexLenOk env.hexLen) {now : Bytes} (hn : ∀ b ∈ now, valueByte b) {fuel fuel' n : Nat} (hp : (env.pool n).Ok) (hn' : ∀ b ∈ env.now n, valueByte b)
    {req : ClientRequest σ} {io : ρ} {up up' w w' : Writer} {r : CopyRes} (h : gateway env now fuel fuel' n req io up w = .ret (up', w', .sent r)) (hw : w.Reliable)
    {m hd : Bytes} {code : Nat} {fs : List (Bytes × Bytes)} (hd1 : FirstReply (rem io) hd) (hd2 : HasReply hd 1 code fs) (hc : 100 ≤ code)
    (h1 : valuesOf (ascii "transfer-encoding") fs = []) (h2 : valuesOf (ascii "content-length") fs = []) :
    ∃ amt msg fs', r = .ok amt ∧ w'.got = w.got ++ msg ∧ OneReply m msg code fs' [] :=
  let ⟨amt, msg, fs', i1, i2, i3, _⟩ := C79_same_partial hx hn hp hn' h hw hd1 hd2 hc ⟨h1, .inr ⟨h2, rfl⟩, fun _ => rfl⟩ (p := []) rfl (by simpa using hd1.1) (by decide)
  ⟨amt, msg, fs', i1, i2, i3⟩

/-- A response whose length is announced and whose body is cut off, by the end of the connection: the endpoint spins, forever. -/
theorem C79_spins {env : Env} {now : Bytes} {fuel n : Nat} {req : ClientRequest σ} {io : ρ} {up up' : Writer} {res : ClientResponse ρ}
    (h : connect now (env.pool n) fuel fuel req io up = .ret (up', .done (.ok res))) (hm : meas io = 0) (hf : fin io = none)
    {hd s : Bytes} {code k : Nat} {fs : List (Bytes × Bytes)} (hd1 : FirstReply (rem io) hd) (hd2 : ReplyTo hd (.fixed code fs k)) (hs : rem io = hd ++ s) (hk : s.length < k) (hlim : 8192 + k < usizeLimit)
    (hfit : (responseHead .http11 res.status res.headers (some k) (env.now n)).length + s.length < 8192) (w : Writer) (fuel' : Nat) :
    gateway env now fuel fuel' n req io up w = .diverge := by
  have h0 := h
  unfold connect at h
  obtain ⟨⟨up2, y⟩, h5, h6⟩ := Run.bind_eq_ret.1 h
  cases y with
  | writing => cases h6
  | failed e => simp at h6
  | sent =>
    dsimp only at h6
    obtain ⟨d, h7, h8⟩ := Run.bind_eq_ret.1 h6
    cases d with
    | running => simp at h8
    | done x =>
      simp only [Run.ret.injEq, Prod.mk.injEq, ConnectRes.done.injEq] at h8
      obtain ⟨rfl, rfl⟩ := h8
      obtain ⟨d, k1, k2⟩ := clientDecode_spec now (env.pool n) fuel io
      rw [h7] at k1
      injection k1 with k1
      subst k1
      cases k2 with
      | @response hd' v' t res a1 a2 a3 a4 a5 =>
        have := hd1.unique a1
        subst this
        have := hd2.unique a3
        subst this
        rw [hs] at a4
        have := List.append_cancel_left a4
        subst this
        cases a5 with
        | @fixed _ _ _ hs' b hm' hb =>
          rw [hm, hf] at hb
          have := passOn_spins (env := env) (a := (code, hs')) hm'.1 (head := ⟨[], [], []⟩) hb hlim hk (n := n) hfit fuel' w
          unfold gateway
          rw [h0]
          simp only [Run.ret_bind]
          unfold forward
          simp only [this]
          rfl

end

/-! ## Examples -/

/-- What the client of the endpoint gets, and what the endpoint reports. -/
def gatewaySeen (frags : List Bytes) (w : List WEv) : Run (Bytes × GatewayRes) := do
  let (_, w, x) ← gateway demoEnv (ascii "THEN") 1000 1000 0 demoRequest ((frags.map Ev.data) : Script) ⟨[], [], 0⟩ ⟨w, [], 0⟩
  .ret (w.got, x)

theorem gatewaySeen_ret {frags : List Bytes} {w : List WEv} {got : Bytes} {x : GatewayRes} (h : gatewaySeen frags w = .ret (got, x)) :
    ∃ up' w', gateway demoEnv (ascii "THEN") 1000 1000 0 demoRequest ((frags.map Ev.data) : Script) ⟨[], [], 0⟩ ⟨w, [], 0⟩ = .ret (up', w', x) ∧ w'.got = got := by
  unfold gatewaySeen at h
  obtain ⟨⟨up', w', x'⟩, h1, h2⟩ := Run.bind_eq_ret.1 h
  simp only [Run.ret.injEq, Prod.mk.injEq] at h2
  obtain ⟨rfl, rfl⟩ := h2
  exact ⟨up', w', h1, rfl⟩

/-- 404, with three bytes. -/
def missing : List Bytes := [ascii "HTTP/1.1 404 Not Found\r\nX-A: 1\r\nContent-Le", ascii "ngth: 3\r\nx-a: 2\r\n\r\nab", ascii "cHTTP"]

/-- The head of that. -/
def missingHead : Bytes := ascii "HTTP/1.1 404 Not Found\r\nX-A: 1\r\nContent-Length: 3\r\nx-a: 2\r\n\r\n"

/-- A response in three packets, to a client that takes it in pieces: the hypotheses of `C79_same_partial` are met, and this is what is observed. -/
example : (∃ up' w', gateway demoEnv (ascii "THEN") 1000 1000 0 demoRequest ((missing.map Ev.data) : Script) ⟨[], [], 0⟩ ⟨[.accept 10, .pending], [], 0⟩ = .ret (up', w', .sent (.ok 116)) ∧
      w'.got = ascii "HTTP/1.1 404 Not Found\r\ncontent-length: 3\r\nx-a: 1\r\nx-a: 2\r\ndate: THEN\r\ncontent-type: application/octet-stream\r\n\r\nabc") ∧
    FirstReply (rem (missing.map Ev.data : Script)) missingHead ∧ HasReply missingHead 1 404 [(ascii "X-A", ascii "1"), (ascii "Content-Length", ascii "3"), (ascii "x-a", ascii "2")] ∧
    Announced (ascii "GET") 404 [(ascii "X-A", ascii "1"), (ascii "Content-Length", ascii "3"), (ascii "x-a", ascii "2")] 3 ∧ missingHead ++ ascii "abc" <+: rem (missing.map Ev.data : Script) ∧
    (⟨[.accept 10, .pending], [], 0⟩ : Writer).Reliable := by
  refine ⟨gatewaySeen_ret (by decide +kernel), by show FirstReply (Script.bytes _) _; decide +kernel, hasReply_of (rest := []) (by decide +kernel), ⟨by decide, .inl ⟨ascii "3", by decide, (parseUsize_some _ _).1 (by decide +kernel)⟩, ?_⟩,
    by show _ <+: Script.bytes _; decide +kernel, ?_⟩
  · rintro (h | h | h | h | h)
    · exact absurd h (by decide)
    · exact absurd h (by decide)
    · cases h
    · cases h
    · exact absurd h.1 (by decide)
  · intro e he
    simp only [List.mem_cons, List.not_mem_nil, or_false] at he
    rcases he with rfl | rfl <;> exact ⟨by decide, by intro x h; cases h⟩

/-- The hypotheses of `C79_refuted_chunked`: 404 becomes 200, and `x-a` is gone. -/
example : (∃ up' w', gateway demoEnv (ascii "THEN") 1000 1000 0 demoRequest
        ([ascii "HTTP/1.1 404 Not Found\r\nX-A: 1\r\nTransfer-Encoding: chunked\r\n\r\n", ascii "3\r\nabc\r\n2\r\nde\r\n0\r\n\r\n"].map Ev.data : Script) ⟨[], [], 0⟩ ⟨[], [], 0⟩ =
        .ret (up', w', .sent (.ok 118)) ∧
      w'.got = ascii "HTTP/1.1 200 OK\r\ntransfer-encoding: chunked\r\ndate: NOW\r\ncontent-type: application/octet-stream\r\n\r\n3\r\nabc\r\n2\r\nde\r\n0\r\n\r\n") ∧
    HasReply (ascii "HTTP/1.1 404 Not Found\r\nX-A: 1\r\nTransfer-Encoding: chunked\r\n\r\n") 1 404 [(ascii "X-A", ascii "1"), (ascii "Transfer-Encoding", ascii "chunked")] ∧
    SaysChunked [(ascii "X-A", ascii "1"), (ascii "Transfer-Encoding", ascii "chunked")] :=
  ⟨gatewaySeen_ret (by decide +kernel), hasReply_of (rest := []) (by decide +kernel), by show List.head? _ = _; decide⟩

/-- The hypotheses of `C79_refuted_close`: the three bytes of the body are gone. -/
example : (∃ up' w', gateway demoEnv (ascii "THEN") 1000 1000 0 demoRequest ([ascii "HTTP/1.1 404 Not Found\r\nX-A: 1\r\n\r\n", ascii "abc"].map Ev.data : Script) ⟨[], [], 0⟩ ⟨[], [], 0⟩ =
        .ret (up', w', .sent (.ok 65)) ∧
      w'.got = ascii "HTTP/1.1 404 Not Found\r\ncontent-length: 0\r\nx-a: 1\r\ndate: THEN\r\n\r\n") ∧
    HasReply (ascii "HTTP/1.1 404 Not Found\r\nX-A: 1\r\n\r\n") 1 404 [(ascii "X-A", ascii "1")] :=
  ⟨gatewaySeen_ret (by decide +kernel), hasReply_of (rest := []) (by decide +kernel)⟩

/-- `C79_failed`: an old version. -/
example : gatewaySeen [ascii "HTTP/1.0 404 Not Found\r\nX-A: 1\r\n\r\n", ascii "abc"] [] = .ret ([], .failed (.decode "Unsupported HTTP version")) := by decide +kernel

/-- **C79 is false of the code** for chunked responses that are cut off: two bytes were announced and did not come, and what is passed on is complete. -/
theorem C79_refuted_cut : ∃ (io : Script) (up' w' : Writer) (amt : Nat) (hd s : Bytes), gateway demoEnv (ascii "THEN") 1000 1000 0 demoRequest io ⟨[], [], 0⟩ ⟨[], [], 0⟩ = .ret (up', w', .sent (.ok amt)) ∧
    FirstReply (rem io) hd ∧ rem io = hd ++ s ∧ (∀ b p fs, Body b p fs → ¬ b <+: s) ∧
    IsResponse (responseHead .http11 200 [] none (ascii "NOW")) none (ascii "abc") w'.got := by
  obtain ⟨up', w', h1, h2⟩ := gatewaySeen_ret (frags := [ascii "HTTP/1.1 200 OK\r\nTransfer-Encoding: chunked\r\n\r\n", (Script.bytes cutConn.rd).drop chunkedPost.length]) (w := [])
    (got := responseHead .http11 200 [] none (ascii "NOW") ++ ascii "3\r\nabc\r\n0\r\n\r\n") (x := .sent (.ok 111)) (by decide +kernel)
  refine ⟨_, up', w', 111, ascii "HTTP/1.1 200 OK\r\nTransfer-Encoding: chunked\r\n\r\n", (Script.bytes cutConn.rd).drop chunkedPost.length, h1, by show FirstReply (Script.bytes _) _; decide +kernel,
    by show Script.bytes _ = _; decide +kernel, cut_noBody, ?_⟩
  rw [h2]
  exact ⟨_, rfl, ascii "3\r\nabc\r\n", .cons (h := ascii "3") (d := ascii "abc") ⟨by decide, by decide, by decide⟩ (by decide) .nil, by decide⟩

/-- What `connect` returns. -/
def fetched (io : Script) : Run (Option (StatusCode × HeaderMap)) := do
  let (_, x) ← connect (ascii "THEN") (demoEnv.pool 0) 1000 1000 demoRequest io ⟨[], [], 0⟩
  match x with
  | .done (.ok res) => .ret (some (res.status, res.headers))
  | _ => .ret none

/-- **C79 is false of the code** for responses whose length is announced: three bytes are announced, two come, and the connection is closed.  No amount of time is enough. -/
theorem C79_refuted_spin : ∃ io : Script, Script.bytes io = missingHead ++ ascii "ab" ∧ ∀ fuel', gateway demoEnv (ascii "THEN") 1000 fuel' 0 demoRequest io ⟨[], [], 0⟩ ⟨[], [], 0⟩ = .diverge := by
  refine ⟨[.data (missingHead ++ ascii "ab")], by decide +kernel, fun fuel' => ?_⟩
  have h : ∃ x, fetched [.data (missingHead ++ ascii "ab")] = .ret (some x) ∧ (responseHead .http11 x.1 x.2 (some 3) (ascii "NOW")).length + 2 < 8192 :=
    ⟨(404, [(ascii "x-a", [ascii "1", ascii "2"]), (ascii "content-length", [ascii "3"]), (ascii "date", [ascii "THEN"])]), by decide +kernel, by decide +kernel⟩
  obtain ⟨⟨st, hs⟩, h1, h2⟩ := h
  unfold fetched at h1
  obtain ⟨⟨up', x⟩, h3, h4⟩ := Run.bind_eq_ret.1 h1
  cases x with
  | writing => cases h4
  | reading => cases h4
  | done x =>
    cases x with
    | err e => cases h4
    | ok res =>
      simp only [Run.ret.injEq, Option.some.injEq, Prod.mk.injEq] at h4
      obtain ⟨rfl, rfl⟩ := h4
      exact C79_spins h3 rfl rfl (hd := missingHead) (s := ascii "ab") (by show FirstReply (Script.bytes _) _; decide +kernel)
        (.fixed (code := 404) (fs := [(ascii "X-A", ascii "1"), (ascii "Content-Length", ascii "3"), (ascii "x-a", ascii "2")]) (v := ascii "3") (hasReply_of (rest := []) (by decide +kernel)) (fun a => a.2 (by decide)) (by decide +kernel) ((parseUsize_some _ 3).1 (by decide +kernel)) (by decide)) (by decide +kernel) (by decide) (by decide) h2 _ _

end Tophat
