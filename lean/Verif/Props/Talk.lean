import Verif.Spec.Talk
import Verif.Props.Hello
import Verif.Props.KeepAlive
/-!
# Property C97: a client that makes several requests on one connection
-/

set_option linter.unusedSectionVars false
set_option synthInstance.maxSize 1000

namespace Tophat
open Spec

/-! ## The client's side of one exchange -/

/-- Nothing behind `h ++ body` is touched while the client reads `h`. -/
theorem clientHeadGo_al {rest : Script} {h body : Bytes} (hh : FirstReply h h) (fuel : Nat) : ∀ {m nread : Nat} {r r' : BufRd Script} {buf y h' : Bytes},
    h = buf ++ y → y ≠ [] → Al rest m (y ++ body) r → ClientDecode.headGo fuel r buf nread = .ret (.head r' h') → h' = h ∧ Al rest m body r' := by
  induction fuel with
  | zero => intro m nread r r' buf y h' _ _ _ hg; simp [ClientDecode.headGo] at hg
  | succ fuel ih =>
    intro m nread r r' buf y h' hy hne ha hg
    simp only [ClientDecode.headGo] at hg
    obtain ⟨⟨r1, p⟩, h1, h2⟩ := Run.bind_eq_ret.1 hg
    rcases ha.fill (by simp [hne]) h1 with ⟨rfl, a2, a3⟩ | ⟨bs, rfl, a2, a3, a4, a5⟩
    · exact ih hy hne (a3.mono (by omega)) h2
    · have hmin : ∀ z, z <+: h → EndsReply z → z = h := fun z hz he => hh.2.2 z hz he
      have hend : ∃ z, h = z ++ [10] := by
        rcases hh.2.1 with ⟨q, hq⟩ | ⟨q, hq⟩
        · exact ⟨q ++ [13, 10, 13], by rw [hq]; simp⟩
        · exact ⟨q ++ [10], by rw [hq]; simp⟩
      obtain ⟨z, hz⟩ := hend
      have hylf : (10 : UInt8) ∈ y := by
        have h3 : y.getLast? = some 10 := by
          have h4 : (buf ++ y).getLast? = some 10 := by rw [← hy, hz]; simp
          rw [List.getLast?_append] at h4
          cases hq : y.getLast? with
          | none => rw [List.getLast?_eq_none_iff] at hq; exact absurd hq hne
          | some v => rw [hq] at h4; simpa using h4
        exact List.mem_of_getLast? h3
      have inside : ∀ line, line <+: y ++ body → (∀ a b, line = a ++ b → b ≠ [] → (10 : UInt8) ∉ a) → line <+: y := by
        intro line hl hno
        rcases List.prefix_or_prefix_of_prefix hl (List.prefix_append y body) with g | ⟨t, g⟩
        · exact g
        · by_cases ht : t = []
          · rw [ht] at g; rw [← g]; simp
          · exact absurd hylf (hno y t g.symm ht)
      dsimp only at h2
      split at h2
      · rename_i line hl
        obtain ⟨q, tl, g1, g2, g3⟩ := lineOf_some hl
        have hle : line.length ≤ r1.buf.length := by rw [a3, g1]; simp
        have hpre : line <+: y := by
          refine inside line (((by rw [g1]; simp : line <+: bs)).trans a4) ?_
          intro a b hab hb hmem
          rw [g2] at hab
          have : b = b.dropLast ++ [b.getLast hb] := (List.dropLast_concat_getLast hb).symm
          rw [this, ← List.append_assoc] at hab
          have := (List.append_inj' hab rfl).1
          exact g3 (by rw [this]; simp [hmem])
        obtain ⟨t, ht⟩ := hpre
        have hal : Al rest m (t ++ body) (consume r1 line.length) := by
          have := a5.consume hle
          rw [← ht] at this
          simpa using this
        split at h2
        · split at h2
          · rename_i hE
            rw [clientEndsHead_iff] at hE
            have : buf ++ line = h := hmin _ ⟨t, by rw [hy, ← ht]; simp⟩ hE
            have ht0 : t = [] := by
              have h5 := congrArg List.length this
              have h6 := congrArg List.length hy
              rw [← ht] at h6
              simp at h5 h6
              exact List.length_eq_zero_iff.1 (by omega)
            simp only [Run.ret.injEq, ClientDecode.HeadRes.head.injEq] at h2
            obtain ⟨rfl, rfl⟩ := h2
            rw [ht0] at hal
            exact ⟨this, hal⟩
          · rename_i hE
            rw [clientEndsHead_iff] at hE
            have htne : t ≠ [] := by
              rintro rfl
              apply hE
              rw [List.append_nil] at ht
              rw [ht, ← hy]
              exact hh.2.1
            exact ih (by rw [hy, ← ht]; simp) htne hal h2
        · cases h2
      · rename_i hl
        have hno := lineOf_none hl
        rw [if_neg a2] at h2
        have hpre : bs <+: y := by
          refine inside bs a4 ?_
          intro a b hab hb hmem
          exact hno (by rw [hab]; simp [hmem])
        obtain ⟨t, ht⟩ := hpre
        have hal : Al rest m (t ++ body) (consume r1 bs.length) := by
          have := a5.consume (n := bs.length) (by rw [a3]; exact Nat.le_refl _)
          rw [← ht] at this
          simpa using this
        have htne : t ≠ [] := by
          rintro rfl
          rw [List.append_nil] at ht
          rw [ht] at hno
          exact hno hylf
        exact ih (by rw [hy, ← ht]; simp) htne hal h2

/-- The body of a response with a content length sits on the connection, with nothing of what follows in its buffer. -/
theorem decode_al {now : Bytes} {pool : Pool} {fuel : Nat} {d rest : Script} {h body : Bytes} (hd : Brings d (h ++ body)) (hh : FirstReply h h) {rsp : ClientResponse Script}
    (hdec : ClientDecode.decode now pool fuel (d ++ rest) = .ret (.done (.ok rsp))) (hcl : rsp.headers.get H.contentLength ≠ none) (hl : rsp.length = some body.length) :
    ∃ t, rsp.body = .stream (.fixed t) ∧ t.limit = body.length ∧ Al rest (Script.pendings d) body t.inner := by
  unfold ClientDecode.decode at hdec
  obtain ⟨hr, h1, h2⟩ := Run.bind_eq_ret.1 hdec
  have hne : h ≠ [] := by
    rintro rfl
    rcases hh.2.1 with ⟨q, hq⟩ | ⟨q, hq⟩ <;> simp at hq
  cases hr with
  | running => simp at h2
  | err => simp at h2
  | head r buf =>
    have ha0 : Al rest (Script.pendings d) (h ++ body) (BufRd.new (d ++ rest)) := ⟨d, rfl, hd.1, Nat.le_refl _, hd.2⟩
    obtain ⟨rfl, ha⟩ := clientHeadGo_al (buf := []) hh fuel rfl hne ha0 h1
    dsimp only at h2
    split at h2
    · simp at h2
    · rename_i code m _
      simp only [Run.ret.injEq, ClientDecode.Res.done.injEq] at h2
      unfold ClientDecode.finish at h2
      dsimp only at h2
      split at h2
      · cases h2
      · split at h2
        · injection h2 with h2; rw [← h2] at hl; cases hl
        · split at h2
          · rename_i v _
            split at h2
            · cases h2
            · unfold ClientDecode.setHead at h2
              split at h2
              · cases h2
              · injection h2 with h2
                rw [← h2] at hl ⊢
                injection hl with hl
                exact ⟨_, rfl, hl, ha⟩
          · rename_i hn
            unfold ClientDecode.setHead at h2
            split at h2
            · cases h2
            · injection h2 with h2
              rw [← h2] at hcl
              exact absurd hn hcl

/-- Reading it. -/
theorem polls_al {rest : Script} {m : Nat} (ks : List Nat) : ∀ {x : Bytes} {t : Take (BufRd Script)} {b : ReplyBody Script} {ps : List RPoll}, Al rest m x t.inner → t.limit = x.length →
    (∀ k ∈ ks, 0 < k) → polls (ReplyBody.stream (.fixed t)) ks = .ret (b, ps) →
    ∃ t' y, b = .stream (.fixed t') ∧ y <:+ x ∧ Al rest m y t'.inner ∧ t'.limit = y.length := by
  induction ks with
  | nil =>
    intro x t b ps ha hl _ h
    simp only [polls, Run.ret.injEq, Prod.mk.injEq] at h
    exact ⟨t, x, h.1.symm, List.suffix_refl _, ha, hl⟩
  | cons k ks ih =>
    intro x t b ps ha hl hk h
    simp only [polls] at h
    obtain ⟨⟨b1, p⟩, h1, h2⟩ := Run.bind_eq_ret.1 h
    obtain ⟨⟨b2, p2⟩, h3, h4⟩ := Run.bind_eq_ret.1 (show (pollRead (ReqBody.fixed t) k >>= ReplyBody.ofStream) = _ from h1)
    simp only [ReplyBody.ofStream, Run.ret.injEq, Prod.mk.injEq] at h4
    obtain ⟨rfl, rfl⟩ := h4
    rcases fixed_read_al ha hl (.inl (hk k List.mem_cons_self)) h3 with ⟨rfl, _, t', rfl, a1, a2⟩ | ⟨bs, t', rfl, _, a1, rfl, a2, a3⟩
    · obtain ⟨⟨b3, q⟩, h5, h6⟩ := Run.bind_eq_ret.1 h2
      simp only [Run.ret.injEq, Prod.mk.injEq] at h6
      obtain ⟨t'', y, c1, c2, c3, c4⟩ := ih (a1.mono (by omega)) a2 (fun j hj => hk j (List.mem_cons_of_mem _ hj)) h5
      exact ⟨t'', y, by rw [← h6.1, c1], c2, c3, c4⟩
    · obtain ⟨⟨b3, q⟩, h5, h6⟩ := Run.bind_eq_ret.1 h2
      simp only [Run.ret.injEq, Prod.mk.injEq] at h6
      obtain ⟨t'', y, c1, c2, c3, c4⟩ := ih a2 a3 (fun j hj => hk j (List.mem_cons_of_mem _ hj)) h5
      exact ⟨t'', y, by rw [← h6.1, c1], c2.trans (List.drop_suffix _ _), c3, c4⟩

/-- Reading it to its end leaves what follows on the connection. -/
theorem readToEnd_al {grow : Nat → Nat → Nat} (hg : GrowOk grow) {fuel cap m : Nat} {rest : Script} {x bs : Bytes} {t : Take (BufRd Script)} {b : ReplyBody Script} (ha : Al rest m x t.inner)
    (hl : t.limit = x.length) (h : readToEnd grow fuel (ReplyBody.stream (.fixed t)) (ToEnd.new cap) = .ret (b, .eof bs)) :
    ∃ b' d, b = .stream b' ∧ b'.io = d ++ rest ∧ Brings d [] ∧ Script.pendings d ≤ m := by
  obtain ⟨ks, ps, r1, a1, a2, -, -, -, k, a3, a4⟩ := readToEnd_slurped hg fuel h
  obtain ⟨t', y, rfl, -, c2, c3⟩ := polls_al ks ha hl a1 a2
  obtain ⟨⟨b2, p2⟩, h3, h4⟩ := Run.bind_eq_ret.1 (show (pollRead (ReqBody.fixed t') k >>= ReplyBody.ofStream) = _ from a4)
  simp only [ReplyBody.ofStream, Run.ret.injEq, Prod.mk.injEq] at h4
  obtain ⟨rfl, rfl⟩ := h4
  rcases fixed_read_al c2 c3 (.inl a3) h3 with ⟨h0, _⟩ | ⟨bs', t'', h0, e1, e2, rfl, e3, e4⟩
  · cases h0
  · cases h0
    rcases e1 with e1 | rfl
    · exact absurd rfl e1
    · obtain ⟨g, f1, f2, f3, f4⟩ := e3
      simp only [List.length_nil, List.drop_nil, List.append_eq_nil_iff] at f4
      exact ⟨_, g, rfl, f1, ⟨f2, f4.2⟩, f3⟩

/-- What a client has after one exchange: the response, and a connection on which only what follows is left. -/
theorem client_round {σ : Type} [AsyncBufRead σ] [LawfulBufRead σ] {resp : InnerResponse σ} {a : Fetched} (hs : a.SentAs resp) {t : Bytes} (ht : Transmittable resp t) (hlim : a.body.length < 2 ^ 64)
    {d rest : Script} (hd : Brings d (headOf resp t ++ a.body)) {now : Bytes} {pool : Pool} (hp : pool.Ok) {grow : Nat → Nat → Nat} (hg : GrowOk grow) {fuel' fuel'' : Nat}
    (hf : 2 * (rem (d ++ rest)).length + meas (d ++ rest) < fuel') (hf2 : a.body.length + meas (d ++ rest) < fuel'') :
    ∃ rsp b d', ClientDecode.decode now pool fuel' (d ++ rest) = .ret (.done (.ok rsp)) ∧ rsp.status = a.status ∧ MapOf rsp.headers (sentFields a.headers (some a.body.length) t) ∧
      rsp.toBody.intoBytes grow fuel'' = .ret (.stream b, .ok a.body) ∧ b.io = d' ++ rest ∧ Brings d' [] ∧ Script.pendings d' ≤ Script.pendings d := by
  obtain ⟨s1, s2, s3, s4, s5, s6⟩ := hs
  have hrem : rem (d ++ rest) = headOf resp t ++ ((rem resp.body).take a.body.length ++ Script.bytes rest) := by
    show Script.bytes (d ++ rest) = _
    rw [Script.bytes_append _ hd.1, hd.2, s5]; simp
  obtain ⟨rsp, h1, h2, h3, -, h5, h6⟩ := ht.arrives s4 hlim (by rw [s5]; exact Nat.le_refl _) hrem now hp hf
  have hcl : rsp.headers.get H.contentLength ≠ none := by
    have : rsp.headers.getAll H.contentLength = valuesOf (ascii "content-length") (sentFields resp.headers (some a.body.length) t) := h3.2 _
    unfold HeaderMap.get
    rw [this, valuesOf_sent ht.valid, if_pos (by rfl), if_neg (by intro h; exact absurd h.2 (by decide)), if_neg (by intro h; exact h.1 rfl), if_neg (by intro h; exact absurd h.2 (by decide))]
    simp
  obtain ⟨tk, e1, e2, e3⟩ := decode_al hd ⟨List.prefix_refl _, (ht.first []).2⟩ h1 hcl h5
  rw [s5, List.take_length] at h6
  obtain ⟨⟨b, z⟩, htot⟩ := (C66_client_no_panic_partial hg hp h1 fuel'').1
  have htot' := htot
  unfold MsgBody.intoBytes at htot'
  obtain ⟨⟨b0, sl⟩, g1, g2⟩ := Run.bind_eq_ret.1 htot'
  simp only [Run.ret.injEq, Prod.mk.injEq] at g2
  obtain ⟨rfl, rfl⟩ := g2
  rw [clientToBody_reader] at g1
  have := slurp_of h6 hg hf2 g1
  subst this
  rw [e1] at g1
  obtain ⟨b', d', rfl, f2, f3, f4⟩ := readToEnd_al hg e3 e2 g1
  exact ⟨rsp, b', d', h1, h2.trans s2, s3 ▸ h3, htot, f2, f3, f4⟩

/-- The body of a chunked response sits on the connection, with nothing of what follows in its buffer. -/
theorem decode_alC {now : Bytes} {pool : Pool} {fuel : Nat} {d rest : Script} {h body : Bytes} (hd : Brings d (h ++ body)) (hh : FirstReply h h) {rsp : ClientResponse Script}
    (hdec : ClientDecode.decode now pool fuel (d ++ rest) = .ret (.done (.ok rsp))) (hl : rsp.length = none) :
    ∃ r, rsp.body = .stream (.chunked (BufRd.new (ChunkedDecoder.new r pool))) ∧ Al rest (Script.pendings d) body r := by
  unfold ClientDecode.decode at hdec
  obtain ⟨hr, h1, h2⟩ := Run.bind_eq_ret.1 hdec
  have hne : h ≠ [] := by
    rintro rfl
    rcases hh.2.1 with ⟨q, hq⟩ | ⟨q, hq⟩ <;> simp at hq
  cases hr with
  | running => simp at h2
  | err => simp at h2
  | head r buf =>
    have ha0 : Al rest (Script.pendings d) (h ++ body) (BufRd.new (d ++ rest)) := ⟨d, rfl, hd.1, Nat.le_refl _, hd.2⟩
    obtain ⟨rfl, ha⟩ := clientHeadGo_al (buf := []) hh fuel rfl hne ha0 h1
    dsimp only at h2
    split at h2
    · simp at h2
    · rename_i code m _
      simp only [Run.ret.injEq, ClientDecode.Res.done.injEq] at h2
      unfold ClientDecode.finish at h2
      dsimp only at h2
      split at h2
      · cases h2
      · split at h2
        · injection h2 with h2; rw [← h2]; exact ⟨r, rfl, ha⟩
        · split at h2
          · split at h2
            · cases h2
            · unfold ClientDecode.setHead at h2
              split at h2
              · cases h2
              · injection h2 with h2
                rw [← h2] at hl
                cases hl
          · unfold ClientDecode.setHead at h2
            split at h2
            · cases h2
            · injection h2 with h2
              rw [← h2] at hl
              cases hl

/-- A response that says that it is chunked has no length. -/
theorem decode_chunked_length {ρ : Type} [AsyncRead ρ] [LawfulRead ρ] {now : Bytes} {pool : Pool} {io : ρ} {fuel : Nat} {res : ClientResponse ρ}
    (hd : ClientDecode.decode now pool fuel io = .ret (.done (.ok res))) {h : Bytes} {code : Nat} {fs : List (Bytes × Bytes)} (hh : FirstReply (rem io) h) (hr : HasReply h 1 code fs)
    (hc : SaysChunked fs) : res.length = none := by
  obtain ⟨d, h1, h2⟩ := clientDecode_spec now pool fuel io
  rw [hd] at h1
  injection h1 with h1
  subst h1
  cases h2 with
  | response a b2 c d f =>
    have := a.unique hh
    subst this
    cases f with
    | chunked f1 => cases c; rfl
    | fixed =>
      cases c with
      | fixed c1 c2 c3 =>
        obtain ⟨-, -, rfl⟩ := hr.unique c1
        refine absurd ⟨?_, ?_⟩ c2
        · intro h; rw [h] at c3; cases c3
        · intro h; unfold SaysChunked at hc; rw [h] at hc; cases hc
    | bare =>
      cases c with
      | bare c1 c2 c3 =>
        obtain ⟨-, -, rfl⟩ := hr.unique c1
        exact absurd hc c2

/-- Reading it, up to its end. -/
theorem polls_alC {pool : Pool} (hp : pool.Ok) {r : BufRd Script} {b p : Bytes} {fs : List (Bytes × Bytes)} (hb : Roomy b p fs) (hn : fs.length ≤ 16) (hs : rem r = b) (rest : Script) (ks : List Nat) :
    ∀ {t : BufRd (ChunkedDecoder (BufRd Script))} {left : Nat} {x : ReplyBody Script} {ps : List RPoll}, Midway pool r p t left → (∀ k ∈ ks, 0 < k) → ¬ SawEof ps →
    polls (ReplyBody.stream ((ReqBody.chunked t).on (· ++ rest))) ks = .ret (x, ps) →
    ∃ t' left', x = .stream ((ReqBody.chunked t').on (· ++ rest)) ∧ Reach t.inner.inner t'.inner.inner ∧ Midway pool r p t' left' ∧ ks.length + (left' + meas t'.inner.inner) ≤ left + meas t.inner.inner := by
  induction ks with
  | nil =>
    intro t left x ps hm _ _ h
    simp only [polls, Run.ret.injEq, Prod.mk.injEq] at h
    exact ⟨t, left, h.1.symm, .refl, hm, by simp⟩
  | cons k ks ih =>
    intro t left x ps hm hk hne h
    simp only [polls] at h
    obtain ⟨⟨b1, q⟩, h1, h2⟩ := Run.bind_eq_ret.1 h
    obtain ⟨⟨b2, p2⟩, h3, h4⟩ := Run.bind_eq_ret.1 (show (pollRead ((ReqBody.chunked t).on (· ++ rest)) k >>= ReplyBody.ofStream) = _ from h1)
    simp only [ReplyBody.ofStream, Run.ret.injEq, Prod.mk.injEq] at h4
    obtain ⟨rfl, rfl⟩ := h4
    obtain ⟨t', rfl, hr, hcase⟩ := midway_read hp hb hn hs rest hm (hk k List.mem_cons_self) h3
    rcases hcase with ⟨rfl, l1, hm'⟩ | ⟨bs, rfl, l1, l2, -, l3, hm'⟩ | ⟨rfl, -, -⟩
    · obtain ⟨⟨b3, q⟩, h5, h6⟩ := Run.bind_eq_ret.1 h2
      simp only [Run.ret.injEq, Prod.mk.injEq] at h6
      obtain ⟨rfl, rfl⟩ := h6
      obtain ⟨t'', l, c1, c2, c3, c4⟩ := ih hm' (fun j hj => hk j (List.mem_cons_of_mem _ hj)) (fun hq => hne (List.mem_cons_of_mem _ hq)) h5
      exact ⟨t'', l, c1, hr.trans c2, c3, by rw [List.length_cons]; omega⟩
    · obtain ⟨⟨b3, q⟩, h5, h6⟩ := Run.bind_eq_ret.1 h2
      simp only [Run.ret.injEq, Prod.mk.injEq] at h6
      obtain ⟨rfl, rfl⟩ := h6
      obtain ⟨t'', l, c1, c2, c3, c4⟩ := ih hm' (fun j hj => hk j (List.mem_cons_of_mem _ hj)) (fun hq => hne (List.mem_cons_of_mem _ hq)) h5
      have := List.length_pos_iff.2 l1
      exact ⟨t'', l, c1, hr.trans c2, c3, by rw [List.length_cons]; omega⟩
    · obtain ⟨⟨b3, q⟩, h5, h6⟩ := Run.bind_eq_ret.1 h2
      simp only [Run.ret.injEq, Prod.mk.injEq] at h6
      obtain ⟨rfl, rfl⟩ := h6
      exact absurd List.mem_cons_self hne

/-- Reading it to its end gives all of it, and leaves what follows on the connection. -/
theorem readToEnd_alC {grow : Nat → Nat → Nat} (hg : GrowOk grow) {pool : Pool} (hp : pool.Ok) {fuel cap m : Nat} {rest : Script} {b p : Bytes} {fs : List (Bytes × Bytes)} (hb : Roomy b p fs)
    (hn : fs.length ≤ 16) {r : BufRd Script} (ha : Al rest m b r) {x : ReplyBody Script} {z : Slurp} (hf : p.length + m < fuel)
    (h : readToEnd grow fuel (ReplyBody.stream (.chunked (BufRd.new (ChunkedDecoder.new r pool)))) (ToEnd.new cap) = .ret (x, z)) :
    z = .eof p ∧ ∃ b' d, x = .stream b' ∧ b'.io = d ++ rest ∧ Brings d [] ∧ Script.pendings d ≤ m := by
  obtain ⟨g0, y1, y2, y3, y4⟩ := ha
  have hs : rem (⟨g0, r.buf⟩ : BufRd Script) = b := y4
  have hr0 : ReqBody.chunked (BufRd.new (ChunkedDecoder.new r pool)) = (ReqBody.chunked (BufRd.new (ChunkedDecoder.new (⟨g0, r.buf⟩ : BufRd Script) pool))).on (· ++ rest) := by
    obtain ⟨i0, b0⟩ := r
    simp only at y1 ⊢
    subst y1
    rfl
  rw [hr0] at h
  have hmid : Midway pool ⟨g0, r.buf⟩ p (BufRd.new (ChunkedDecoder.new (⟨g0, r.buf⟩ : BufRd Script) pool)) p.length :=
    ⟨⟨[], [], by simp, rfl, by simp [SawEof], by simp, by simp [received]⟩, Dec.decInv_new _ _ hp, trivial, rfl, faithful_new hp hb hn (x := []) (by rw [List.append_nil]; exact hs)⟩
  obtain ⟨ks, ps, r1, a1, a2, a3, a4, a5⟩ := readToEnd_slurped hg fuel h
  obtain ⟨t', left', rfl, hreach, hm', hsize⟩ := polls_alC hp hb hn hs rest ks hmid a1 a3 a2
  have hm0 : meas (BufRd.new (ChunkedDecoder.new (⟨g0, r.buf⟩ : BufRd Script) pool)).inner.inner ≤ m := y3
  have last : ∀ k, 0 < k → ∀ {x : ReplyBody Script} {q : RPoll}, pollRead (ReplyBody.stream ((ReqBody.chunked t').on (· ++ rest))) k = .ret (x, q) →
      ∃ t2, x = .stream ((ReqBody.chunked t2).on (· ++ rest)) ∧ Reach t'.inner.inner t2.inner.inner ∧ (∀ e, q ≠ .err e) ∧ (q = .data [] → rem t2.inner.inner = []) := by
    intro k hk x q hq
    obtain ⟨⟨b2, p2⟩, h3, h4⟩ := Run.bind_eq_ret.1 (show (pollRead ((ReqBody.chunked t').on (· ++ rest)) k >>= ReplyBody.ofStream) = _ from hq)
    simp only [ReplyBody.ofStream, Run.ret.injEq, Prod.mk.injEq] at h4
    obtain ⟨rfl, rfl⟩ := h4
    obtain ⟨t2, rfl, hr, hcase⟩ := midway_read hp hb hn hs rest hm' hk h3
    rcases hcase with ⟨rfl, -, -⟩ | ⟨bs, rfl, l1, -⟩ | ⟨rfl, -, l1⟩
    · exact ⟨t2, rfl, hr, by simp, by simp⟩
    · exact ⟨t2, rfl, hr, by simp, by simp [l1]⟩
    · exact ⟨t2, rfl, hr, by simp, fun _ => l1⟩
  cases z with
  | running =>
    have := a5.2
    omega
  | err e =>
    obtain ⟨k, hk, a6⟩ := a5
    obtain ⟨-, -, -, hne, -⟩ := last k hk a6
    exact absurd rfl (hne e)
  | eof bs =>
    obtain ⟨a5, k, hk, a6⟩ := a5
    obtain ⟨t2, rfl, hr2, -, hend⟩ := last k hk a6
    have hsnoc := polls_snoc a2 a4 a6
    rw [← hr0] at hsnoc
    obtain ⟨y, -, hy⟩ := polls_stream hsnoc
    obtain ⟨t3, -, hy3⟩ := polls_chunked hy
    have hremr : rem r = b ++ Script.bytes rest := by
      show r.buf ++ Script.bytes r.inner = _
      rw [y1, Script.bytes_append _ y2, ← y4, List.append_assoc]
    have hroom := (chunked_roomy hp (by
      intro j hj
      rcases List.mem_append.1 hj with hj | hj
      · exact a1 j hj
      · rw [List.mem_singleton.1 hj]; exact hk) hy3 hb hn hremr).2.1 (.inl (by simp [SawEof]))
    rw [received_append] at hroom
    simp only [received, List.append_nil] at hroom
    have hl := (hreach.trans hr2).lawful (show fin (⟨g0, r.buf⟩ : BufRd Script) = none from y2)
    refine ⟨by rw [a5, hroom]; rfl, _, t2.inner.inner.inner, rfl, rfl, ⟨hl.2.1, (List.append_eq_nil_iff.1 (hend rfl)).2⟩, Nat.le_trans hl.2.2 y3⟩

theorem chunkedMessage_length {s p : Bytes} (h : ChunkedMessage s p) : p.length ≤ s.length := by
  obtain ⟨w, hw, rfl⟩ := h
  have : p.length ≤ w.length := by
    induction hw with
    | nil => simp
    | cons => simp only [List.length_append, List.length_cons]; omega
  simp only [List.length_append]; omega

/-- The same for a response that is streamed: its body. -/
theorem client_roundC {σ : Type} [AsyncBufRead σ] [LawfulBufRead σ] {resp : InnerResponse σ} {t : Bytes} (ht : Transmittable resp t) (hl : resp.length = none) {wire p : Bytes} (hroom : Roomy wire p [])
    {d rest : Script} (hd : Brings d (headOf resp t ++ wire)) {now : Bytes} {pool : Pool} (hp : pool.Ok) {grow : Nat → Nat → Nat} (hg : GrowOk grow) {fuel' fuel'' : Nat}
    (hf : 2 * (rem (d ++ rest)).length + meas (d ++ rest) < fuel') (hf2 : p.length + Script.pendings d < fuel'') :
    ∃ rsp b d', ClientDecode.decode now pool fuel' (d ++ rest) = .ret (.done (.ok rsp)) ∧ rsp.status = 200 ∧ rsp.headers = [] ∧
      rsp.toBody.intoBytes grow fuel'' = .ret (.stream b, .ok p) ∧ b.io = d' ++ rest ∧ Brings d' [] ∧ Script.pendings d' ≤ Script.pendings d := by
  have hrem : rem (d ++ rest) = headOf resp t ++ (wire ++ Script.bytes rest) := by
    show Script.bytes (d ++ rest) = _
    rw [Script.bytes_append _ hd.1, hd.2]; simp
  obtain ⟨hfirst, hrep, hte, rsp, h1⟩ := ht.accepted hl hrem now (pool := pool) hf
  obtain ⟨c1, c2⟩ := C53_refuted_chunked h1 hfirst hrep hte
  obtain ⟨r, e1, e2⟩ := decode_alC hd ⟨List.prefix_refl _, (ht.first []).2⟩ h1 (decode_chunked_length h1 hfirst hrep hte)
  obtain ⟨⟨b, z⟩, htot⟩ := (C66_client_no_panic_partial hg hp h1 fuel'').1
  have htot' := htot
  unfold MsgBody.intoBytes at htot'
  obtain ⟨⟨b0, sl⟩, g1, g2⟩ := Run.bind_eq_ret.1 htot'
  simp only [Run.ret.injEq, Prod.mk.injEq] at g2
  obtain ⟨rfl, rfl⟩ := g2
  rw [clientToBody_reader, e1] at g1
  obtain ⟨rfl, b', d', rfl, f2, f3, f4⟩ := readToEnd_alC hg hp hroom (by simp) e2 hf2 g1
  exact ⟨rsp, b', d', h1, c1, c2, htot, f2, f3, f4⟩

/-! ## The server's side -/

theorem responses_append (a b : List Event) : responses (a ++ b) = responses a ++ responses b := by
  induction a with
  | nil => rfl
  | cons x a ih => cases x <;> simp [responses, ih]

section
variable {ρ : Type} [AsyncRead ρ] {σ : Type} [AsyncBufRead σ]

theorem runAfter_responses {b : Bool} (a : After b) : ∀ (body body' : ReqBody ρ) (ev : List Event) (g : Option Glitch), runAfter a body = .ret (body', ev, g) → responses ev = [] := by
  induction a with
  | read k next ih =>
    intro body body' ev g h
    simp only [runAfter] at h
    obtain ⟨⟨b1, p⟩, h1, h2⟩ := Run.bind_eq_ret.1 h
    obtain ⟨⟨b2, ev2, g2⟩, h3, h4⟩ := Run.bind_eq_ret.1 h2
    simp only [Run.ret.injEq, Prod.mk.injEq] at h4
    rw [← h4.2.1]
    show responses ev2 = _
    exact ih _ _ _ _ _ h3
  | ok =>
    intro body body' ev g h
    simp only [runAfter, Run.ret.injEq, Prod.mk.injEq] at h
    rw [← h.2.1]; rfl
  | glitch =>
    intro body body' ev g h
    simp only [runAfter, Run.ret.injEq, Prod.mk.injEq] at h
    rw [← h.2.1]; rfl

/-- An endpoint sends at most once. -/
theorem runProg_responses {env : Env} {fuel n : Nat} (a : Prog σ) : ∀ (body body' : ReqBody ρ) (w w' : Writer) (ev : List Event) (g : Option Glitch),
    runProg env fuel n a body w = .ret (body', w', ev, g) → responses ev = [w'.got.drop w.got.length] ∨ (responses ev = [] ∧ w' = w) := by
  induction a with
  | read k next ih =>
    intro body body' w w' ev g h
    simp only [runProg] at h
    obtain ⟨⟨b1, p⟩, h1, h2⟩ := Run.bind_eq_ret.1 h
    obtain ⟨⟨b2, w2, ev2, g2⟩, h3, h4⟩ := Run.bind_eq_ret.1 h2
    simp only [Run.ret.injEq, Prod.mk.injEq] at h4
    obtain ⟨rfl, rfl, rfl, rfl⟩ := h4
    show responses ev2 = _ ∨ responses ev2 = _ ∧ _
    exact ih _ _ _ _ _ _ _ h3
  | send resp onOk onErr =>
    intro body body' w w' ev g h
    simp only [runProg] at h
    obtain ⟨⟨w1, r⟩, h1, h2⟩ := Run.bind_eq_ret.1 h
    left
    cases r with
    | running => cases h2
    | err e =>
      obtain ⟨⟨b2, ev2, g2⟩, h3, h4⟩ := Run.bind_eq_ret.1 h2
      simp only [Run.ret.injEq, Prod.mk.injEq] at h4
      obtain ⟨rfl, rfl, rfl, rfl⟩ := h4
      show _ :: responses ev2 = _
      rw [runAfter_responses _ _ _ _ _ h3]
    | ok amt =>
      obtain ⟨⟨b2, ev2, g2⟩, h3, h4⟩ := Run.bind_eq_ret.1 h2
      simp only [Run.ret.injEq, Prod.mk.injEq] at h4
      obtain ⟨rfl, rfl, rfl, rfl⟩ := h4
      show _ :: responses ev2 = _
      rw [runAfter_responses _ _ _ _ _ h3]
  | sendFor steps resp onOk onErr onDrop =>
    intro body body' w w' ev g h
    simp only [runProg] at h
    obtain ⟨⟨w1, r⟩, h1, h2⟩ := Run.bind_eq_ret.1 h
    left
    cases r with
    | running =>
      obtain ⟨⟨b2, ev2, g2⟩, h3, h4⟩ := Run.bind_eq_ret.1 h2
      simp only [Run.ret.injEq, Prod.mk.injEq] at h4
      obtain ⟨rfl, rfl, rfl, rfl⟩ := h4
      show _ :: responses ev2 = _
      rw [runAfter_responses _ _ _ _ _ h3]
    | err e =>
      obtain ⟨⟨b2, ev2, g2⟩, h3, h4⟩ := Run.bind_eq_ret.1 h2
      simp only [Run.ret.injEq, Prod.mk.injEq] at h4
      obtain ⟨rfl, rfl, rfl, rfl⟩ := h4
      show _ :: responses ev2 = _
      rw [runAfter_responses _ _ _ _ _ h3]
    | ok amt =>
      obtain ⟨⟨b2, ev2, g2⟩, h3, h4⟩ := Run.bind_eq_ret.1 h2
      simp only [Run.ret.injEq, Prod.mk.injEq] at h4
      obtain ⟨rfl, rfl, rfl, rfl⟩ := h4
      show _ :: responses ev2 = _
      rw [runAfter_responses _ _ _ _ _ h3]
  | glitch gl =>
    intro body body' w w' ev g h
    simp only [runProg, Run.ret.injEq, Prod.mk.injEq] at h
    obtain ⟨rfl, rfl, rfl, rfl⟩ := h
    exact .inr ⟨rfl, rfl⟩

end

/-- What happens on a connection for one request: what the client sends, and what the application answers. -/
structure Round (α : Type) where
  req : ClientRequest α
  target : Bytes
  fields : List (Bytes × Bytes)
  answer : Fetched
  /-- The application does not declare the length of its answer. -/
  streamed : Bool

section
variable {α : Type} [AsyncBufRead α] [LawfulBufRead α] {β : Type} [AsyncBufRead β] [LawfulBufRead β]

/-- The application sends the answer. -/
def Round.SentAs (r : Round α) (resp : InnerResponse β) : Prop := if r.streamed = true then r.answer.StreamedAs resp else r.answer.SentAs resp

/-- What the client has got: the answer; only its body if it was streamed (see `C53_refuted_chunked`). -/
def Round.GotAs (r : Round α) (clock : Nat → Bytes) (got : Fetched) : Prop := if r.streamed = true then got.body = r.answer.body else r.answer.GotAs clock got

theorem Round.SentAs.body {r : Round α} {resp : InnerResponse β} (h : r.SentAs resp) : rem resp.body = r.answer.body ∧ fin resp.body = none := by
  unfold Round.SentAs at h
  split at h
  · exact h.2.2.2.2
  · exact h.2.2.2.2

theorem Round.SentAs.length {r : Round α} {resp : InnerResponse β} (h : r.SentAs resp) {k : Nat} (hk : resp.length = some k) : k = r.answer.body.length := by
  unfold Round.SentAs at h
  split at h
  · rw [h.2.2.2.1] at hk; cases hk
  · rw [h.2.2.2.1] at hk; injection hk with hk; exact hk.symm

/-- The request arrives as it is sent, and does not wait for `100 Continue`; the endpoint, with at most `M` delays, reads all of its body and answers; and the answer arrives as it is sent. -/
structure Round.Fair (r : Round α) (env : Env) (endpoint : Endpoint β) (M : Nat) : Prop where
  requestable : Requestable env.uriOk r.req r.target r.fields
  unexpecting : Expects r.fields = false
  answers : ∀ hmap, MapOf hmap r.fields → (endpoint ⟨r.req.method, r.target, hmap⟩ (some (rem r.req.body).length)).AnswersTo r.SentAs M (rem r.req.body)
  drains : ∀ hmap, MapOf hmap r.fields → (endpoint ⟨r.req.method, r.target, hmap⟩ (some (rem r.req.body).length)).Drains M (rem r.req.body).length
  transmittable : ∀ resp : InnerResponse β, r.SentAs resp → ∀ n, Transmittable resp (env.now n)
  fits : 8192 + r.answer.body.length < usizeLimit

theorem server_round {env : Env} (hx : HexLenOk env.hexLen) (hp : ∀ n, (env.pool n).Ok) {opts : ServerOpts} {endpoint : Endpoint β} {r : Round α} {M : Nat} (hr : r.Fair env endpoint M)
    {fuel n : Nat} {c c' : Conn Script} {ev : List Event} {res : Option AcceptRes} {g rest : Script} (hc : c.rd = g ++ rest) (hg : Brings g (renderRequest r.req.method r.target r.fields ++ rem r.req.body))
    (hM : Script.pendings c.rd + c.wr.script.length ≤ M) (hrel : c.wr.Reliable) (ht : NoTimeout opts c) (h : acceptStep env opts endpoint fuel n c = .ret (c', ev, res)) :
    res = none ∧ NoTimeout opts c' ∧ c'.wr.Reliable ∧ c'.wr.script.length ≤ c.wr.script.length ∧
      (∃ g', c'.rd = g' ++ rest ∧ Brings g' [] ∧ Script.pendings g' ≤ Script.pendings g) ∧
      ∃ (resp : InnerResponse β) (msg : Bytes), r.SentAs resp ∧ responses ev = [msg] ∧ IsResponse (headOf resp (env.now n)) resp.length r.answer.body msg := by
  have hq := hr.requestable
  have hpend := Script.pendings_append g hg.1 rest
  rw [← hc] at hpend
  have hhas := hasHead_render hq.method.2 hq.targetOk.1 hq.plain hq.few
  obtain ⟨-, v1, v2, v3⟩ := hq.values []
  have hlen : BodyLength r.fields (some (rem r.req.body).length) :=
    ((C25_lengths r.fields).2.1 [] _ _ v2 (by rw [v1]; rfl) (isLength_decimal hq.body.2) _).2 rfl
  have hj : Judged env.uriOk (renderRequest r.req.method r.target r.fields) (.serve (Expects r.fields) r.req.method r.target r.fields (some (rem r.req.body).length)) :=
    .serve hhas hq.method.1 hq.good v3 hq.targetOk.2 hlen
  have hfirst0 : FirstHead (renderRequest r.req.method r.target r.fields) (renderRequest r.req.method r.target r.fields) := by
    have := firstHead_render hq.method.2 hq.targetOk.1 hq.plain []
    rwa [List.append_nil] at this
  obtain ⟨e1, -, e2, e3, g', f1, f2, f3, f4⟩ := acceptStep_alone (r := ⟨r.req.method, r.target, r.fields, rem r.req.body, false⟩) hx hp hc
    ⟨hg.1, _, Expects r.fields, _, hg.2, hfirst0, hj, rfl⟩ (Nat.le_refl _) (fun hmap hm => (hr.drains hmap hm).mono (by omega)) hrel ht h
  refine ⟨e1, e2, e3, ?_⟩
  have hrem : rem c.rd = renderRequest r.req.method r.target r.fields ++ (rem r.req.body ++ Script.bytes rest) := by
    show Script.bytes c.rd = _
    rw [hc, Script.bytes_append _ hg.1, hg.2]; simp
  have hfirst : FirstHead (rem c.rd) (renderRequest r.req.method r.target r.fields) := by rw [hrem]; exact firstHead_render hq.method.2 hq.targetOk.1 hq.plain _
  obtain ⟨-, hmap, hsv⟩ := served_inv (acceptStep_spec hx h) hfirst hj (fun _ => hrel) ht
  obtain ⟨used', body, body', w1, w2, ev1, g1, ev2, a1, a2, a3, a4, a5, a6, a7⟩ := hsv.run
  have hr1 : w1.Reliable := hrel.suffix a2
  generalize hL : some (rem r.req.body).length = L at a3
  have hdrop : (rem c.rd).drop (renderRequest r.req.method r.target r.fields).length = rem r.req.body ++ Script.bytes rest := by rw [hrem, List.drop_left]
  rw [hdrop] at a3
  cases a3 with
  | chunked => cases hL
  | fixed c1 c2 c3 =>
  rename_i rr k0
  injection hL with hL
  subst hL
  have hremT : rem (⟨rr, (rem r.req.body).length⟩ : Take (BufRd Script)) = rem r.req.body := by
    show (rem rr).take _ = _
    rw [c1, List.take_left]
  have hfinT : fin (⟨rr, (rem r.req.body).length⟩ : Take (BufRd Script)) = none := by
    show (if _ ≤ (rem rr).length then none else _) = _
    rw [c1, if_pos (by simp)]
  obtain ⟨rfl, resp, amt, p1, p2⟩ := runProg_answers hx (P := r.SentAs)
    (fun resp hs => ⟨(hr.transmittable resp hs n).wf, hs.body.2, fun k hk => by rw [hs.length hk]; exact hr.fits⟩)
    _ _ _ _ _ _ _ M hfinT (Nat.le_trans c3 hM) (by rw [hremT]; exact hr.answers hmap hsv.headers) hr1 a4
  simp only [answerGlitch, Run.ret.injEq, Prod.mk.injEq] at a5
  obtain ⟨rfl, rfl⟩ := a5
  obtain ⟨msg, q1, -, q2, -, -, used2, q3, -⟩ := C10_bytes_written hx (hr.transmittable resp p1 n).wf (fun k hk => by rw [p1.length hk]; exact hr.fits) p2
  rw [p1.body.1] at q2
  refine ⟨by rw [a2, q3]; simp; omega, ⟨g', f1, ⟨f2, f3⟩, f4⟩, resp, msg, p1, ?_, q2⟩
  rw [a7, hr.unexpecting]
  show responses (ev1 ++ []) = _
  rw [List.append_nil]
  rcases runProg_responses _ _ _ _ _ _ _ a4 with hz | ⟨-, hz⟩
  · rw [hz, q1, List.drop_left]
  · exfalso
    rw [hz] at q1
    have h0 : msg = [] := by
      have := congrArg List.length q1
      simp at this
      exact this
    have h1 := ((hr.transmittable resp p1 n).first []).2.1
    have h0 : headOf resp (env.now n) = [] := by
      cases hlen : resp.length with
      | some k => rw [hlen] at q2; exact (List.append_eq_nil_iff.1 (q2.symm.trans h0)).1
      | none => rw [hlen] at q2; obtain ⟨wire, hw, -⟩ := q2; exact (List.append_eq_nil_iff.1 (hw.symm.trans h0)).1
    rw [h0] at h1
    rcases h1 with ⟨q, hq⟩ | ⟨q, hq⟩ <;> simp at hq

theorem talk_go {env : Env} (hx : HexLenOk env.hexLen) (hp : ∀ n, (env.pool n).Ok) {opts : ServerOpts} {endpoint : Endpoint β} {M : Nat} {sfuel : Nat} {now : Bytes} {pool : Pool} (hpool : pool.Ok)
    {grow : Nat → Nat → Nat} (hgrow : GrowOk grow) {cfuel cfuel' bfuel : Nat} {more : Script} : ∀ (rounds : List (Round α)), (∀ r ∈ rounds, r.Fair env endpoint M) →
    ∀ {n : Nat} {w : Writer} {parts : List Bytes}, clientSends cfuel (rounds.map (·.req)) w = .ret (some parts) →
    ∀ {c c' : Conn Script} {g0 : Script} {ups : List Script}, List.Forall₂ Brings ups parts → c.rd = g0 ++ ups.flatten → Brings g0 [] →
    Script.pendings c.rd + c.wr.script.length ≤ M → c.wr.Reliable → NoTimeout opts c →
    ∀ {ev : List Event} {res : AcceptRes}, acceptGo env opts endpoint sfuel (rounds.length + 1) n c = .ret (c', ev, res) →
    (∀ x ∈ rounds.zip (responses ev), x.1.streamed = true → SmallFraming x.1.answer.body x.2) →
    ∀ {io d0 : Script} {downs : List Script}, List.Forall₂ Brings downs (responses ev) → io = d0 ++ (downs.flatten ++ more) → Brings d0 [] →
    2 * (rem io).length + meas io < cfuel' → (rem io).length + meas io < bfuel →
    res = .ok ∧ ∃ got, clientTalks now pool grow cfuel cfuel' bfuel (rounds.map (·.req)) io w = .ret (some got) ∧
      List.Forall₂ (fun r got => r.GotAs env.now got) rounds got := by
  intro rounds
  induction rounds with
  | nil =>
    intro _ n w parts hsent c c' g0 ups hups hc hg0 hM hrel ht ev res hgo hroom io d0 downs hdowns hio hd0 hf hf2
    simp only [List.map_nil, clientSends, Run.ret.injEq, Option.some.injEq] at hsent
    subst hsent
    cases hups
    obtain ⟨h1, -⟩ := acceptGo_alone (reqs := []) (gs := []) (m := M) hx hp .nil hc hg0.1 hg0.2 (by omega) (by simp) hrel ht hgo
    exact ⟨h1, [], rfl, .nil⟩
  | cons r rounds ih =>
    intro hfair n w parts hsent c c' g0 ups hups hc hg0 hM hrel ht ev res hgo hroom io d0 downs hdowns hio hd0 hf hf2
    have hr := hfair r List.mem_cons_self
    -- the client sends
    simp only [List.map_cons, clientSends] at hsent
    obtain ⟨⟨w', sr⟩, hs1, hs2⟩ := Run.bind_eq_ret.1 hsent
    have hsr : sr = .sent := by
      cases sr with
      | sent => rfl
      | writing => simp at hs2
      | failed => simp at hs2
    subst hsr
    obtain ⟨ps, hs3, hs4⟩ := Run.bind_eq_ret.1 hs2
    simp only [Run.ret.injEq] at hs4
    cases ps with
    | none => cases hs4
    | some ps =>
    simp only [Option.map_some, Option.some.injEq] at hs4
    subst hs4
    obtain ⟨sent, k1, -, -, k2⟩ := C50_written hs1
    obtain ⟨H, used, k3, k4, -⟩ := k2 rfl
    rw [hr.requestable.head] at k3
    injection k3 with k3
    subst k3
    cases hups with
    | cons hu hups =>
    rename_i u ups
    rw [k1, List.drop_left, k4] at hu
    -- the server serves
    simp only [List.length_cons, acceptGo] at hgo
    obtain ⟨⟨c1, ev1, res1⟩, hgo1, hgo2⟩ := Run.bind_eq_ret.1 hgo
    have hc1 : c.rd = (g0 ++ u) ++ ups.flatten := by rw [hc]; simp
    have hbr : Brings (g0 ++ u) (renderRequest r.req.method r.target r.fields ++ rem r.req.body) :=
      ⟨by rw [Script.ending_append _ hg0.1]; exact hu.1, by rw [Script.bytes_append _ hg0.1, hg0.2]; exact hu.2⟩
    obtain ⟨rfl, b2, b3, b4, ⟨g', b5, b6, b7⟩, resp, msg, b8, b9, b10⟩ := server_round hx hp hr hc1 hbr hM hrel ht hgo1
    dsimp only at hgo2
    obtain ⟨⟨c2, ev2, res2⟩, hgo3, hgo4⟩ := Run.bind_eq_ret.1 hgo2
    simp only [Run.ret.injEq, Prod.mk.injEq] at hgo4
    obtain ⟨rfl, rfl, rfl⟩ := hgo4
    rw [responses_append, b9] at hdowns hroom
    have hroom1 : r.streamed = true → SmallFraming r.answer.body msg := hroom (r, msg) (by simp)
    have hroom : ∀ x ∈ rounds.zip (responses ev2), x.1.streamed = true → SmallFraming x.1.answer.body x.2 := fun x hx => hroom x (by simp [hx])
    cases hdowns with
    | cons hd hdowns =>
    rename_i d downs
    -- the client receives
    have hio1 : io = (d0 ++ d) ++ (downs.flatten ++ more) := by rw [hio]; simp
    have hbd : Brings (d0 ++ d) msg :=
      ⟨by rw [Script.ending_append _ hd0.1]; exact hd.1, by rw [Script.bytes_append _ hd0.1, hd0.2]; exact hd.2⟩
    have hremio : rem io = msg ++ Script.bytes (downs.flatten ++ more) := by
      show Script.bytes io = _
      rw [hio1, Script.bytes_append _ hbd.1, hbd.2]
    have hpio : meas io = Script.pendings (d0 ++ d) + Script.pendings (downs.flatten ++ more) := by
      show Script.pendings io = _
      rw [hio1, Script.pendings_append _ hbd.1]
    have hl : (rem io).length = msg.length + (Script.bytes (downs.flatten ++ more)).length := by rw [hremio]; simp only [List.length_append]
    have hu64 : r.answer.body.length < 2 ^ 64 := by have := hr.fits; unfold usizeLimit at this; omega
    obtain ⟨rsp, b, d', t1, t23, t4, t5, t6, t7⟩ : ∃ rsp b d', ClientDecode.decode now pool cfuel' ((d0 ++ d) ++ (downs.flatten ++ more)) = .ret (.done (.ok rsp)) ∧
        r.GotAs env.now ⟨rsp.status, rsp.headers, r.answer.body⟩ ∧ rsp.toBody.intoBytes grow bfuel = .ret (.stream b, .ok r.answer.body) ∧ b.io = d' ++ (downs.flatten ++ more) ∧
        Brings d' [] ∧ Script.pendings d' ≤ Script.pendings (d0 ++ d) := by
      by_cases hst : r.streamed = true
      · have b8' : r.answer.StreamedAs resp := by unfold Round.SentAs at b8; rwa [if_pos hst] at b8
        rw [b8'.2.2.2.1] at b10
        obtain ⟨wire, rfl, hcm⟩ := b10
        have hwire : Roomy wire r.answer.body [] := by
          rcases hroom1 hst with hsm | ⟨head, wire', e, hf1, hr1⟩
          · exact roomy_of_length (hcm.body hu64) (by rw [List.length_append] at hsm; omega)
          · have := hf1.unique ((hr.transmittable resp b8 n).first wire)
            subst this
            rw [← List.append_cancel_left e] at hr1
            exact hr1
        have hle : r.answer.body.length ≤ wire.length := chunkedMessage_length hcm
        rw [List.length_append] at hl
        obtain ⟨rsp, b, d', t1, t2, t3, t4⟩ := client_roundC (rest := downs.flatten ++ more) (now := now) (hr.transmittable resp b8 n) b8'.2.2.2.1 hwire hbd hpool hgrow (fuel' := cfuel') (fuel'' := bfuel)
          (by rw [← hio1]; exact hf) (by omega)
        exact ⟨rsp, b, d', t1, by unfold Round.GotAs; rw [if_pos hst], t4⟩
      · have b8' : r.answer.SentAs resp := by unfold Round.SentAs at b8; rwa [if_neg hst] at b8
        rw [b8'.2.2.2.1] at b10
        have hmsg : msg = headOf resp (env.now n) ++ r.answer.body := by
          have : msg = headOf resp (env.now n) ++ r.answer.body.take r.answer.body.length := b10
          rwa [List.take_length] at this
        subst hmsg
        rw [List.length_append] at hl
        obtain ⟨rsp, b, d', t1, t2, t3, t4⟩ := client_round (rest := downs.flatten ++ more) (now := now) b8' (hr.transmittable resp b8 n) hu64 hbd hpool hgrow (fuel' := cfuel') (fuel'' := bfuel)
          (by rw [← hio1]; exact hf) (by rw [← hio1]; omega)
        exact ⟨rsp, b, d', t1, by unfold Round.GotAs; rw [if_neg hst]; exact ⟨t2, rfl, n, t3⟩, t4⟩
    -- and so on
    have hrem' : rem b.io = Script.bytes (downs.flatten ++ more) := by
      show Script.bytes b.io = _
      rw [t5, Script.bytes_append _ t6.1, t6.2]; rfl
    have hmeas' : meas b.io = Script.pendings d' + Script.pendings (downs.flatten ++ more) := by
      show Script.pendings b.io = _
      rw [t5, Script.pendings_append _ t6.1]
    have hpc : Script.pendings c1.rd ≤ Script.pendings c.rd := by
      rw [b5, hc1, Script.pendings_append _ b6.1, Script.pendings_append _ hbr.1]; omega
    obtain ⟨rfl, got, u1, u2⟩ := ih (fun r' hr' => hfair r' (List.mem_cons_of_mem _ hr')) hs3 hups b5 b6 (by omega) b3 b2 hgo3 hroom hdowns t5 t6 (by rw [hrem', hmeas']; omega) (by rw [hrem', hmeas']; omega)
    refine ⟨rfl, ⟨rsp.status, rsp.headers, r.answer.body⟩ :: got, ?_, .cons t23 u2⟩
    have hcon : connect now pool cfuel cfuel' r.req io w = .ret (w', .done (.ok rsp)) := by
      unfold connect
      rw [hs1]
      simp only [Run.ret_bind]
      rw [hio1, t1]
      rfl
    simp only [List.map_cons, clientTalks, hcon, Run.ret_bind, t4, u1]
    rfl

/-- **C97.**  A tophat client makes any number of requests on one connection to a tophat server, one after the other, each after having read the response to the last to its end; every request, and every
response, comes in packets of its own, in any number of them and with any pauses (as it is when the client waits for each response, and the endpoint reads the request before it answers).  Then it gets,
for each of its requests, the answer of the application to that request: status, headers and body; and when the client closes the connection, `accept` returns `Ok`. -/
theorem C97_session {env : Env} (hx : HexLenOk env.hexLen) (hp : ∀ n, (env.pool n).Ok) {opts : ServerOpts} {endpoint : Endpoint β} {rounds : List (Round α)} {M : Nat}
    (hfair : ∀ r ∈ rounds, r.Fair env endpoint M) (hdecl : ∀ r ∈ rounds, r.streamed = false)
    -- the client, which writes `parts`; they arrive as `ups`
    {now : Bytes} {pool : Pool} (hpool : pool.Ok) {grow : Nat → Nat → Nat} (hgrow : GrowOk grow) {cfuel cfuel' bfuel : Nat} {w : Writer} {parts : List Bytes}
    (hsent : clientSends cfuel (rounds.map (·.req)) w = .ret (some parts)) {ups : List Script} (hups : List.Forall₂ Brings ups parts)
    -- the server, on a connection that brings `ups`
    {sfuel n : Nat} {c c' : Conn Script} (hc : c.rd = ups.flatten) (hM : Script.pendings c.rd + c.wr.script.length ≤ M) (hrel : c.wr.Reliable) (ht : NoTimeout opts c) {ev : List Event} {res : AcceptRes}
    (hgo : acceptGo env opts endpoint sfuel (rounds.length + 1) n c = .ret (c', ev, res))
    -- its responses arrive as `downs`, and perhaps something else behind them
    {io : Script} {downs : List Script} (hdowns : List.Forall₂ Brings downs (responses ev)) {more : Script} (hio : io = downs.flatten ++ more)
    (hf : 2 * (rem io).length + meas io < cfuel') (hf2 : (rem io).length + meas io < bfuel) :
    res = .ok ∧ ∃ got, clientTalks now pool grow cfuel cfuel' bfuel (rounds.map (·.req)) io w = .ret (some got) ∧ List.Forall₂ (fun r got => r.answer.GotAs env.now got) rounds got :=
  by
  obtain ⟨h1, got, h2, h3⟩ := talk_go hx hp hpool hgrow (now := now) (g0 := []) (d0 := []) rounds hfair hsent hups hc ⟨rfl, rfl⟩ hM hrel ht hgo
    (fun x hx h => by rw [hdecl x.1 (List.of_mem_zip hx).1] at h; cases h) hdowns hio ⟨rfl, rfl⟩ hf hf2
  refine ⟨h1, got, h2, ?_⟩
  clear h2 hgo hsent hfair
  induction h3 with
  | nil => exact .nil
  | cons a _ ih =>
    unfold Round.GotAs at a
    rw [hdecl _ List.mem_cons_self] at a
    exact .cons a (ih fun r hr => hdecl r (List.mem_cons_of_mem _ hr))

end

/-- Whether a response arrives does not depend on how its body is produced. -/
theorem transmittable_same {σ τ : Type} {a : InnerResponse σ} {b : InnerResponse τ} (h1 : b.version = a.version) (h2 : b.status = a.status) (h3 : b.headers = a.headers) (h4 : b.length = a.length) {now : Bytes}
    (h : Transmittable a now) : Transmittable b now := by
  obtain ⟨b1, b2, b3, b4, b5⟩ := b
  simp only at h1 h2 h3 h4
  subst h1 h2 h3 h4
  exact ⟨h.version, h.status, h.wf, h.valid, h.blanks, h.clock, h.fields, h.small⟩

section
variable {α : Type} [AsyncBufRead α] [LawfulBufRead α]

/-- What the client gets from `computing`. -/
def computed (f : Bytes → Bytes) (x : ClientRequest α × Bytes × List (Bytes × Bytes)) : Round α := ⟨x.1, x.2.1, x.2.2, ⟨200, [], f (rem x.1.body)⟩, false⟩

theorem computed_fair {env : Env} (hc : ∀ n, (∀ b ∈ env.now n, valueByte b) ∧ ∀ b, (env.now n).head? = some b → b ≠ 32 ∧ b ≠ 9) (hnow : ∀ n, (env.now n).length ≤ 4096)
    {grow : Nat → Nat → Nat} (hg : GrowOk grow) {f : Bytes → Bytes} {text : IoErr → Bytes} {late : Prog Cursor} {fuel M : Nat} {x : ClientRequest α × Bytes × List (Bytes × Bytes)}
    (hr : Requestable env.uriOk x.1 x.2.1 x.2.2) (he : Expects x.2.2 = false) (hf : (rem x.1.body).length + M < fuel) (hlim : 8192 + (f (rem x.1.body)).length < usizeLimit) :
    (computed f x).Fair env (computing grow f text late fuel) M where
  requestable := hr
  unexpecting := he
  answers := fun _ _ => readAll_answersTo hg fuel (by simp [ToEnd.new]) hf fun _ => ⟨⟨rfl, rfl, rfl, by simp [ToEnd.new, computed], by simp [ToEnd.new, computed]; rfl, rfl⟩, fun _ => trivial⟩
  drains := fun hmap _ => (computing_takenBy (r := ⟨[], [], [], rem x.1.body, false⟩) hg hf : Sent.TakenBy _ (computing grow f text late fuel _ _) M)
  transmittable := by
    intro resp hs n
    refine transmittable_same ?_ ?_ ?_ ?_ (plain_transmittable (hc n) (hnow n) (bs := f (rem x.1.body)) (by omega))
    · exact hs.1
    · exact hs.2.1
    · exact hs.2.2.1
    · exact hs.2.2.2.1
  fits := hlim

/-- **C97** for an endpoint that computes its answer from the body of the request: the client gets `f` of each of the bodies that it sends, in their order. -/
theorem C97_computing {env : Env} (hx : HexLenOk env.hexLen) (hp : ∀ n, (env.pool n).Ok) {opts : ServerOpts}
    (hclock : ∀ n, (∀ b ∈ env.now n, valueByte b) ∧ ∀ b, (env.now n).head? = some b → b ≠ 32 ∧ b ≠ 9) (hnow : ∀ n, (env.now n).length ≤ 4096)
    {grow : Nat → Nat → Nat} (hg : GrowOk grow) {f : Bytes → Bytes} {text : IoErr → Bytes} {late : Prog Cursor} {fuel M : Nat}
    {xs : List (ClientRequest α × Bytes × List (Bytes × Bytes))} (hreq : ∀ x ∈ xs, Requestable env.uriOk x.1 x.2.1 x.2.2 ∧ Expects x.2.2 = false)
    (hsize : ∀ x ∈ xs, (rem x.1.body).length + M < fuel ∧ 8192 + (f (rem x.1.body)).length < usizeLimit)
    -- the client, which writes `parts`; they arrive as `ups`
    {now : Bytes} {pool : Pool} (hpool : pool.Ok) {grow' : Nat → Nat → Nat} (hg' : GrowOk grow') {cfuel cfuel' bfuel : Nat} {w : Writer} {parts : List Bytes}
    (hsent : clientSends cfuel (xs.map (·.1)) w = .ret (some parts)) {ups : List Script} (hups : List.Forall₂ Brings ups parts)
    -- the server, on a connection that brings `ups`
    {sfuel n : Nat} {c c' : Conn Script} (hc : c.rd = ups.flatten) (hM : Script.pendings c.rd + c.wr.script.length ≤ M) (hrel : c.wr.Reliable) (ht : NoTimeout opts c) {ev : List Event} {res : AcceptRes}
    (hgo : acceptGo env opts (computing grow f text late fuel) sfuel (xs.length + 1) n c = .ret (c', ev, res))
    -- its responses arrive as `downs`, and perhaps something else behind them
    {io : Script} {downs : List Script} (hdowns : List.Forall₂ Brings downs (responses ev)) {more : Script} (hio : io = downs.flatten ++ more)
    (hf : 2 * (rem io).length + meas io < cfuel') (hf2 : (rem io).length + meas io < bfuel) :
    res = .ok ∧ ∃ got, clientTalks now pool grow' cfuel cfuel' bfuel (xs.map (·.1)) io w = .ret (some got) ∧
      got.map (fun a => (a.status, a.body)) = xs.map fun x => (200, f (rem x.1.body)) := by
  have hmap : (xs.map (computed f)).map (·.req) = xs.map (·.1) := by simp [computed, Function.comp_def]
  obtain ⟨h1, got, h2, h3⟩ := C97_session (endpoint := computing grow f text late fuel) (rounds := xs.map (computed f)) (M := M) hx hp
    (fun r hr => by
      obtain ⟨x, hx', rfl⟩ := List.mem_map.1 hr
      exact computed_fair hclock hnow hg (hreq x hx').1 (hreq x hx').2 (hsize x hx').1 (hsize x hx').2)
    (fun r hr => by obtain ⟨x, -, rfl⟩ := List.mem_map.1 hr; rfl) hpool hg' (by rw [hmap]; exact hsent) hups hc hM hrel ht (by rw [List.length_map]; exact hgo) hdowns hio hf hf2
  refine ⟨h1, got, by rw [← hmap]; exact h2, ?_⟩
  clear h2 hmap hgo hsent hreq hsize
  induction xs generalizing got with
  | nil => cases h3; rfl
  | cons x xs ih =>
    cases h3 with
    | cons a b =>
      simp only [List.map_cons]
      rw [ih _ b, a.1, a.2.1]
      rfl

/-- Writing the requests on a reliable transport gets done: this is what is written. -/
theorem clientSends_total {uriOk : Bytes → Bool} : ∀ (xs : List (ClientRequest α × Bytes × List (Bytes × Bytes))), (∀ x ∈ xs, Requestable uriOk x.1 x.2.1 x.2.2 ∧ fin x.1.body = none) →
    ∃ N, ∀ (w : Writer) (fuel : Nat), w.Reliable → N + w.script.length ≤ fuel →
      clientSends fuel (xs.map (·.1)) w = .ret (some (xs.map fun x => renderRequest x.1.method x.2.1 x.2.2 ++ rem x.1.body)) := by
  intro xs
  induction xs with
  | nil => exact fun _ => ⟨0, fun _ _ _ _ => rfl⟩
  | cons x xs ih =>
    intro hxs
    obtain ⟨N, hN⟩ := ih fun y hy => hxs y (List.mem_cons_of_mem _ hy)
    obtain ⟨hq, hfin⟩ := hxs x List.mem_cons_self
    refine ⟨N + 2 * ((renderRequest x.1.method x.2.1 x.2.2).length + (rem x.1.body).length + meas x.1.body) + 1, fun w fuel hw hf => ?_⟩
    have hs := clientSend_spec x.1 fuel w
    rw [hq.head] at hs
    obtain ⟨w', r, sent, used, h1, h2, h3, -, h5⟩ := hs
    cases r with
    | writing => have := h5.1; omega
    | failed e =>
      exfalso
      obtain ⟨y, -, h5 | ⟨pre, h5⟩ | ⟨-, pre, h5⟩⟩ := h5
      · rw [hfin] at h5; cases h5
      · exact (hw (.err y) (by rw [h3, h5]; simp)).2 y rfl
      · exact (hw (.accept 0) (by rw [h3, h5]; simp)).1 rfl
    | sent =>
      have hl : w'.script.length ≤ w.script.length := by rw [h3]; simp
      simp only [List.map_cons, clientSends, h1, Run.ret_bind, hN w' fuel (hw.suffix h3) (by omega), h2, List.drop_left, h5.1, Option.map_some]

theorem brings_flatten {gs : List Script} {bs : List Bytes} (h : List.Forall₂ Brings gs bs) : Brings gs.flatten bs.flatten := by
  induction h with
  | nil => exact ⟨rfl, rfl⟩
  | cons a _ ih => exact ⟨by rw [List.flatten_cons, Script.ending_append _ a.1]; exact ih.1, by rw [List.flatten_cons, Script.bytes_append _ a.1, a.2, List.flatten_cons, ih.2]⟩

/-- Each of them in a packet of its own. -/
theorem brings_each : ∀ bs : List Bytes, List.Forall₂ Brings (bs.map fun b => if b = [] then [] else [.data b]) bs
  | [] => .nil
  | b :: bs => by
    refine .cons ?_ (brings_each bs)
    by_cases h : b = []
    · subst h; exact ⟨rfl, rfl⟩
    · show Brings (if b = [] then [] else [.data b]) b
      rw [if_neg h]
      exact ⟨by simp [Script.ending], by simp [Script.bytes]⟩

/-- **C97**, for the endpoint of `C97_computing`, with nothing assumed to come to an end: on reliable transports the client gets all of its requests written; on every connection that brings them, request by request,
`accept` returns `Ok`; and on every connection that brings what it has written, response by response, the client gets `f` of each of its bodies. -/
theorem C97_complete {env : Env} (hx : HexLenOk env.hexLen) (hp : ∀ n, (env.pool n).Ok) {opts : ServerOpts}
    (hclock : ∀ n, (∀ b ∈ env.now n, valueByte b) ∧ ∀ b, (env.now n).head? = some b → b ≠ 32 ∧ b ≠ 9) (hnow : ∀ n, (env.now n).length ≤ 4096)
    {grow : Nat → Nat → Nat} (hg : GrowOk grow) {f : Bytes → Bytes} {text : IoErr → Bytes} (htext : ∀ e, 8193 + (text e).length < usizeLimit)
    {late : Prog Cursor} (hlate : ∀ n B, late.Tame (env.now n) true B) {fuel M : Nat}
    {xs : List (ClientRequest α × Bytes × List (Bytes × Bytes))} (hreq : ∀ x ∈ xs, Requestable env.uriOk x.1 x.2.1 x.2.2 ∧ Expects x.2.2 = false ∧ fin x.1.body = none)
    (hfuel : ∀ x ∈ xs, (rem x.1.body).length + M < fuel)
    (hsize : ∀ bs : Bytes, bs.length ≤ (xs.map fun x => (renderRequest x.1.method x.2.1 x.2.2 ++ rem x.1.body).length).sum → 8192 + (f bs).length < usizeLimit)
    {now : Bytes} {pool : Pool} (hpool : pool.Ok) {grow' : Nat → Nat → Nat} (hg' : GrowOk grow') {w : Writer} (hw : w.Reliable) :
    ∃ Nc parts, (∀ cfuel ≥ Nc, clientSends cfuel (xs.map (·.1)) w = .ret (some parts)) ∧
      ∀ (ups : List Script), List.Forall₂ Brings ups parts → ∀ (n : Nat) (wr : Writer) (clock : List Bool), Script.pendings ups.flatten + wr.script.length ≤ M → wr.Reliable →
        NoTimeout opts (⟨ups.flatten, wr, clock⟩ : Conn Script) →
        ∃ Ns c' ev, (∀ sfuel ≥ Ns, acceptGo env opts (computing grow f text late fuel) sfuel (xs.length + 1) n ⟨ups.flatten, wr, clock⟩ = .ret (c', ev, .ok)) ∧
          ∀ (downs : List Script) (more : Script), List.Forall₂ Brings downs (responses ev) →
            ∃ Nr, ∀ cfuel ≥ Nc, ∀ cfuel' ≥ Nr, ∀ bfuel ≥ Nr, ∃ got, clientTalks now pool grow' cfuel cfuel' bfuel (xs.map (·.1)) (downs.flatten ++ more) w = .ret (some got) ∧
              got.map (fun a => (a.status, a.body)) = xs.map fun x => (200, f (rem x.1.body)) := by
  obtain ⟨N, hN⟩ := clientSends_total xs fun x hx => ⟨(hreq x hx).1, (hreq x hx).2.2⟩
  refine ⟨N + w.script.length, _, fun cfuel hc => hN w cfuel hw hc, fun ups hups n wr clock hM hwr hto => ?_⟩
  have hsz : ∀ x ∈ xs, (rem x.1.body).length + M < fuel ∧ 8192 + (f (rem x.1.body)).length < usizeLimit := fun x hx => by
    refine ⟨hfuel x hx, hsize _ ?_⟩
    have : ∀ (l : List (ClientRequest α × Bytes × List (Bytes × Bytes))), x ∈ l → (rem x.1.body).length ≤ (l.map fun x => (renderRequest x.1.method x.2.1 x.2.2 ++ rem x.1.body).length).sum := by
      intro l
      induction l with
      | nil => intro h; cases h
      | cons y l ih =>
        intro h
        simp only [List.map_cons, List.sum_cons]
        rcases List.mem_cons.1 h with rfl | h
        · rw [List.length_append]; omega
        · have := ih h; omega
    exact this xs hx
  have hb := brings_flatten hups
  have hlen : (Script.bytes ups.flatten).length = (xs.map fun x => (renderRequest x.1.method x.2.1 x.2.2 ++ rem x.1.body).length).sum := by
    rw [hb.2, List.length_flatten, List.map_map]; rfl
  obtain ⟨Ns, c', ev, res, hgo⟩ := acceptGo_total hx hp (opts := opts) (xs.length + 1) n ⟨ups.flatten, wr, clock⟩
    (fun _ hr => computing_tame (grow := grow) (f := f) (text := text) (late := late) (fuel := fuel)
      (fun bs hb' => hsize bs (by rw [← hlen]; exact Nat.le_trans hb' (hr.suffix hb.1).1.length_le)) htext hlate)
  have key := fun (downs : List Script) (more : Script) (hd : List.Forall₂ Brings downs (responses ev)) (cfuel cfuel' bfuel : Nat) (hc : N + w.script.length ≤ cfuel) h1 h2 =>
    C97_computing (now := now) (cfuel := cfuel) (cfuel' := cfuel') (bfuel := bfuel) hx hp hclock hnow hg (fun x hx => ⟨(hreq x hx).1, (hreq x hx).2.1⟩) hsz hpool hg' (hN w cfuel hw hc) hups rfl hM hwr hto
      (hgo Ns (Nat.le_refl _)) hd (io := downs.flatten ++ more) rfl h1 h2
  obtain ⟨rfl, -⟩ := key _ [] (brings_each _) _ _ _ (Nat.le_refl _) (Nat.lt_succ_self _) (Nat.lt_succ_self _)
  refine ⟨Ns, c', ev, hgo, fun downs more hd => ⟨2 * (rem (downs.flatten ++ more)).length + meas (downs.flatten ++ more) + 1, fun cfuel hc cfuel' h1 bfuel h2 => ?_⟩⟩
  exact (key downs more hd cfuel cfuel' bfuel hc (by omega) (by omega)).2

end

/-! ## A concrete session -/

/-- After the request with `hello`, one with `abc`. -/
def talkRequest : ClientRequest Script := { demoRequest with headers := [], body := [.data (ascii "abc")], length := some 3 }
/-- What the client writes, ... -/
def talkUp : Bytes := ascii "POST /a?q=1 HTTP/1.1\r\nhost: h.org:81\r\ncontent-length: 3\r\n\r\nabc"
/-- ... and what the server answers. -/
def talkDown : Bytes := responseHead .http11 200 [] (some 3) (ascii "NOW") ++ ascii "cba"

theorem talkRequest_ok : Requestable demoEnv.uriOk talkRequest (ascii "/a?q=1") [(ascii "host", ascii "h.org:81"), (ascii "content-length", ascii "3")] :=
  ⟨demoRequest_ok.method, demoRequest_ok.target, demoRequest_ok.targetOk, (HeaderMap.plain_ok (by decide +kernel)).1, (HeaderMap.plain_ok (by decide +kernel)).2, demoRequest_ok.host, by decide, by decide,
    by decide, by decide +kernel, by decide⟩

/-- Both, with what the server sees of them. -/
def talkRequests : List (ClientRequest Script × Bytes × List (Bytes × Bytes)) :=
  [(demoRequest, ascii "/a?q=1", [(ascii "host", ascii "h.org:81"), (ascii "content-length", ascii "5"), (ascii "x-a", ascii "1"), (ascii "x-a", ascii "2")]),
   (talkRequest, ascii "/a?q=1", [(ascii "host", ascii "h.org:81"), (ascii "content-length", ascii "3")])]

/-- All hypotheses of `C97_computing` (and so of `C97_session`) are met: the first request comes in two fragments, the second in one, behind a pause; the responses as well. -/
example : ∃ got, clientTalks (ascii "NOW") zeroPool doubling 100 2000 2000 (talkRequests.map (·.1)) [.data (demoDown.take 20), .pending, .data (demoDown.drop 20), .pending, .data talkDown] ⟨[], [], 0⟩ = .ret (some got) ∧
    got.map (fun a => (a.status, a.body)) = [(200, ascii "olleh"), (200, ascii "cba")] := by
  obtain ⟨c', hgo⟩ : ∃ c', acceptGo demoEnv plainOpts backwards 1000 3 0 (⟨[.data (demoUp.take 30), .pending, .data (demoUp.drop 30), .pending, .data talkUp], ⟨[], [], 0⟩, []⟩ : Conn Script) = .ret (c', _, AcceptRes.ok) :=
    watched_ret (ev := [.call ⟨ascii "POST", ascii "/a?q=1", [(ascii "host", [ascii "h.org:81"]), (ascii "content-length", [ascii "5"]), (ascii "x-a", [ascii "1", ascii "2"])]⟩ (some 5),
      .got 1024 (.data (ascii "hello")), .got 1019 (.data []), .wrote demoDown,
      .call ⟨ascii "POST", ascii "/a?q=1", [(ascii "host", [ascii "h.org:81"]), (ascii "content-length", [ascii "3"])]⟩ (some 3),
      .got 1024 (.data (ascii "abc")), .got 1021 (.data []), .wrote talkDown]) (by decide +kernel)
  exact (C97_computing (M := 2) exactHexLen_ok (fun _ => zeroPool_ok) (fun _ => nowOk) (fun _ => show (ascii "NOW").length ≤ 4096 by decide) doubling_ok
    (xs := talkRequests) (by
      intro x hx
      simp only [talkRequests, List.mem_cons, List.not_mem_nil, or_false] at hx
      rcases hx with rfl | rfl
      · exact ⟨demoRequest_ok, by decide +kernel⟩
      · exact ⟨talkRequest_ok, by decide +kernel⟩) (by decide +kernel)
    zeroPool_ok doubling_ok (w := ⟨[], [], 0⟩) (parts := [demoUp, talkUp]) (cfuel := 100) (by decide +kernel)
    (ups := [[.data (demoUp.take 30), .pending, .data (demoUp.drop 30)], [.pending, .data talkUp]]) (.cons ⟨by decide, by decide +kernel⟩ (.cons ⟨by decide, by decide +kernel⟩ .nil))
    rfl (by decide) (by intro e he; simp at he) (.inl rfl) hgo
    (downs := [[.data (demoDown.take 20), .pending, .data (demoDown.drop 20)], [.pending, .data talkDown]]) (.cons ⟨by decide, by decide +kernel⟩ (.cons ⟨by decide, by decide +kernel⟩ .nil))
    (more := []) rfl (by decide +kernel) (by decide +kernel)).2

/-- All hypotheses of `C97_complete` are met. -/
example : ∃ Nc parts, (∀ cfuel ≥ Nc, clientSends cfuel (talkRequests.map (·.1)) ⟨[.accept 5, .pending], [], 0⟩ = .ret (some parts)) ∧ ∃ ups : List Script, List.Forall₂ Brings ups parts := by
  obtain ⟨Nc, parts, h, -⟩ := C97_complete (opts := plainOpts) (f := List.reverse) (M := 2) (fuel := 100) (text := fun _ => ascii "no") (late := .glitch .new) (env := demoEnv) (now := ascii "NOW") (pool := zeroPool)
    exactHexLen_ok (fun _ => zeroPool_ok) (fun _ => nowOk) (fun _ => show (ascii "NOW").length ≤ 4096 by decide) doubling_ok (fun _ => by show 8193 + (ascii "no").length < usizeLimit; decide)
    (fun _ _ => ⟨(by intro hs h; cases h), by decide⟩) (xs := talkRequests) (by
      intro x hx
      simp only [talkRequests, List.mem_cons, List.not_mem_nil, or_false] at hx
      rcases hx with rfl | rfl
      · exact ⟨demoRequest_ok, by decide +kernel, by decide⟩
      · exact ⟨talkRequest_ok, by decide +kernel, by decide⟩) (by decide +kernel)
    (fun bs hb => by
      have h1 : ∀ k : Nat, k ≤ 1000 → bs.length ≤ k → 8192 + bs.reverse.length < usizeLimit := fun k h1 h2 => by rw [List.length_reverse]; unfold usizeLimit; omega
      exact h1 _ (by decide +kernel) hb)
    zeroPool_ok doubling_ok (w := ⟨[.accept 5, .pending], [], 0⟩) (by intro e he; simp at he; rcases he with rfl | rfl <;> simp)
  exact ⟨Nc, parts, h, _, brings_each parts⟩

/-! ## C98: streamed responses -/

section
variable {α : Type} [AsyncBufRead α] [LawfulBufRead α] {β : Type} [AsyncBufRead β] [LawfulBufRead β]

/-- **C98**, what holds: as `C97_session`, where the application declares the lengths of some of its answers, and streams the others.  The client gets the bodies of those that are streamed, if they have little framing
(`SmallFraming`), and status, headers and bodies of the others, before and behind them.  Missing: more framing (`C98_refuted`); status and headers of responses that are streamed (`C53_refuted_chunked`). -/
theorem C98_session_partial {env : Env} (hx : HexLenOk env.hexLen) (hp : ∀ n, (env.pool n).Ok) {opts : ServerOpts} {endpoint : Endpoint β} {rounds : List (Round α)} {M : Nat}
    (hfair : ∀ r ∈ rounds, r.Fair env endpoint M)
    -- the client, which writes `parts`; they arrive as `ups`
    {now : Bytes} {pool : Pool} (hpool : pool.Ok) {grow : Nat → Nat → Nat} (hgrow : GrowOk grow) {cfuel cfuel' bfuel : Nat} {w : Writer} {parts : List Bytes}
    (hsent : clientSends cfuel (rounds.map (·.req)) w = .ret (some parts)) {ups : List Script} (hups : List.Forall₂ Brings ups parts)
    -- the server, on a connection that brings `ups`
    {sfuel n : Nat} {c c' : Conn Script} (hc : c.rd = ups.flatten) (hM : Script.pendings c.rd + c.wr.script.length ≤ M) (hrel : c.wr.Reliable) (ht : NoTimeout opts c) {ev : List Event} {res : AcceptRes}
    (hgo : acceptGo env opts endpoint sfuel (rounds.length + 1) n c = .ret (c', ev, res))
    (hroom : ∀ x ∈ rounds.zip (responses ev), x.1.streamed = true → SmallFraming x.1.answer.body x.2)
    -- its responses arrive as `downs`, and perhaps something else behind them
    {io : Script} {downs : List Script} (hdowns : List.Forall₂ Brings downs (responses ev)) {more : Script} (hio : io = downs.flatten ++ more)
    (hf : 2 * (rem io).length + meas io < cfuel') (hf2 : (rem io).length + meas io < bfuel) :
    res = .ok ∧ ∃ got, clientTalks now pool grow cfuel cfuel' bfuel (rounds.map (·.req)) io w = .ret (some got) ∧
      List.Forall₂ (fun r got => got.body = r.answer.body ∧ (r.streamed = false → r.answer.GotAs env.now got)) rounds got := by
  obtain ⟨h1, got, h2, h3⟩ := talk_go hx hp hpool hgrow (now := now) (g0 := []) (d0 := []) rounds hfair hsent hups hc ⟨rfl, rfl⟩ hM hrel ht hgo hroom hdowns hio ⟨rfl, rfl⟩ hf hf2
  refine ⟨h1, got, h2, h3.imp fun r a h => ?_⟩
  unfold Round.GotAs at h
  cases hs : r.streamed with
  | true => rw [hs] at h; exact ⟨h, fun h => by cases h⟩
  | false => rw [hs] at h; exact ⟨h.2.1, fun _ => h⟩

/-- **C98**, what holds, with nothing assumed to come to an end: on reliable transports the client gets all of its requests written; on every connection that brings them, request by request, with at most `M` delays, `accept`
returns, for every endpoint that is fair and well-behaved; and if the framing of what was streamed is small, it returns `Ok`, and on every connection that brings what it has written, response by response, the client
gets the answers, as in `C98_session_partial`. -/
theorem C98_complete_partial {env : Env} (hx : HexLenOk env.hexLen) (hp : ∀ n, (env.pool n).Ok) {opts : ServerOpts} {endpoint : Endpoint β} {rounds : List (Round α)} {M : Nat}
    (hfair : ∀ r ∈ rounds, r.Fair env endpoint M) (hfin : ∀ r ∈ rounds, fin r.req.body = none)
    {now : Bytes} {pool : Pool} (hpool : pool.Ok) {grow : Nat → Nat → Nat} (hgrow : GrowOk grow) {w : Writer} (hw : w.Reliable) :
    ∃ Nc parts, (∀ cfuel ≥ Nc, clientSends cfuel (rounds.map (·.req)) w = .ret (some parts)) ∧
      ∀ (ups : List Script), List.Forall₂ Brings ups parts → endpoint.TameOn env ups.flatten → ∀ (n : Nat) (wr : Writer) (clock : List Bool), Script.pendings ups.flatten + wr.script.length ≤ M → wr.Reliable →
        NoTimeout opts (⟨ups.flatten, wr, clock⟩ : Conn Script) →
        ∃ Ns c' ev res, (∀ sfuel ≥ Ns, acceptGo env opts endpoint sfuel (rounds.length + 1) n ⟨ups.flatten, wr, clock⟩ = .ret (c', ev, res)) ∧
          ((∀ x ∈ rounds.zip (responses ev), x.1.streamed = true → SmallFraming x.1.answer.body x.2) → res = .ok ∧
            ∀ (downs : List Script) (more : Script), List.Forall₂ Brings downs (responses ev) →
              ∃ Nr, ∀ cfuel ≥ Nc, ∀ cfuel' ≥ Nr, ∀ bfuel ≥ Nr, ∃ got, clientTalks now pool grow cfuel cfuel' bfuel (rounds.map (·.req)) (downs.flatten ++ more) w = .ret (some got) ∧
                List.Forall₂ (fun r got => got.body = r.answer.body ∧ (r.streamed = false → r.answer.GotAs env.now got)) rounds got) := by
  obtain ⟨N, hN⟩ := clientSends_total (uriOk := env.uriOk) (rounds.map fun r => (r.req, r.target, r.fields)) (by
    intro x hx
    obtain ⟨r, hr, rfl⟩ := List.mem_map.1 hx
    exact ⟨(hfair r hr).requestable, hfin r hr⟩)
  rw [List.map_map] at hN
  refine ⟨N + w.script.length, _, fun cfuel hc => hN w cfuel hw hc, fun ups hups htame n wr clock hM hwr hto => ?_⟩
  obtain ⟨Ns, c', ev, res, hgo⟩ := acceptGo_total hx hp (opts := opts) (rounds.length + 1) n ⟨ups.flatten, wr, clock⟩ htame
  refine ⟨Ns, c', ev, res, hgo, fun hroom => ?_⟩
  have key := fun (downs : List Script) (more : Script) (hd : List.Forall₂ Brings downs (responses ev)) (cfuel cfuel' bfuel : Nat) (hc : N + w.script.length ≤ cfuel) h1 h2 =>
    C98_session_partial (now := now) (cfuel := cfuel) (cfuel' := cfuel') (bfuel := bfuel) hx hp hfair hpool hgrow (hN w cfuel hw hc) hups rfl hM hwr hto
      (hgo Ns (Nat.le_refl _)) hroom hd (io := downs.flatten ++ more) rfl h1 h2
  refine ⟨(key _ [] (brings_each _) _ _ _ (Nat.le_refl _) (Nat.lt_succ_self _) (Nat.lt_succ_self _)).1, fun downs more hd =>
    ⟨2 * (rem (downs.flatten ++ more)).length + meas (downs.flatten ++ more) + 1, fun cfuel hc cfuel' h1 bfuel h2 => ?_⟩⟩
  exact (key downs more hd cfuel cfuel' bfuel hc (by omega) (by omega)).2

/-- **C97**, for every endpoint that is fair and well-behaved and declares the lengths of its answers, with nothing assumed to come to an end. -/
theorem C97_served {env : Env} (hx : HexLenOk env.hexLen) (hp : ∀ n, (env.pool n).Ok) {opts : ServerOpts} {endpoint : Endpoint β} {rounds : List (Round α)} {M : Nat}
    (hfair : ∀ r ∈ rounds, r.Fair env endpoint M) (hfin : ∀ r ∈ rounds, fin r.req.body = none) (hdecl : ∀ r ∈ rounds, r.streamed = false)
    {now : Bytes} {pool : Pool} (hpool : pool.Ok) {grow : Nat → Nat → Nat} (hgrow : GrowOk grow) {w : Writer} (hw : w.Reliable) :
    ∃ Nc parts, (∀ cfuel ≥ Nc, clientSends cfuel (rounds.map (·.req)) w = .ret (some parts)) ∧
      ∀ (ups : List Script), List.Forall₂ Brings ups parts → endpoint.TameOn env ups.flatten → ∀ (n : Nat) (wr : Writer) (clock : List Bool), Script.pendings ups.flatten + wr.script.length ≤ M → wr.Reliable →
        NoTimeout opts (⟨ups.flatten, wr, clock⟩ : Conn Script) →
        ∃ Ns c' ev, (∀ sfuel ≥ Ns, acceptGo env opts endpoint sfuel (rounds.length + 1) n ⟨ups.flatten, wr, clock⟩ = .ret (c', ev, .ok)) ∧
          ∀ (downs : List Script) (more : Script), List.Forall₂ Brings downs (responses ev) →
            ∃ Nr, ∀ cfuel ≥ Nc, ∀ cfuel' ≥ Nr, ∀ bfuel ≥ Nr, ∃ got, clientTalks now pool grow cfuel cfuel' bfuel (rounds.map (·.req)) (downs.flatten ++ more) w = .ret (some got) ∧
              List.Forall₂ (fun r got => r.answer.GotAs env.now got) rounds got := by
  obtain ⟨Nc, parts, h1, h2⟩ := C98_complete_partial (now := now) (opts := opts) hx hp hfair hfin hpool hgrow hw
  refine ⟨Nc, parts, h1, fun ups hups htame n wr clock hM hwr hto => ?_⟩
  obtain ⟨Ns, c', ev, res, h3, h4⟩ := h2 ups hups htame n wr clock hM hwr hto
  obtain ⟨rfl, h5⟩ := h4 fun x hx h => by rw [hdecl x.1 (List.of_mem_zip hx).1] at h; cases h
  refine ⟨Ns, c', ev, h3, fun downs more hd => ?_⟩
  obtain ⟨Nr, h6⟩ := h5 downs more hd
  refine ⟨Nr, fun cfuel hc cfuel' hc' bfuel hb => ?_⟩
  obtain ⟨got, h7, h8⟩ := h6 cfuel hc cfuel' hc' bfuel hb
  refine ⟨got, h7, ?_⟩
  clear h7 h6 h5 h4 h3 h2 h1 hd
  induction h8 with
  | nil => exact .nil
  | cons a _ ih => exact .cons (a.2 (hdecl _ List.mem_cons_self)) (ih (fun r hr => hfair r (List.mem_cons_of_mem _ hr)) (fun r hr => hfin r (List.mem_cons_of_mem _ hr))
      (fun r hr => hdecl r (List.mem_cons_of_mem _ hr)))

end

/-- As `computing`, but the length of the answer is not declared for some requests, chosen by method and target. -/
def mixing (pick : Bytes → Bytes → Bool) (grow : Nat → Nat → Nat) (f : Bytes → Bytes) (text : IoErr → Bytes) (late : Prog Cursor) (fuel : Nat) : Endpoint Cursor := fun head _ =>
  Prog.readAll grow (fun bs => .send ⟨200, [], .http11, ⟨f bs⟩, if pick head.method head.uri then none else some (f bs).length⟩ (fun _ => .ok) fun e => .glitch (.newWithErr (text e)))
    (fun e => .glitch (.newWithErr (text e))) late fuel (ToEnd.new 1024)

/-- What the client gets from `mixing`. -/
def mixedRound {α : Type} [AsyncBufRead α] [LawfulBufRead α] (pick : Bytes → Bytes → Bool) (f : Bytes → Bytes) (x : ClientRequest α × Bytes × List (Bytes × Bytes)) : Round α :=
  ⟨x.1, x.2.1, x.2.2, ⟨200, [], f (rem x.1.body)⟩, pick x.1.method x.2.1⟩

theorem streamed_transmittable {σ : Type} {now : Bytes} (hc : (∀ b ∈ now, valueByte b) ∧ ∀ b, now.head? = some b → b ≠ 32 ∧ b ≠ 9) (hn : now.length ≤ 4096) (body : σ) :
    Transmittable (⟨200, [], .http11, body, none⟩ : InnerResponse σ) now := by
  have hp : HeaderMap.plain [] = true := by decide
  refine ⟨rfl, ⟨(by decide : (100 : UInt16) ≤ 200), (by decide : (200 : UInt16) < 1000)⟩, HeaderMap.wf_nil, (HeaderMap.plain_ok hp).1, (HeaderMap.plain_ok hp).2, hc, ?_, ?_⟩
  · show (sentFields [] none now).length ≤ 128
    unfold sentFields
    simp only [List.length_append]
    split <;> split <;> simp [HeaderMap.iter]
  · show (renderResponseHead .http11 200 (sentFields [] none now)).length < 8192
    have h1 : (Version.http11.debug ++ [32] ++ statusDisplay 200 ++ [13, 10]).length < 100 := by decide
    have h2 : (ascii "transfer-encoding").length = 17 := by decide
    have h3 : (ascii "date").length = 4 := by decide
    have h4 : (ascii "content-type").length = 12 := by decide
    have h5 : (ascii "application/octet-stream").length = 24 := by decide
    have h7 : (ascii "chunked").length = 7 := by decide
    have h6 : (renderFields (sentFields [] none now)).length ≤ 200 + now.length := by
      unfold renderFields sentFields framingField
      simp only [List.flatMap_append, List.length_append]
      split <;> split <;> simp [HeaderMap.iter, h2, h3, h4, h5, h7] <;> omega
    unfold renderResponseHead
    simp only [List.length_append] at h1 ⊢
    simp only [List.length_cons, List.length_nil] at h1 ⊢
    omega

theorem mixedRound_fair {α : Type} [AsyncBufRead α] [LawfulBufRead α] {env : Env} (hc : ∀ n, (∀ b ∈ env.now n, valueByte b) ∧ ∀ b, (env.now n).head? = some b → b ≠ 32 ∧ b ≠ 9) (hnow : ∀ n, (env.now n).length ≤ 4096)
    {pick : Bytes → Bytes → Bool} {grow : Nat → Nat → Nat} (hg : GrowOk grow) {f : Bytes → Bytes} {text : IoErr → Bytes} {late : Prog Cursor} {fuel M : Nat}
    {x : ClientRequest α × Bytes × List (Bytes × Bytes)}
    (hr : Requestable env.uriOk x.1 x.2.1 x.2.2) (he : Expects x.2.2 = false) (hf : (rem x.1.body).length + M < fuel) (hlim : 8192 + (f (rem x.1.body)).length < usizeLimit) :
    (mixedRound pick f x).Fair env (mixing pick grow f text late fuel) M where
  requestable := hr
  unexpecting := he
  answers := fun _ _ => by
    refine readAll_answersTo hg fuel (by simp [ToEnd.new]) hf fun _ => ⟨?_, fun _ => trivial⟩
    unfold Round.SentAs
    cases hp : pick x.1.method x.2.1 with
    | true =>
      rw [if_pos (by exact hp)]
      exact ⟨rfl, rfl, rfl, by simp [mixedRound, hp], by simp [ToEnd.new, mixedRound]; rfl, rfl⟩
    | false =>
      rw [if_neg (by show ¬ pick x.1.method x.2.1 = true; rw [hp]; simp)]
      exact ⟨rfl, rfl, rfl, by simp [ToEnd.new, mixedRound, hp], by simp [ToEnd.new, mixedRound]; rfl, rfl⟩
  drains := fun hmap _ => by
    have ho : ∀ bs, (Prog.send (σ := Cursor) ⟨200, [], .http11, ⟨f bs⟩, if pick x.1.method x.2.1 then none else some (f bs).length⟩ (fun _ => .ok) fun e => .glitch (.newWithErr (text e))).Shut :=
      fun bs => ⟨fun _ => trivial, fun _ => trivial⟩
    exact readAll_drains hg ho fuel (by simp [ToEnd.new]) hf
  transmittable := by
    intro resp hs n
    unfold Round.SentAs at hs
    split at hs
    · exact transmittable_same hs.1 hs.2.1 hs.2.2.1 hs.2.2.2.1 (streamed_transmittable (hc n) (hnow n) (⟨[]⟩ : Cursor))
    · exact transmittable_same hs.1 hs.2.1 hs.2.2.1 hs.2.2.2.1 (plain_transmittable (hc n) (hnow n) (bs := f (rem x.1.body)) (by omega))
  fits := hlim

/-- The answers to POST requests to `/a?q=1` are streamed, ... -/
def mixedPick : Bytes → Bytes → Bool := fun _ uri => uri == ascii "/a?q=1"
/-- ... but not those to requests to `/b`. -/
def talkRequestB : ClientRequest Script := { talkRequest with uri := { demoRequest.uri with path := ascii "/b", query := none } }

/-- What the client writes for it, ... -/
def talkUpB : Bytes := ascii "POST /b HTTP/1.1\r\nhost: h.org:81\r\ncontent-length: 3\r\n\r\nabc"
/-- ... and what the server answers to the first request. -/
def mixedDown : Bytes := responseHead .http11 200 [] none (ascii "NOW") ++ ascii "5\r\nolleh\r\n0\r\n\r\n"
/-- The endpoint. -/
def mixedBackwards : Endpoint Cursor := mixing mixedPick doubling List.reverse (fun _ => ascii "no") (.glitch .new) 100

theorem talkRequestB_ok : Requestable demoEnv.uriOk talkRequestB (ascii "/b") [(ascii "host", ascii "h.org:81"), (ascii "content-length", ascii "3")] :=
  ⟨demoRequest_ok.method, by decide +kernel, ⟨by unfold targetByte; decide, by decide +kernel⟩, (HeaderMap.plain_ok (by decide +kernel)).1, (HeaderMap.plain_ok (by decide +kernel)).2, demoRequest_ok.host, by decide, by decide,
    by decide, by decide +kernel, by decide⟩

/-- Both requests, with what the server sees of them. -/
def mixedRequests : List (ClientRequest Script × Bytes × List (Bytes × Bytes)) :=
  [(demoRequest, ascii "/a?q=1", [(ascii "host", ascii "h.org:81"), (ascii "content-length", ascii "5"), (ascii "x-a", ascii "1"), (ascii "x-a", ascii "2")]),
   (talkRequestB, ascii "/b", [(ascii "host", ascii "h.org:81"), (ascii "content-length", ascii "3")])]

theorem mixing_tame {env : Env} {pick : Bytes → Bytes → Bool} {grow : Nat → Nat → Nat} {f : Bytes → Bytes} {B : Nat} (hf : ∀ bs, bs.length ≤ B → 8192 + (f bs).length < usizeLimit) {text : IoErr → Bytes}
    (ht : ∀ e, 8193 + (text e).length < usizeLimit) {late : Prog Cursor} (hl : ∀ n B, late.Tame (env.now n) true B) {fuel : Nat}
    (hd : ∀ n, (responseHead .http11 200 [] none (env.now n)).length % 8192 ∉ [8188, 8189]) : Endpoint.Tame env (mixing pick grow f text late fuel) B := by
  intro n head len
  have hg : ∀ e, (Glitch.newWithErr (text e)).Ok := fun e => ⟨(by intro hs h; cases h), by
    show 8192 + (0 + 1 + (text e).length) < usizeLimit
    have := ht e; omega⟩
  refine readAll_tame (B := B) (fun bs hb _ => ?_) (fun e _ => ?_) (hl n) fuel _ _ (by simp [ToEnd.new])
  · refine ⟨⟨HeaderMap.wf_nil, ?_⟩, fun _ => trivial, fun e => hg e⟩
    cases hp : pick head.method head.uri
    · exact ⟨hf bs hb, Nat.le_refl _⟩
    · exact .inr (hd n)
  · exact hg e

/-- All hypotheses of `C97_served` are met, for any connection that brings the two requests as the client writes them, with one pause in all. -/
example : ∃ Nc parts, (∀ cfuel ≥ Nc, clientSends cfuel (talkRequests.map (·.1)) ⟨[.accept 5, .pending], [], 0⟩ = .ret (some parts)) ∧
    ∀ ups : List Script, List.Forall₂ Brings ups parts → Script.pendings ups.flatten ≤ 1 →
      ∃ Ns c' ev, ∀ sfuel ≥ Ns, acceptGo demoEnv plainOpts backwards sfuel 3 0 (⟨ups.flatten, ⟨[.accept 7], [], 0⟩, []⟩ : Conn Script) = .ret (c', ev, .ok) := by
  have hreq : ∀ x ∈ talkRequests, Requestable demoEnv.uriOk x.1 x.2.1 x.2.2 ∧ fin x.1.body = none := by
    intro x hx
    simp only [talkRequests, List.mem_cons, List.not_mem_nil, or_false] at hx
    rcases hx with rfl | rfl
    · exact ⟨demoRequest_ok, by decide⟩
    · exact ⟨talkRequest_ok, by decide⟩
  have hw : Writer.Reliable ⟨[.accept 5, .pending], [], 0⟩ := by intro e he; simp at he; rcases he with rfl | rfl <;> simp
  obtain ⟨Nc, parts, h, h'⟩ := C97_served (M := 2) (now := ascii "NOW") (pool := zeroPool) (opts := plainOpts) exactHexLen_ok (fun _ => zeroPool_ok) (endpoint := backwards)
    (rounds := talkRequests.map (computed List.reverse)) (by
      intro r hr
      obtain ⟨x, hx, rfl⟩ := List.mem_map.1 hr
      have h0 := (hreq x hx).1
      simp only [talkRequests, List.mem_cons, List.not_mem_nil, or_false] at hx
      rcases hx with rfl | rfl <;>
        exact computed_fair (fun _ => nowOk) (fun _ => show (ascii "NOW").length ≤ 4096 by decide) doubling_ok h0 (by decide +kernel) (by decide) (by decide))
    (by
      intro r hr
      obtain ⟨x, hx, rfl⟩ := List.mem_map.1 hr
      exact (hreq x hx).2)
    (by
      intro r hr
      obtain ⟨x, hx, rfl⟩ := List.mem_map.1 hr
      rfl)
    zeroPool_ok doubling_ok (w := ⟨[.accept 5, .pending], [], 0⟩) hw
  refine ⟨Nc, parts, h, fun ups hups hpend => ?_⟩
  have hall : parts = [demoUp, talkUp] := by
    obtain ⟨N, hN⟩ := clientSends_total (uriOk := demoEnv.uriOk) talkRequests hreq
    exact (Option.some.inj (Run.ret.inj ((h (Nc + N + 100) (by omega)).symm.trans (hN _ (Nc + N + 100) hw (by simp; omega))))).trans (by decide +kernel)
  have hb := brings_flatten hups
  obtain ⟨Ns, c', ev, h1, -⟩ := h' ups hups (fun r hr => computing_tame (env := demoEnv) (late := .glitch .new) (fun bs hbs => by
      have h1 : (Script.bytes ups.flatten).length ≤ 1000 := by rw [hb.2, hall]; decide +kernel
      have h3 : bs.length ≤ 1000 := Nat.le_trans hbs (Nat.le_trans (hr.suffix hb.1).1.length_le h1)
      rw [List.length_reverse]; unfold usizeLimit; omega) (fun _ => by show 8193 + (ascii "error").length < usizeLimit; decide) (fun _ _ => ⟨(by intro hs h; cases h), by decide⟩))
    0 ⟨[.accept 7], [], 0⟩ [] (by show _ + 1 ≤ 2; omega) (by intro e he; simp at he; subst he; simp) (.inl rfl)
  exact ⟨Ns, c', ev, h1⟩

/-- All hypotheses of `C98_complete_partial` are met, for any connection that brings the two requests as the client writes them, with one pause in all. -/
example : ∃ Nc parts, (∀ cfuel ≥ Nc, clientSends cfuel (mixedRequests.map (·.1)) ⟨[.accept 5, .pending], [], 0⟩ = .ret (some parts)) ∧
    ∀ ups : List Script, List.Forall₂ Brings ups parts → Script.pendings ups.flatten ≤ 1 →
      ∃ Ns c' ev res, ∀ sfuel ≥ Ns, acceptGo demoEnv plainOpts mixedBackwards sfuel 3 0 (⟨ups.flatten, ⟨[.accept 7], [], 0⟩, []⟩ : Conn Script) = .ret (c', ev, res) := by
  obtain ⟨Nc, parts, h, h'⟩ := C98_complete_partial (M := 2) (now := ascii "NOW") (pool := zeroPool) (opts := plainOpts) exactHexLen_ok (fun _ => zeroPool_ok) (endpoint := mixedBackwards)
    (rounds := mixedRequests.map (mixedRound mixedPick List.reverse)) (by
      intro r hr
      obtain ⟨x, hx, rfl⟩ := List.mem_map.1 hr
      simp only [mixedRequests, List.mem_cons, List.not_mem_nil, or_false] at hx
      rcases hx with rfl | rfl
      · exact mixedRound_fair (fun _ => nowOk) (fun _ => show (ascii "NOW").length ≤ 4096 by decide) doubling_ok demoRequest_ok (by decide +kernel) (by decide) (by decide)
      · exact mixedRound_fair (fun _ => nowOk) (fun _ => show (ascii "NOW").length ≤ 4096 by decide) doubling_ok talkRequestB_ok (by decide +kernel) (by decide) (by decide))
    (by
      intro r hr
      obtain ⟨x, hx, rfl⟩ := List.mem_map.1 hr
      simp only [mixedRequests, List.mem_cons, List.not_mem_nil, or_false] at hx
      rcases hx with rfl | rfl <;> decide)
    zeroPool_ok doubling_ok (w := ⟨[.accept 5, .pending], [], 0⟩) (by intro e he; simp at he; rcases he with rfl | rfl <;> simp)
  refine ⟨Nc, parts, h, fun ups hups hpend => ?_⟩
  have hall : parts = [demoUp, talkUpB] := by
    obtain ⟨N, hN⟩ := clientSends_total (uriOk := demoEnv.uriOk) mixedRequests (by
      intro x hx
      simp only [mixedRequests, List.mem_cons, List.not_mem_nil, or_false] at hx
      rcases hx with rfl | rfl
      · exact ⟨demoRequest_ok, by decide⟩
      · exact ⟨talkRequestB_ok, by decide⟩)
    have h2 := hN ⟨[.accept 5, .pending], [], 0⟩ (Nc + N + 100) (by intro e he; simp at he; rcases he with rfl | rfl <;> simp) (by simp; omega)
    have h3 := h (Nc + N + 100) (by omega)
    exact (Option.some.inj (Run.ret.inj (h3.symm.trans h2))).trans (by decide +kernel)
  have hb := brings_flatten hups
  obtain ⟨Ns, c', ev, res, h1, -⟩ := h' ups hups (fun r hr => show Endpoint.Tame demoEnv (mixing mixedPick doubling List.reverse (fun _ => ascii "no") (.glitch .new) 100) _ from mixing_tame (env := demoEnv) (late := .glitch .new) (fun bs hbs => by
      have h1 : (Script.bytes ups.flatten).length ≤ 1000 := by rw [hb.2, hall]; decide +kernel
      have h2 := (hr.suffix hb.1).1.length_le
      have h3 : bs.length ≤ 1000 := Nat.le_trans hbs (Nat.le_trans h2 h1)
      rw [List.length_reverse]; unfold usizeLimit; omega) (fun _ => by show 8193 + (ascii "no").length < usizeLimit; decide) (fun _ _ => ⟨(by intro hs h; cases h), by decide⟩) (fun _ => by show (responseHead .http11 200 [] none (ascii "NOW")).length % 8192 ∉ _; decide +kernel))
    0 ⟨[.accept 7], [], 0⟩ [] (by show _ + 1 ≤ 2; omega) (by intro e he; simp at he; subst he; simp) (.inl rfl)
  exact ⟨Ns, c', ev, res, h1⟩

/-- All hypotheses of `C98_session_partial` are met, where the answer to the first request is streamed, and the other is not. -/
example : ∃ got, clientTalks (ascii "NOW") zeroPool doubling 100 2000 2000 (mixedRequests.map (·.1)) [.data (mixedDown.take 20), .pending, .data (mixedDown.drop 20), .pending, .data talkDown] ⟨[], [], 0⟩ = .ret (some got) ∧
    List.Forall₂ (fun (r : Round Script) got => got.body = r.answer.body ∧ (r.streamed = false → r.answer.GotAs demoEnv.now got)) (mixedRequests.map (mixedRound mixedPick List.reverse)) got := by
  obtain ⟨c', hgo⟩ : ∃ c', acceptGo demoEnv plainOpts mixedBackwards 1000 3 0 (⟨[.data (demoUp.take 30), .pending, .data (demoUp.drop 30), .pending, .data talkUpB], ⟨[], [], 0⟩, []⟩ : Conn Script) = .ret (c', _, AcceptRes.ok) :=
    watched_ret (ev := [.call ⟨ascii "POST", ascii "/a?q=1", [(ascii "host", [ascii "h.org:81"]), (ascii "content-length", [ascii "5"]), (ascii "x-a", [ascii "1", ascii "2"])]⟩ (some 5),
      .got 1024 (.data (ascii "hello")), .got 1019 (.data []), .wrote mixedDown,
      .call ⟨ascii "POST", ascii "/b", [(ascii "host", [ascii "h.org:81"]), (ascii "content-length", [ascii "3"])]⟩ (some 3),
      .got 1024 (.data (ascii "abc")), .got 1021 (.data []), .wrote talkDown]) (by decide +kernel)
  exact (C98_session_partial (M := 2) exactHexLen_ok (fun _ => zeroPool_ok) (endpoint := mixedBackwards) (rounds := mixedRequests.map (mixedRound mixedPick List.reverse)) (by
      intro r hr
      obtain ⟨x, hx, rfl⟩ := List.mem_map.1 hr
      simp only [mixedRequests, List.mem_cons, List.not_mem_nil, or_false] at hx
      rcases hx with rfl | rfl
      · exact mixedRound_fair (fun _ => nowOk) (fun _ => show (ascii "NOW").length ≤ 4096 by decide) doubling_ok demoRequest_ok (by decide +kernel) (by decide) (by decide)
      · exact mixedRound_fair (fun _ => nowOk) (fun _ => show (ascii "NOW").length ≤ 4096 by decide) doubling_ok talkRequestB_ok (by decide +kernel) (by decide) (by decide))
    zeroPool_ok doubling_ok (w := ⟨[], [], 0⟩) (parts := [demoUp, talkUpB]) (cfuel := 100) (by decide +kernel)
    (ups := [[.data (demoUp.take 30), .pending, .data (demoUp.drop 30)], [.pending, .data talkUpB]]) (.cons ⟨by decide, by decide +kernel⟩ (.cons ⟨by decide, by decide +kernel⟩ .nil))
    rfl (by decide) (by intro e he; simp at he) (.inl rfl) hgo
    (fun x hx _ => .inl (by
      have hb : ∀ b ∈ [mixedDown, talkDown], b.length ≤ 4096 := by decide +kernel
      exact hb _ (List.of_mem_zip hx).2))
    (downs := [[.data (mixedDown.take 20), .pending, .data (mixedDown.drop 20)], [.pending, .data talkDown]]) (.cons ⟨by decide, by decide +kernel⟩ (.cons ⟨by decide, by decide +kernel⟩ .nil))
    (more := []) rfl (by decide +kernel) (by decide +kernel)).2

/-- A client that makes a request, reads the body of the response, and makes another request: the length of the body, and whether the second call of `connect` returns an error. -/
def lengthAndNext (io : Script) : Run (Option (Nat × Bool)) := do
  let (w, r) ← connect (ascii "NOW") zeroPool 100 20000 talkRequest io ⟨[], [], 0⟩
  match r with
  | .done (.ok rsp) => do
    let (b, x) ← rsp.toBody.intoBytes doubling 20000
    match b, x with
    | .stream b, .ok bs => do
      let (_, r) ← connect (ascii "NOW") zeroPool 100 20000 talkRequest b.io w
      .ret (some (bs.length, match r with | .done (.err _) => true | _ => false))
    | _, _ => .ret none
  | _ => .ret none

/-- **C98 is false of the code**: a server streams a body of 4093 bytes in two pieces, and then sends another response.  The client takes the first 4088 bytes for the whole body, and what is left of the first response
for the second one, so that `connect` fails. -/
theorem C98_refuted :
    observe exactHexLen (ascii "NOW") lossyBody (List.replicate 4 (List.replicate 8192 0)) = .ret (headOf lossyBody (ascii "NOW") ++ straddling, .eof) ∧ (rem lossyBody.body).length = 4093 ∧
    lengthAndNext [.data (headOf lossyBody (ascii "NOW") ++ straddling.take 4096), .data ((straddling.drop 4096).take 2), .data (straddling.drop 4098), .data talkDown] = .ret (some (4088, true)) := by
  obtain ⟨out, ho, h1, h2⟩ := lossy_sent
  refine ⟨?_, ?_, by decide +kernel⟩
  · rw [ho, ← isStraddling_eq h2]
    conv => lhs; rw [← List.take_append_drop (headOf lossyBody (ascii "NOW")).length out, h1]
  · simp only [LawfulRead.rem, lossyBody, Script.bytes, List.length_append, as_length]
    decide

end Tophat
