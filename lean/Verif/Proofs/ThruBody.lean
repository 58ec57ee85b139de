import Verif.Proofs.ThruAccept
import Verif.Proofs.ClientDecode
/-! Bodies over readers that behave alike until the end of the stream. -/

set_option linter.unusedSectionVars false

namespace Tophat
open Spec

/-- A `BufReader` around readers of which a read behaves alike. -/
theorem BufRd.read_on {δ δ' : Type} [AsyncRead δ] [AsyncRead δ'] {g : δ → δ'} {b b' : BufRd δ} {k : Nat} {p : RPoll} (h : pollRead b k = .ret (b', p))
    (hg : ∀ j d q, b.buf = [] → 0 < j → pollRead b.inner j = .ret (d, q) → d = b'.inner → (0 < k ∨ p ≠ .data [] → (q = .data [] ↔ p = .data [])) →
      pollRead (g b.inner) j = .ret (g d, q)) : pollRead (b.on g) k = .ret (b'.on g, p) := by
  replace h : b.read k = .ret (b', p) := h
  show (b.on g).read k = _
  unfold BufRd.read at h ⊢
  by_cases hb : b.buf = [] ∧ k ≥ bufRdCap
  · rw [if_pos hb] at h
    rw [if_pos (show (b.on g).buf = [] ∧ k ≥ bufRdCap from hb)]
    obtain ⟨⟨r1, q⟩, h1, h2⟩ := Run.bind_eq_ret.1 h
    simp only [Run.ret.injEq, Prod.mk.injEq] at h2
    obtain ⟨rfl, rfl⟩ := h2
    have := hg k r1 q hb.1 (by have := hb.2; unfold bufRdCap at this; omega) h1 rfl (fun _ => Iff.rfl)
    show (pollRead (g b.inner) k >>= _) = _
    rw [this]
    rfl
  · rw [if_neg hb] at h
    rw [if_neg (show ¬ ((b.on g).buf = [] ∧ k ≥ bufRdCap) from hb)]
    unfold BufRd.fill at h ⊢
    by_cases hb' : b.buf = []
    · rw [if_pos hb'] at h
      rw [if_pos (show (b.on g).buf = [] from hb')]
      obtain ⟨⟨b1, q⟩, h1, h2⟩ := Run.bind_eq_ret.1 h
      obtain ⟨⟨r1, q'⟩, h3, h4⟩ := Run.bind_eq_ret.1 h1
      simp only [Run.ret.injEq] at h2 h4
      have : pollRead (g b.inner) bufRdCap = .ret (g r1, q') := by
        refine hg _ r1 q' hb' (by decide) h3 ?_ ?_
        · cases q' <;> simp only [BufRd.filled, Prod.mk.injEq] at h4 <;> obtain ⟨rfl, rfl⟩ := h4 <;> simp only [BufRd.copyOut, Prod.mk.injEq] at h2 <;> obtain ⟨rfl, rfl⟩ := h2 <;> rfl
        · intro hk
          cases q' with
          | pending =>
            simp only [BufRd.filled, Prod.mk.injEq] at h4; obtain ⟨rfl, rfl⟩ := h4
            simp only [BufRd.copyOut, Prod.mk.injEq] at h2; rw [← h2.2]
          | err e =>
            simp only [BufRd.filled, Prod.mk.injEq] at h4; obtain ⟨rfl, rfl⟩ := h4
            simp only [BufRd.copyOut, Prod.mk.injEq] at h2; rw [← h2.2]
          | data bs =>
            simp only [BufRd.filled, Prod.mk.injEq] at h4; obtain ⟨rfl, rfl⟩ := h4
            simp only [BufRd.copyOut, Prod.mk.injEq] at h2
            rw [← h2.2] at hk ⊢
            constructor
            · intro h; injection h with h; rw [h]; simp
            · intro h
              rcases hk with hk | hk
              · injection h with h
                have := congrArg List.length h
                simp at this
                rcases this with h | h
                · omega
                · rw [h]
              · exact absurd h hk
      have hin : (b.on g).inner = g b.inner := rfl
      simp only [hin, this, Run.ret_bind]
      cases q' <;> simp only [BufRd.filled, Prod.mk.injEq] at h4 <;> obtain ⟨rfl, rfl⟩ := h4 <;> simp only [BufRd.copyOut, Prod.mk.injEq] at h2 <;> obtain ⟨rfl, rfl⟩ := h2 <;> rfl
    · rw [if_neg hb'] at h
      rw [if_neg (show ¬ (b.on g).buf = [] from hb')]
      simp only [Run.ret_bind, BufRd.copyOut, Run.ret.injEq, Prod.mk.injEq] at h ⊢
      obtain ⟨rfl, rfl⟩ := h
      exact ⟨rfl, rfl⟩

section
variable {ρ ρ' : Type} [AsyncRead ρ] [LawfulRead ρ] [AsyncRead ρ'] {f : ρ → ρ'}

theorem fixed_read {t : Take (BufRd ρ)} {k : Nat} {b' : ReqBody ρ} {p : RPoll} (h : pollRead (ReqBody.fixed t) k = .ret (b', p)) :
    ∃ t', b' = .fixed t' ∧ pollRead t k = .ret (t', p) := by
  have h1' : (pollRead t k >>= ReqBody.ofFixed) = .ret (b', p) := h
  obtain ⟨⟨t1, p'⟩, h3, h4⟩ := Run.bind_eq_ret.1 h1'
  simp only [ReqBody.ofFixed, Run.ret.injEq, Prod.mk.injEq] at h4
  obtain ⟨rfl, rfl⟩ := h4
  exact ⟨t1, rfl, h3⟩

theorem chunked_read {t : BufRd (ChunkedDecoder (BufRd ρ))} {k : Nat} {b' : ReqBody ρ} {p : RPoll} (h : pollRead (ReqBody.chunked t) k = .ret (b', p)) :
    ∃ t', b' = .chunked t' ∧ pollRead t k = .ret (t', p) := by
  have h1' : (pollRead t k >>= ReqBody.ofChunked) = .ret (b', p) := h
  obtain ⟨⟨t1, p'⟩, h3, h4⟩ := Run.bind_eq_ret.1 h1'
  simp only [ReqBody.ofChunked, Run.ret.injEq, Prod.mk.injEq] at h4
  obtain ⟨rfl, rfl⟩ := h4
  exact ⟨t1, rfl, h3⟩

theorem fixed_read_on {t t' : Take (BufRd ρ)} {k : Nat} {p : RPoll} (h : pollRead (t.on (BufRd.on f)) k = .ret (t'.on (BufRd.on f), p)) :
    pollRead ((ReqBody.fixed t).on f) k = .ret ((ReqBody.fixed t').on f, p) := by
  show (pollRead (t.on (BufRd.on f)) k >>= ReqBody.ofFixed) = _
  rw [h]; rfl

theorem chunked_read_on {t t' : BufRd (ChunkedDecoder (BufRd ρ))} {k : Nat} {p : RPoll}
    (h : pollRead (t.on (ChunkedDecoder.on (BufRd.on f))) k = .ret (t'.on (ChunkedDecoder.on (BufRd.on f)), p)) :
    pollRead ((ReqBody.chunked t).on f) k = .ret ((ReqBody.chunked t').on f, p) := by
  show (pollRead (t.on (ChunkedDecoder.on (BufRd.on f))) k >>= ReqBody.ofChunked) = _
  rw [h]; rfl

/-- A read of a limited reader, if the read inside behaves alike. -/
theorem take_read_on {t t' : Take (BufRd ρ)} {k : Nat} {p : RPoll} (h : pollRead t k = .ret (t', p))
    (hg : ∀ r q, t.limit ≠ 0 → pollRead t.inner (min k t.limit) = .ret (r, q) → (q = .data [] → p = .data []) → pollRead (t.inner.on f) (min k t.limit) = .ret (r.on f, q)) :
    pollRead (t.on (BufRd.on f)) k = .ret (t'.on (BufRd.on f), p) := by
  replace h : t.read k = .ret (t', p) := h
  show (t.on (BufRd.on f)).read k = _
  unfold Take.read at h ⊢
  by_cases hl : t.limit = 0
  · rw [if_pos hl] at h
    rw [if_pos (show (t.on (BufRd.on f)).limit = 0 from hl)]
    simp only [Run.ret.injEq, Prod.mk.injEq] at h
    obtain ⟨rfl, rfl⟩ := h
    rfl
  · rw [if_neg hl] at h
    rw [if_neg (show ¬ (t.on (BufRd.on f)).limit = 0 from hl)]
    obtain ⟨⟨r1, q⟩, h1, h2⟩ := Run.bind_eq_ret.1 h
    simp only [Run.ret.injEq] at h2
    have := hg r1 q hl h1 (by rintro rfl; simp only [Take.counted, Prod.mk.injEq] at h2; exact h2.2.symm)
    show (pollRead (t.inner.on f) (min k t.limit) >>= _) = _
    rw [this]
    simp only [Run.ret_bind]
    cases q <;> simp only [Take.counted, Prod.mk.injEq] at h2 <;> obtain ⟨rfl, rfl⟩ := h2 <;> rfl

/-! ## Reads that do not report the end -/

/-- No read reports the end. -/
def NoEnd (b : ReqBody ρ) (rs : List (Nat × RPoll)) : Prop :=
  (∀ t, b = .chunked t → ChunkedDecoder.Sane t.inner) ∧ ∀ x ∈ rs, x.2 ≠ .data []

theorem alike_noEnd (hf : Thru f) : Alike f NoEnd := by
  intro b k p rs b' ⟨hs, hp⟩ h
  have hp0 : p ≠ .data [] := hp _ (List.mem_cons_self ..)
  have hp1 : ∀ x ∈ rs, x.2 ≠ .data [] := fun x hx => hp x (List.mem_cons_of_mem _ hx)
  cases b with
  | fixed t =>
    obtain ⟨t', rfl, h1⟩ := fixed_read h
    refine ⟨fixed_read_on (take_read_on h1 ?_), by simp, hp1⟩
    intro r q _ h2 h3
    exact (thru_bufRd hf).read h2 (fun x => hp0 (h3 x))
  | chunked t =>
    obtain ⟨t', rfl, h1⟩ := chunked_read h
    have hsane : ChunkedDecoder.Sane t'.inner := by
      rcases bufRd_read h1 with ⟨_, e1, _⟩ | ⟨_, k', q, hk', e1, e2⟩
      · rw [e1]; exact hs t rfl
      · have hq : q ≠ .data [] := by
          rintro rfl
          obtain ⟨x, rfl, e3, _⟩ := e2
          have := List.append_eq_nil_iff.1 e3.symm
          exact hp0 (by rw [this.1])
        exact (ChunkedDecoder.poll_thru (thru_bufRd hf) e1 (hs t rfl) (fun x => absurd x hq)).2.1
    refine ⟨chunked_read_on (BufRd.read_on h1 ?_), fun t'' e => by injection e with e; rw [← e]; exact hsane, hp1⟩
    intro j d q _ hj h2 _ h3
    have hq : q ≠ .data [] := fun x => hp0 ((h3 (.inr hp0)).1 x)
    exact (ChunkedDecoder.poll_thru (thru_bufRd hf) h2 (hs t rfl) (fun x => absurd x hq)).1

theorem sane_new (r : ρ) (pool : Pool) : ChunkedDecoder.Sane (ChunkedDecoder.new r pool) := trivial

theorem BodyAt.noEnd {pool : Pool} {s : Bytes} {e : Option IoErr} {m : Nat} {len : Option Nat} {b : ReqBody ρ} (h : BodyAt pool s e m len b) {rs : List (Nat × RPoll)}
    (hr : ∀ x ∈ rs, x.2 ≠ .data []) : NoEnd b rs := by
  refine ⟨?_, hr⟩
  rintro t rfl
  cases h with
  | chunked a b c => exact trivial

/-! ## Bodies of declared length that have arrived -/

/-- A body of which everything has arrived. -/
def Arrived (b : ReqBody ρ) (_ : List (Nat × RPoll)) : Prop := ∃ t, b = .fixed t ∧ t.limit ≤ (rem t.inner).length

theorem alike_arrived (hf : Thru f) : Alike f Arrived := by
  intro b k p rs b' ⟨t, e, hl⟩ h
  subst e
  obtain ⟨t', rfl, h1⟩ := fixed_read h
  refine ⟨fixed_read_on (take_read_on h1 ?_), t', rfl, ?_⟩
  · intro r q h0 h2 _
    refine BufRd.read_on h2 ?_
    intro j d q' hb hj h3 _ _
    refine hf.read h3 ?_
    rintro rfl
    obtain ⟨r2, p2, h4, h5⟩ := LawfulRead.read_ok t.inner.inner j
    rw [h3] at h4
    injection h4 with h4; injection h4 with e1 e2
    subst e1 e2
    cases h5 with
    | data a b c d e =>
      have hr : rem t.inner = [] := by
        show t.inner.buf ++ rem t.inner.inner = []
        rw [hb, (e hj rfl).1]; rfl
      rw [hr] at hl
      exact h0 (by simpa using hl)
  · replace h1 : t.read k = .ret (t', p) := h1
    unfold Take.read at h1
    by_cases hz : t.limit = 0
    · rw [if_pos hz] at h1
      simp only [Run.ret.injEq, Prod.mk.injEq] at h1
      rw [← h1.1]; exact hl
    · rw [if_neg hz] at h1
      obtain ⟨r2, p2, h4, h5⟩ := LawfulRead.read_ok t.inner (min k t.limit)
      rw [h4] at h1
      simp only [Run.ret_bind, Run.ret.injEq] at h1
      cases h5 with
      | pending a b c =>
        simp only [Take.counted, Prod.mk.injEq] at h1
        rw [← h1.1]
        show t.limit ≤ (rem r2).length
        rw [a]; exact hl
      | err a b =>
        rw [a] at hl
        exact absurd (by simpa using hl) hz
      | data a b c d e =>
        simp only [Take.counted, Prod.mk.injEq] at h1
        rw [← h1.1]
        rename_i bs
        show t.limit - bs.length ≤ (rem r2).length
        rw [b, List.length_append] at hl
        omega

theorem BodyAt.arrived {pool : Pool} {s : Bytes} {e : Option IoErr} {m n : Nat} {b : ReqBody ρ} (h : BodyAt pool s e m (some n) b) (hn : n ≤ s.length)
    (rs : List (Nat × RPoll)) : Arrived b rs := by
  generalize hlen : some n = len at h
  cases h with
  | chunked => cases hlen
  | fixed a b c =>
    injection hlen with hlen; subst hlen
    exact ⟨_, rfl, by rw [a]; exact hn⟩

/-! ## Chunked bodies that have arrived -/

/-- The decoder has sent the trailers whenever it reports the end. -/
def Faithful (d : ChunkedDecoder (BufRd ρ)) : Prop :=
  ∀ ks d1 ps k d2, (∀ k ∈ ks, 0 < k) → 0 < k → polls d ks = .ret (d1, ps) → (∀ e, .err e ∉ ps) → pollRead d1 k = .ret (d2, .data []) → d2.sent ≠ []

theorem StopsAtEnd.tail {p : RPoll} {ps : List RPoll} (h : StopsAtEnd (p :: ps)) : StopsAtEnd ps :=
  fun a q b hq => h (p :: a) q b (by rw [hq]; rfl)

theorem StopsAtEnd.nil_of {p : RPoll} {ps : List RPoll} (h : StopsAtEnd (p :: ps)) (hp : p = .data [] ∨ ∃ e, p = .err e) : ps = [] :=
  h [] p ps rfl hp

/-- A chunked body of which everything has arrived; it is read, with non-empty buffers, to its end at most. -/
def ArrivedC (b : ReqBody ρ) (rs : List (Nat × RPoll)) : Prop :=
  rs = [] ∨ ∃ t, b = .chunked t ∧ ChunkedDecoder.Sane t.inner ∧ t.inner.sent = [] ∧ Faithful t.inner ∧ (∀ x ∈ rs, 0 < x.1) ∧ StopsAtEnd (rs.map (·.2))

theorem Faithful.step {d d1 : ChunkedDecoder (BufRd ρ)} (h : Faithful d) {k : Nat} {p : RPoll} (hk : 0 < k) (h1 : pollRead d k = .ret (d1, p)) (hp : ∀ e, p ≠ .err e) : Faithful d1 := by
  intro ks d2 ps j d3 hks hj h2 he h3
  refine h (k :: ks) d2 (p :: ps) j d3 ?_ hj ?_ ?_ h3
  · intro x hx
    rcases List.mem_cons.1 hx with rfl | hx
    · exact hk
    · exact hks x hx
  · rw [polls_cons_data h1 hp, h2]; rfl
  · intro e hx
    rcases List.mem_cons.1 hx with hx | hx
    · exact hp e hx.symm
    · exact he e hx

theorem alike_arrivedC (hf : Thru f) : Alike f ArrivedC := by
  intro b k p rs b' hi h
  rcases hi with hi | ⟨t, rfl, hs, hsent, hfa, hk, hst⟩
  · cases hi
  have hk0 : 0 < k := hk _ (List.mem_cons_self ..)
  obtain ⟨t', rfl, h1⟩ := chunked_read h
  have key : ∀ {j d q}, 0 < j → pollRead t.inner j = .ret (d, q) →
      pollRead (t.inner.on (BufRd.on f)) j = .ret (d.on (BufRd.on f), q) ∧ ChunkedDecoder.Sane d ∧ (q ≠ .data [] → d.sent = []) := by
    intro j d q hj h2
    have := ChunkedDecoder.poll_thru (thru_bufRd hf) h2 hs (by
      rintro rfl
      rw [hsent]
      exact hfa [] t.inner [] j d (by simp) hj rfl (by simp) h2)
    rw [hsent] at this
    exact this
  refine ⟨chunked_read_on (BufRd.read_on h1 (fun j d q _ hj h2 _ _ => (key hj h2).1)), ?_⟩
  by_cases hend : p = .data [] ∨ ∃ e, p = .err e
  · left
    have : rs.map (fun x => x.2) = [] := StopsAtEnd.nil_of (p := p) hst hend
    exact List.map_eq_nil_iff.1 this
  · right
    refine ⟨t', rfl, ?_⟩
    rw [← and_assoc, ← and_assoc]
    refine ⟨?_, fun x hx => hk x (List.mem_cons_of_mem _ hx), hst.tail⟩
    rw [and_assoc]
    rcases bufRd_read h1 with ⟨_, e1, _⟩ | ⟨_, k', q, hk', e1, e2⟩
    · rw [e1]; exact ⟨hs, hsent, hfa⟩
    · have hq : q ≠ .data [] := by
        rintro rfl
        obtain ⟨x, rfl, e3, _⟩ := e2
        have := List.append_eq_nil_iff.1 e3.symm
        exact hend (.inl (by rw [this.1]))
      have hq' : ∀ e, q ≠ .err e := by
        rintro e rfl
        exact hend (.inr ⟨e, e2.1⟩)
      have := key hk' e1
      exact ⟨this.2.1, this.2.2 hq, hfa.step hk' e1 hq'⟩

theorem polls_append_one {δ : Type} [AsyncRead δ] {d d1 d2 : δ} {ks : List Nat} {ps : List RPoll} {k : Nat} {bs : Bytes} (h1 : polls d ks = .ret (d1, ps)) (he : ∀ e, .err e ∉ ps)
    (h2 : pollRead d1 k = .ret (d2, .data bs)) : polls d (ks ++ [k]) = .ret (d2, ps ++ [.data bs]) := by
  induction ks generalizing d ps with
  | nil =>
    simp only [polls, Run.ret.injEq, Prod.mk.injEq] at h1
    obtain ⟨rfl, rfl⟩ := h1
    simp only [List.nil_append]
    rw [polls_cons_data h2 (by simp)]; rfl
  | cons j ks ih =>
    have h1' := h1
    simp only [polls] at h1'
    obtain ⟨⟨b1, q⟩, g1, g2⟩ := Run.bind_eq_ret.1 h1'
    have hq : ∀ e, q ≠ .err e := by
      rintro e rfl
      simp only [Run.ret.injEq, Prod.mk.injEq] at g2
      exact he e (by rw [← g2.2]; simp)
    rw [polls_cons_data g1 hq] at h1
    obtain ⟨⟨b2, ps1⟩, g3, g4⟩ := Run.bind_eq_ret.1 h1
    simp only [Run.ret.injEq, Prod.mk.injEq] at g4
    obtain ⟨rfl, rfl⟩ := g4
    simp only [List.cons_append]
    rw [polls_cons_data g1 hq, ih g3 (fun e x => he e (List.mem_cons_of_mem _ x))]
    rfl

theorem faithful_new {r : BufRd ρ} {pool : Pool} (hp : pool.Ok) {b x p : Bytes} {fs : List (Bytes × Bytes)} (hb : Roomy b p fs) (hn : fs.length ≤ 16) (hs : rem r = b ++ x) :
    Faithful (ChunkedDecoder.new r pool) := by
  intro ks d1 ps k d2 hks hk h1 he h2
  have := (C13_roomy_partial hp (by
    intro j hj
    rcases List.mem_append.1 hj with hj | hj
    · exact hks j hj
    · simp at hj; rw [hj]; exact hk) (polls_append_one h1 he h2) hb hn hs).2.1 (by simp [SawEof])
  obtain ⟨_, m, hm, _⟩ := this
  rw [hm]; simp

theorem BodyAt.arrivedC {pool : Pool} (hp : pool.Ok) {s : Bytes} {e : Option IoErr} {m : Nat} {body : ReqBody ρ} (h : BodyAt pool s e m none body)
    {b x p : Bytes} {fs : List (Bytes × Bytes)} (hb : Roomy b p fs) (hn : fs.length ≤ 16) (hs : s = b ++ x) {rs : List (Nat × RPoll)} (hk : ∀ x ∈ rs, 0 < x.1)
    (hst : StopsAtEnd (rs.map (·.2))) : ArrivedC body rs := by
  generalize hlen : none = len at h
  cases h with
  | fixed => cases hlen
  | chunked a b' c => exact .inr ⟨_, rfl, trivial, rfl, faithful_new hp hb hn (a.trans hs), hk, hst⟩

/-! ## Repeated reads -/

theorem polls_on {I : ReqBody ρ → List (Nat × RPoll) → Prop} (hI : Alike f I) (ks : List Nat) : ∀ {b b' : ReqBody ρ} {ps : List RPoll},
    polls b ks = .ret (b', ps) → I b (ks.zip ps) → polls (b.on f) ks = .ret (b'.on f, ps) := by
  induction ks with
  | nil =>
    intro b b' ps h _
    simp only [polls, Run.ret.injEq, Prod.mk.injEq] at h ⊢
    obtain ⟨rfl, rfl⟩ := h
    exact ⟨rfl, rfl⟩
  | cons k ks ih =>
    intro b b' ps h hi
    have h0 := h
    simp only [polls] at h
    obtain ⟨⟨b1, q⟩, g1, g2⟩ := Run.bind_eq_ret.1 h
    by_cases hq : ∃ e, q = .err e
    · obtain ⟨e, rfl⟩ := hq
      simp only [Run.ret.injEq, Prod.mk.injEq] at g2
      obtain ⟨rfl, rfl⟩ := g2
      have := (hI _ _ _ _ _ hi g1).1
      simp only [polls, this, Run.ret_bind]
    · have hq' : ∀ e, q ≠ .err e := fun e x => hq ⟨e, x⟩
      rw [polls_cons_data g1 hq'] at h0
      obtain ⟨⟨b2, ps1⟩, g3, g4⟩ := Run.bind_eq_ret.1 h0
      simp only [Run.ret.injEq, Prod.mk.injEq] at g4
      obtain ⟨rfl, rfl⟩ := g4
      obtain ⟨i1, i2⟩ := hI _ _ _ _ _ hi g1
      rw [polls_cons_data i1 hq', ih g3 i2]
      rfl

end

end Tophat
