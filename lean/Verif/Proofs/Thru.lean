import Verif.Spec.Stall
import Verif.Proofs.ChunkedReqBody
/-! Readers that behave alike until the end of the stream, and what is built upon them. -/

set_option linter.unusedSectionVars false

namespace Tophat
open Spec

/-- `f r` answers as `r` does, except for the end of the stream. -/
structure Thru {ρ ρ' : Type} [AsyncRead ρ] [AsyncRead ρ'] (f : ρ → ρ') : Prop where
  read : ∀ {r : ρ} {k : Nat} {r' : ρ} {p : RPoll}, pollRead r k = .ret (r', p) → p ≠ .data [] → pollRead (f r) k = .ret (f r', p)

theorem thru_talk {ρ : Type} [AsyncRead ρ] (N : Nat) : Thru (fun r : ρ => Stall.talk r N) where
  read := by
    intro r k r' p h hp
    show (Stall.talk r N).read k = _
    simp only [Stall.read, h, Run.ret_bind]
    rw [if_neg (fun x => hp x.1)]

section
variable {ρ ρ' : Type}

/-- The same buffer in front of another reader. -/
def BufRd.on (f : ρ → ρ') (b : BufRd ρ) : BufRd ρ' := ⟨f b.inner, b.buf⟩
@[inherit_doc BufRd.on] def Take.on (f : ρ → ρ') (b : Take ρ) : Take ρ' := ⟨f b.inner, b.limit⟩
@[inherit_doc BufRd.on] def ChunkedDecoder.on (f : ρ → ρ') (d : ChunkedDecoder ρ) : ChunkedDecoder ρ' :=
  ⟨f d.inner, d.buffer, d.start, d.stop, d.initialDecode, d.state, d.hasSender, d.sent, d.pool⟩
@[inherit_doc BufRd.on] def ReqBody.on (f : ρ → ρ') : ReqBody ρ → ReqBody ρ'
  | .fixed t => .fixed (t.on (BufRd.on f))
  | .chunked t => .chunked (t.on (ChunkedDecoder.on (BufRd.on f)))

end

/-! ## `BufReader` -/

section
variable {ρ ρ' : Type} [AsyncRead ρ] [AsyncRead ρ'] {f : ρ → ρ'}

theorem BufRd.fill_thru (hf : Thru f) {b b' : BufRd ρ} {p : RPoll} (h : b.fill = .ret (b', p)) (hp : p ≠ .data []) :
    (b.on f).fill = .ret (b'.on f, p) := by
  unfold BufRd.fill at h ⊢
  show (if b.buf = [] then _ else _) = _
  by_cases hb : b.buf = []
  · rw [if_pos hb] at h ⊢
    obtain ⟨⟨r1, q⟩, h1, h2⟩ := Run.bind_eq_ret.1 h
    simp only [Run.ret.injEq] at h2
    have hq : q ≠ .data [] := by
      rintro rfl
      simp only [BufRd.filled, Prod.mk.injEq] at h2
      exact hp h2.2.symm
    show (pollRead (f b.inner) bufRdCap >>= _) = _
    rw [hf.read h1 hq]
    simp only [Run.ret_bind]
    cases q <;> simp only [BufRd.filled, Prod.mk.injEq] at h2 <;> obtain ⟨rfl, rfl⟩ := h2 <;> rfl
  · rw [if_neg hb] at h ⊢
    simp only [Run.ret.injEq, Prod.mk.injEq] at h
    obtain ⟨rfl, rfl⟩ := h
    rfl

theorem BufRd.copyOut_on (k : Nat) (b : BufRd ρ) (p : RPoll) :
    BufRd.copyOut k (b.on f, p) = ((BufRd.copyOut k (b, p)).1.on f, (BufRd.copyOut k (b, p)).2) := by
  cases p <;> rfl

/-- A read that does not come upon the end. -/
theorem BufRd.read_thru (hf : Thru f) {b b' : BufRd ρ} {k : Nat} {p : RPoll} (h : b.read k = .ret (b', p))
    (hp : p ≠ .data [] ∨ ∀ j r q, pollRead b.inner j = .ret (r, q) → 0 < j → q ≠ .data []) : (b.on f).read k = .ret (b'.on f, p) := by
  unfold BufRd.read at h ⊢
  by_cases hb : b.buf = [] ∧ k ≥ bufRdCap
  · rw [if_pos hb] at h
    rw [if_pos (show (b.on f).buf = [] ∧ k ≥ bufRdCap from hb)]
    obtain ⟨⟨r1, q⟩, h1, h2⟩ := Run.bind_eq_ret.1 h
    simp only [Run.ret.injEq, Prod.mk.injEq] at h2
    obtain ⟨rfl, rfl⟩ := h2
    have hq : q ≠ .data [] := hp.elim id fun g => g _ _ _ h1 (by have := hb.2; unfold bufRdCap at this; omega)
    show (pollRead (f b.inner) k >>= _) = _
    rw [hf.read h1 hq]
    rfl
  · rw [if_neg hb] at h
    rw [if_neg (show ¬ ((b.on f).buf = [] ∧ k ≥ bufRdCap) from hb)]
    obtain ⟨⟨b1, q⟩, h1, h2⟩ := Run.bind_eq_ret.1 h
    simp only [Run.ret.injEq] at h2
    have hq : q ≠ .data [] := by
      rcases hp with hp | hp
      · rintro rfl
        simp only [BufRd.copyOut, List.take_nil, Prod.mk.injEq] at h2
        exact hp h2.2.symm
      · unfold BufRd.fill at h1
        by_cases hb' : b.buf = []
        · rw [if_pos hb'] at h1
          obtain ⟨⟨r1, q'⟩, h3, h4⟩ := Run.bind_eq_ret.1 h1
          have := hp _ _ _ h3 (by decide)
          simp only [Run.ret.injEq] at h4
          cases q' <;> simp only [BufRd.filled, Prod.mk.injEq] at h4 <;> obtain ⟨rfl, rfl⟩ := h4
          · exact this
          · exact this
          · exact this
        · rw [if_neg hb'] at h1
          simp only [Run.ret.injEq, Prod.mk.injEq] at h1
          rw [← h1.2]
          intro h
          injection h with h
          exact hb' h
    rw [BufRd.fill_thru hf h1 hq]
    simp only [Run.ret_bind]
    rw [BufRd.copyOut_on, h2]

theorem thru_bufRd (hf : Thru f) : Thru (BufRd.on f) where
  read h hp := BufRd.read_thru hf h (.inl hp)

end

/-! ## The chunked decoder -/

namespace ChunkedDecoder

section
variable {ρ ρ' : Type} [AsyncRead ρ] [LawfulRead ρ] [AsyncRead ρ'] {f : ρ → ρ'}

/-- There is something left to read of the current chunk. -/
def SaneSt : DState → Prop
  | .chunk c l => c < l
  | _ => True

@[inherit_doc SaneSt] def Sane (d : ChunkedDecoder ρ) : Prop := SaneSt d.state

/-- The answer of a step. -/
def StepSane : DStep → Prop
  | .res (.some _ ns _ _ _) => SaneSt ns
  | _ => True

theorem pollReadInner_thru (hf : Thru f) {d d1 : ChunkedDecoder ρ} {buffer : Block} {start stop k : Nat} {s : DStep}
    (h : d.pollReadInner buffer start stop k = .ret (d1, s)) (hs : Sane d) :
    ((d.on f).pollReadInner buffer start stop k = .ret (d1.on f, s) ∧ Sane d1 ∧ StepSane s ∧
      (d1.sent = d.sent ∨ ∃ a b, s = .res (.some [] .done a b false))) ∨
    (d1.sent = d.sent ∧ ∃ a b, s = .res (.some [] .done a b false)) := by
  obtain ⟨inner, buf0, st0, sp0, ini, state, hsnd, sent, pool⟩ := d
  cases state with
  | init =>
    left
    simp only [pollReadInner, ChunkedDecoder.on] at h ⊢
    obtain ⟨r, h1, h2⟩ := Run.bind_eq_ret.1 h
    simp only [Run.ret.injEq, Prod.mk.injEq] at h2
    obtain ⟨rfl, rfl⟩ := h2
    refine ⟨by rw [h1]; rfl, trivial, ?_, .inl rfl⟩
    unfold decodeInit at h1
    obtain ⟨w, h3, h4⟩ := Run.bind_eq_ret.1 h1
    cases hw : Httparse.parseChunkSize w with
    | part => rw [hw] at h4; simp only [Run.ret.injEq] at h4; subst h4; trivial
    | err e => rw [hw] at h4; simp only [Run.ret.injEq] at h4; subst h4; trivial
    | ok rest len =>
      rw [hw] at h4; simp only [Run.ret.injEq] at h4; subst h4
      show SaneSt (if len = 0 then _ else _)
      split
      · trivial
      · show 0 < len; omega
  | chunk c l =>
    simp only [pollReadInner, pollReadChunk, ChunkedDecoder.on] at h ⊢
    have hcl : c < l := hs
    by_cases hw : stop - start > 0
    · rw [if_pos hw] at h ⊢
      left
      obtain ⟨bs, h1, h2⟩ := Run.bind_eq_ret.1 h
      simp only [Run.ret.injEq, Prod.mk.injEq] at h2
      obtain ⟨rfl, rfl⟩ := h2
      refine ⟨by rw [h1]; rfl, hcl, ?_, .inl rfl⟩
      show SaneSt (if _ then _ else _)
      split
      · trivial
      · show _ < l; omega
    · rw [if_neg hw] at h ⊢
      obtain ⟨⟨r1, q⟩, h1, h2⟩ := Run.bind_eq_ret.1 h
      by_cases hq : q = .data []
      · right
        subst hq
        simp only [List.length_nil, Nat.add_zero, Run.ret.injEq, Prod.mk.injEq] at h2
        rw [if_neg (by omega), if_pos trivial] at h2
        obtain ⟨rfl, rfl⟩ := h2
        exact ⟨rfl, _, _, rfl⟩
      · left
        rw [hf.read h1 hq]
        simp only [Run.ret_bind]
        obtain ⟨r2, p2, h3, h4⟩ := LawfulRead.read_ok inner (min (l - c) k)
        rw [h1] at h3
        injection h3 with h3; injection h3 with e1 e2
        subst e1 e2
        cases q with
        | pending =>
          simp only [Run.ret.injEq, Prod.mk.injEq] at h2
          obtain ⟨rfl, rfl⟩ := h2
          exact ⟨rfl, hcl, hcl, .inl rfl⟩
        | err e =>
          simp only [Run.ret.injEq, Prod.mk.injEq] at h2
          obtain ⟨rfl, rfl⟩ := h2
          exact ⟨rfl, hcl, trivial, .inl rfl⟩
        | data bs =>
          simp only [Run.ret.injEq, Prod.mk.injEq] at h2
          obtain ⟨rfl, rfl⟩ := h2
          refine ⟨rfl, hcl, ?_, .inl rfl⟩
          cases h4 with
          | data a b c d e =>
            show SaneSt (if _ then _ else if _ then _ else _)
            split
            · trivial
            · split
              · trivial
              · show _ < l; omega
  | chunkEnd =>
    left
    simp only [pollReadInner, ChunkedDecoder.on] at h ⊢
    obtain ⟨r, h1, h2⟩ := Run.bind_eq_ret.1 h
    simp only [Run.ret.injEq, Prod.mk.injEq] at h2
    obtain ⟨rfl, rfl⟩ := h2
    refine ⟨by rw [h1]; rfl, trivial, ?_, .inl rfl⟩
    unfold decodeChunkEnd at h1
    split at h1
    · simp only [Run.ret.injEq] at h1; subst h1; trivial
    · obtain ⟨w, h3, h4⟩ := Run.bind_eq_ret.1 h1
      split at h4 <;> (simp only [Run.ret.injEq] at h4; subst h4; trivial)
  | trailer =>
    left
    simp only [pollReadInner, ChunkedDecoder.on] at h ⊢
    obtain ⟨r, h1, h2⟩ := Run.bind_eq_ret.1 h
    simp only [Run.ret.injEq, Prod.mk.injEq] at h2
    obtain ⟨rfl, rfl⟩ := h2
    refine ⟨by rw [h1]; rfl, trivial, ?_, .inl rfl⟩
    unfold decodeTrailer at h1
    obtain ⟨w, h3, h4⟩ := Run.bind_eq_ret.1 h1
    split at h4
    · split at h4 <;> (simp only [Run.ret.injEq] at h4; subst h4; trivial)
    · simp only [Run.ret.injEq] at h4; subst h4; trivial
    · simp only [Run.ret.injEq] at h4; subst h4; trivial
  | trailerDone hs =>
    left
    simp only [pollReadInner, ChunkedDecoder.on] at h ⊢
    cases hsnd with
    | true =>
      simp only [if_true, Run.ret.injEq, Prod.mk.injEq] at h
      obtain ⟨rfl, rfl⟩ := h
      exact ⟨rfl, trivial, trivial, .inl rfl⟩
    | false => cases h
  | trailerSending hs =>
    left
    simp only [pollReadInner, ChunkedDecoder.on, Run.ret.injEq, Prod.mk.injEq] at h ⊢
    obtain ⟨rfl, rfl⟩ := h
    exact ⟨⟨rfl, rfl⟩, trivial, trivial, .inr ⟨_, _, rfl⟩⟩
  | done =>
    left
    simp only [pollReadInner, ChunkedDecoder.on, Run.ret.injEq, Prod.mk.injEq] at h ⊢
    obtain ⟨rfl, rfl⟩ := h
    exact ⟨⟨rfl, rfl⟩, trivial, trivial, .inl rfl⟩

/-- The same for `Fill`. -/
def Fill.on (f : ρ → ρ') : Fill ρ → Fill ρ'
  | .quit d p => .quit (d.on f) p
  | .go d b s => .go (d.on f) b s

@[inherit_doc Fill.on] def Fill.left : Fill ρ → ChunkedDecoder ρ
  | .quit d _ => d
  | .go d _ _ => d

theorem fill_thru (hf : Thru f) {d : ChunkedDecoder ρ} {buffer : Block} {start stop : Nat} {nr : Bool} {y : Fill ρ}
    (h : d.fill buffer start stop nr = .ret y) (hs : Sane d) :
    ((d.on f).fill buffer start stop nr = .ret (y.on f) ∧ Sane y.left ∧ y.left.sent = d.sent ∧ ∀ d1, y ≠ .quit d1 (.data [])) ∨
    (∃ d1 b s, y = .go d1 b s ∧ d1.state = .done ∧ d1.sent = d.sent) := by
  cases nr with
  | false =>
    simp only [fill, Run.ret.injEq] at h ⊢
    subst h
    exact .inl ⟨rfl, hs, rfl, by simp⟩
  | true =>
    simp only [fill, readMore] at h ⊢
    split at h
    · rename_i hle
      rw [if_pos hle]
      obtain ⟨⟨r1, q⟩, h1, h2⟩ := Run.bind_eq_ret.1 h
      by_cases hq : q = .data []
      · right
        subst hq
        dsimp only at h2
        obtain ⟨x, h3, h4⟩ := Run.bind_eq_ret.1 h2
        simp only [List.length_nil, if_true, Run.ret.injEq] at h4
        subst h4
        exact ⟨_, _, _, rfl, rfl, rfl⟩
      · left
        have h1' : pollRead (d.on f).inner (buffer.data.length - stop) = .ret (f r1, q) := hf.read h1 hq
        rw [h1']
        simp only [Run.ret_bind]
        cases q with
        | pending => simp only [Run.ret.injEq] at h2; subst h2; exact ⟨rfl, hs, rfl, by simp⟩
        | err e => simp only [Run.ret.injEq] at h2; subst h2; exact ⟨rfl, hs, rfl, by simp⟩
        | data bs =>
          dsimp only at h2 ⊢
          obtain ⟨x, h3, h4⟩ := Run.bind_eq_ret.1 h2
          rw [h3]
          have hbs : ¬ bs.length = 0 := fun h => hq (by rw [List.length_eq_zero_iff.1 h])
          simp only [Run.ret_bind, if_neg hbs, Run.ret.injEq] at h4 ⊢
          subst h4
          exact ⟨rfl, hs, rfl, by simp⟩
    · cases h

/-- The loop, if it does not come upon the end of the stream. -/
theorem loop_thru (hf : Thru f) (fuel : Nat) : ∀ {d d' : ChunkedDecoder ρ} {buffer : Block} {start stop k : Nat} {nr : Bool} {p : RPoll},
    loop fuel d buffer start stop nr k = .ret (d', p) → Sane d → (p = .data [] → d'.sent ≠ d.sent) →
    loop fuel (d.on f) buffer start stop nr k = .ret (d'.on f, p) ∧ Sane d' ∧ (p ≠ .data [] → d'.sent = d.sent) := by
  induction fuel with
  | zero => intro d d' buffer start stop k nr p h; cases h
  | succ fuel ih =>
    intro d d' buffer start stop k nr p h hs hp
    simp only [loop] at h ⊢
    split at h
    · rename_i hc
      rw [if_pos hc]
      simp only [Run.ret.injEq, Prod.mk.injEq] at h
      obtain ⟨rfl, rfl⟩ := h
      exact ⟨rfl, hs, fun _ => rfl⟩
    · rename_i hc
      rw [if_neg hc]
      have hpool : (d.on f).pool = d.pool := rfl
      rw [hpool]
      generalize hB : (if stop - start ≥ buffer.cap then buffer.realloc d.pool else buffer) = B at h ⊢
      obtain ⟨y, h1, h2⟩ := Run.bind_eq_ret.1 h
      rcases fill_thru hf h1 hs with ⟨g1, g2, g3, g4⟩ | ⟨d1, b, s, rfl, g1, g2⟩
      · rw [g1]
        simp only [Run.ret_bind]
        cases y with
        | quit d1 q =>
          simp only [Run.ret.injEq, Prod.mk.injEq] at h2
          obtain ⟨rfl, rfl⟩ := h2
          exact ⟨rfl, g2, fun _ => g3⟩
        | go d1 B1 stop1 =>
          simp only [Fill.on, Fill.left] at g2 g3 h2 ⊢
          obtain ⟨⟨d2, s⟩, h3, h4⟩ := Run.bind_eq_ret.1 h2
          rcases pollReadInner_thru hf h3 g2 with ⟨i1, i2, i3, i4⟩ | ⟨i1, a, b, rfl⟩
          · rw [i1]
            simp only [Run.ret_bind]
            cases s with
            | err e =>
              simp only [Run.ret.injEq, Prod.mk.injEq] at h4
              obtain ⟨rfl, rfl⟩ := h4
              refine ⟨rfl, i2, fun _ => ?_⟩
              rcases i4 with i4 | ⟨a, b, i4⟩
              · rw [i4, g3]
              · cases i4
            | res r =>
              cases r with
              | none =>
                have i4' : d2.sent = d.sent := by
                  rcases i4 with i4 | ⟨a, b, i4⟩
                  · rw [i4, g3]
                  · cases i4
                dsimp only at h4 ⊢
                have hbuf : (d2.on f).buffer = d2.buffer := rfl
                rw [hbuf]
                split at h4
                · rename_i hz
                  rw [if_pos hz]
                  simp only [Run.ret.injEq, Prod.mk.injEq] at h4
                  obtain ⟨rfl, rfl⟩ := h4
                  exact absurd i4' (hp rfl)
                · rename_i hz
                  rw [if_neg hz]
                  have := ih h4 i2 (fun x => (by rw [i4']; exact hp x))
                  exact ⟨this.1, this.2.1, fun x => by rw [this.2.2 x, i4']⟩
              | some x ns a b pd =>
                dsimp only at h4 ⊢
                have i3' : SaneSt ns := i3
                split at h4
                · rename_i hd
                  simp only [Run.ret.injEq, Prod.mk.injEq] at h4
                  obtain ⟨rfl, rfl⟩ := h4
                  refine ⟨by rw [if_pos hd]; rfl, i3', ?_⟩
                  intro hx
                  rcases i4 with i4 | ⟨a', b', i4⟩
                  · exact i4.trans g3
                  · injection i4 with i4; injection i4 with i4; exact absurd (by rw [i4]) hx
                · rename_i hd
                  rw [if_neg hd]
                  have i4' : d2.sent = d.sent := by
                    rcases i4 with i4 | ⟨a', b', i4⟩
                    · rw [i4, g3]
                    · injection i4 with i4; injection i4 with _ i4; exact absurd i4 hd
                  split at h4
                  · rename_i hl
                    rw [if_pos hl]
                    simp only [Run.ret.injEq, Prod.mk.injEq] at h4
                    obtain ⟨rfl, rfl⟩ := h4
                    exact ⟨rfl, i3', fun _ => i4'⟩
                  · rename_i hl
                    rw [if_neg hl]
                    split at h4
                    · rename_i hpd
                      rw [if_pos hpd]
                      simp only [Run.ret.injEq, Prod.mk.injEq] at h4
                      obtain ⟨rfl, rfl⟩ := h4
                      exact ⟨rfl, i3', fun _ => i4'⟩
                    · rename_i hpd
                      rw [if_neg hpd]
                      have := ih h4 i3' (fun x => (by show d'.sent ≠ d2.sent; rw [i4']; exact hp x))
                      exact ⟨this.1, this.2.1, fun x => by rw [this.2.2 x]; exact i4'⟩
          · exfalso
            simp only [if_true, Run.ret.injEq, Prod.mk.injEq] at h4
            obtain ⟨rfl, rfl⟩ := h4
            exact hp rfl (i1.trans g3)
      · exfalso
        dsimp only at h2
        obtain ⟨⟨d2, s'⟩, h3, h4⟩ := Run.bind_eq_ret.1 h2
        unfold pollReadInner at h3
        rw [g1] at h3
        simp only [Run.ret.injEq, Prod.mk.injEq] at h3
        obtain ⟨rfl, rfl⟩ := h3
        simp only [if_true, Run.ret.injEq, Prod.mk.injEq] at h4
        obtain ⟨rfl, rfl⟩ := h4
        exact hp rfl g2

/-- A poll that does not come upon the end of the stream: one that delivers something else than the end, or that delivers the trailers. -/
theorem poll_thru (hf : Thru f) {d d' : ChunkedDecoder ρ} {k : Nat} {p : RPoll} (h : pollRead d k = .ret (d', p)) (hs : Sane d)
    (hp : p = .data [] → d'.sent ≠ d.sent) :
    pollRead (d.on f) k = .ret (d'.on f, p) ∧ Sane d' ∧ (p ≠ .data [] → d'.sent = d.sent) := by
  replace h : d.pollFuel loopFuel k = .ret (d', p) := h
  show (d.on f).pollFuel loopFuel k = .ret (d'.on f, p) ∧ _
  generalize loopFuel = fuel at h ⊢
  unfold pollFuel at h ⊢
  dsimp only [ChunkedDecoder.on] at h ⊢
  have key : ∀ {d0 : ChunkedDecoder ρ} {b : Block} {s t : Nat} {nr : Bool}, loop fuel d0 b s t nr k = .ret (d', p) → Sane d0 → d0.sent = d.sent →
      loop fuel (d0.on f) b s t nr k = .ret (d'.on f, p) ∧ Sane d' ∧ (p ≠ .data [] → d'.sent = d.sent) := by
    intro d0 b s t nr g1 g2 g3
    have := loop_thru hf fuel g1 g2 (fun x => (by rw [g3]; exact hp x))
    exact ⟨this.1, this.2.1, fun x => by rw [this.2.2 x, g3]⟩
  split at h
  · rename_i hc
    rw [if_pos hc]
    obtain ⟨⟨d2, s⟩, h3, h4⟩ := Run.bind_eq_ret.1 h
    rcases pollReadInner_thru hf h3 hs with ⟨i1, i2, i3, i4⟩ | ⟨i1, a, b, rfl⟩
    · replace i1 : pollReadInner (ρ := ρ') _ d.buffer d.start d.stop k = _ := i1
      dsimp only [ChunkedDecoder.on] at i1
      rw [i1]
      simp only [Run.ret_bind]
      cases s with
      | err e =>
        simp only [Run.ret.injEq, Prod.mk.injEq] at h4
        obtain ⟨rfl, rfl⟩ := h4
        refine ⟨rfl, i2, fun _ => ?_⟩
        rcases i4 with i4 | ⟨a, b, i4⟩
        · exact i4
        · cases i4
      | res r =>
        cases r with
        | none =>
          refine key h4 i2 ?_
          rcases i4 with i4 | ⟨a, b, i4⟩
          · exact i4
          · cases i4
        | some x ns a b pd =>
          have i3' : SaneSt ns := i3
          dsimp only at h4 ⊢
          split at h4
          · rename_i hpd
            rw [if_pos hpd]
            simp only [Run.ret.injEq, Prod.mk.injEq] at h4
            obtain ⟨rfl, rfl⟩ := h4
            refine ⟨rfl, i3', fun _ => ?_⟩
            rcases i4 with i4 | ⟨a', b', i4⟩
            · exact i4
            · injection i4 with i4; injection i4 with _ _ _ _ i4; rw [i4] at hpd; cases hpd
          · rename_i hpd
            rw [if_neg hpd]
            split at h4
            · rename_i hd
              rw [if_pos hd]
              simp only [Run.ret.injEq, Prod.mk.injEq] at h4
              obtain ⟨rfl, rfl⟩ := h4
              refine ⟨rfl, i3', fun hx => ?_⟩
              rcases i4 with i4 | ⟨a', b', i4⟩
              · exact i4
              · injection i4 with i4; injection i4 with i4; exact absurd (by rw [i4]) hx
            · rename_i hd
              rw [if_neg hd]
              have i4' : d2.sent = d.sent := by
                rcases i4 with i4 | ⟨a', b', i4⟩
                · exact i4
                · injection i4 with i4; injection i4 with _ i4; exact absurd i4 hd
              split at h4
              · rename_i hl
                rw [if_pos hl]
                simp only [Run.ret.injEq, Prod.mk.injEq] at h4
                obtain ⟨rfl, rfl⟩ := h4
                exact ⟨rfl, i3', fun _ => i4'⟩
              · rename_i hl
                rw [if_neg hl]
                exact key h4 i3' i4'
    · exfalso
      simp only [Bool.false_eq_true, if_false, if_true, Run.ret.injEq, Prod.mk.injEq] at h4
      obtain ⟨rfl, rfl⟩ := h4
      exact hp rfl i1
  · rename_i hc
    rw [if_neg hc]
    exact key h hs rfl

end

end ChunkedDecoder

end Tophat
