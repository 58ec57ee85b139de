import Verif.Proofs.HeadCases
import Verif.Spec.Reach
import Verif.Proofs.Fuel
/-! Reading a body does nothing to the connection but read from it, even after errors of the decoder. -/

set_option linter.unusedSectionVars false

namespace Tophat
open Spec

section
variable {ρ : Type} [AsyncRead ρ]

theorem Reach.one {r r' : ρ} {k : Nat} {p : RPoll} (h : pollRead r k = .ret (r', p)) : Reach r r' := .step h .refl

theorem Reach.trans {a b c : ρ} (h : Reach a b) (k : Reach b c) : Reach a c := by
  induction h with
  | refl => exact k
  | step h _ ih => exact .step h (ih k)

/-! ## The chunked decoder -/

theorem readChunk_adv {d d' : ChunkedDecoder ρ} {b : Block} {x y k c l : Nat} {s : DStep} 
    (h : d.pollReadChunk b x y k c l = .ret (d', s)) : Reach d.inner d'.inner := by
  unfold ChunkedDecoder.pollReadChunk at h
  dsimp only at h
  split at h
  · obtain ⟨bs, _, h2⟩ := Run.bind_eq_ret.1 h
    simp only [Run.ret.injEq, Prod.mk.injEq] at h2
    rw [← h2.1]; exact .refl
  · obtain ⟨⟨i, p⟩, h1, h2⟩ := Run.bind_eq_ret.1 h
    have := Reach.one h1
    cases p <;>
    · simp only [Run.ret.injEq, Prod.mk.injEq] at h2
      rw [← h2.1]; exact this

theorem readInner_adv {d d' : ChunkedDecoder ρ} {b : Block} {x y k : Nat} {s : DStep} 
    (h : d.pollReadInner b x y k = .ret (d', s)) : Reach d.inner d'.inner := by
  unfold ChunkedDecoder.pollReadInner at h
  split at h
  · obtain ⟨_, _, h2⟩ := Run.bind_eq_ret.1 h
    simp only [Run.ret.injEq, Prod.mk.injEq] at h2
    rw [← h2.1]; exact .refl
  · exact readChunk_adv h
  · obtain ⟨_, _, h2⟩ := Run.bind_eq_ret.1 h
    simp only [Run.ret.injEq, Prod.mk.injEq] at h2
    rw [← h2.1]; exact .refl
  · obtain ⟨_, _, h2⟩ := Run.bind_eq_ret.1 h
    simp only [Run.ret.injEq, Prod.mk.injEq] at h2
    rw [← h2.1]; exact .refl
  · split at h
    · simp only [Run.ret.injEq, Prod.mk.injEq] at h
      rw [← h.1]; exact .refl
    · cases h
  · simp only [Run.ret.injEq, Prod.mk.injEq] at h
    rw [← h.1]; exact .refl
  · simp only [Run.ret.injEq, Prod.mk.injEq] at h
    rw [← h.1]; exact .refl

/-- The decoder in the result of filling the buffer. -/
def ChunkedDecoder.Fill.dec {ρ : Type} : ChunkedDecoder.Fill ρ → ChunkedDecoder ρ
  | .quit d _ => d
  | .go d _ _ => d

theorem fill_adv {d : ChunkedDecoder ρ} {b : Block} {x y : Nat} {nr : Bool} {f : ChunkedDecoder.Fill ρ} 
    (h : d.fill b x y nr = .ret f) : Reach d.inner f.dec.inner := by
  cases nr with
  | true =>
    simp only [ChunkedDecoder.fill] at h
    unfold ChunkedDecoder.readMore at h
    split at h
    · obtain ⟨⟨i, p⟩, h1, h2⟩ := Run.bind_eq_ret.1 h
      have ha := Reach.one h1
      cases p with
      | err e => simp only [Run.ret.injEq] at h2; subst h2; exact ha
      | pending => simp only [Run.ret.injEq] at h2; subst h2; exact ha
      | data bs =>
        dsimp only at h2
        obtain ⟨data, _, h4⟩ := Run.bind_eq_ret.1 h2
        simp only [Run.ret.injEq] at h4
        subst h4
        simp only [ChunkedDecoder.Fill.dec]
        split <;> exact ha
    · cases h
  | false =>
    simp only [ChunkedDecoder.fill, Run.ret.injEq] at h
    subst h
    exact .refl

theorem loop_adv (fuel : Nat) : ∀ {d d' : ChunkedDecoder ρ} {b : Block} {x y k : Nat} {nr : Bool} {p : RPoll},
    ChunkedDecoder.loop fuel d b x y nr k = .ret (d', p) → Reach d.inner d'.inner := by
  induction fuel with
  | zero => intro d d' b x y k nr p h; simp [ChunkedDecoder.loop] at h
  | succ fuel ih =>
    intro d d' b x y k nr p h
    simp only [ChunkedDecoder.loop] at h
    split at h
    · simp only [Run.ret.injEq, Prod.mk.injEq] at h
      rw [← h.1]; exact .refl
    · obtain ⟨f, h1, h2⟩ := Run.bind_eq_ret.1 h
      have ha := fill_adv h1
      cases f with
      | quit d1 p1 =>
        simp only [Run.ret.injEq, Prod.mk.injEq] at h2
        rw [← h2.1]; exact ha
      | go d1 b1 y1 =>
        dsimp only at h2 ha
        obtain ⟨⟨d2, r⟩, h3, h4⟩ := Run.bind_eq_ret.1 h2
        have hb := ha.trans (readInner_adv h3)
        cases r with
        | err e =>
          simp only [Run.ret.injEq, Prod.mk.injEq] at h4
          rw [← h4.1]; exact hb
        | res r =>
          cases r with
          | some read st ns np pend =>
            dsimp only at h4
            split at h4
            · simp only [Run.ret.injEq, Prod.mk.injEq] at h4
              rw [← h4.1]; exact hb
            · split at h4
              · simp only [Run.ret.injEq, Prod.mk.injEq] at h4
                rw [← h4.1]; exact hb
              · split at h4
                · simp only [Run.ret.injEq, Prod.mk.injEq] at h4
                  rw [← h4.1]; exact hb
                · exact hb.trans (ih (d := { d2 with initialDecode := true, state := st, start := ns, stop := np }) h4)
          | none =>
            dsimp only at h4
            split at h4
            · simp only [Run.ret.injEq, Prod.mk.injEq] at h4
              rw [← h4.1]; exact hb
            · exact hb.trans (ih h4)

theorem pollFuel_adv {fuel : Nat} {d d' : ChunkedDecoder ρ} {k : Nat} {p : RPoll} 
    (h : d.pollFuel fuel k = .ret (d', p)) : Reach d.inner d'.inner := by
  unfold ChunkedDecoder.pollFuel at h
  dsimp only at h
  split at h
  · obtain ⟨⟨d2, r⟩, h3, h4⟩ := Run.bind_eq_ret.1 h
    have hb : Reach d.inner d2.inner := readInner_adv (d := { d with start := 0, stop := 0, buffer := d.pool.alloc, pool := { d.pool with next := d.pool.next + 1 } }) h3
    cases r with
    | err e =>
      simp only [Run.ret.injEq, Prod.mk.injEq] at h4
      rw [← h4.1]; exact hb
    | res r =>
      cases r with
      | some read st ns np pend =>
        dsimp only at h4
        split at h4
        · simp only [Run.ret.injEq, Prod.mk.injEq] at h4
          rw [← h4.1]; exact hb
        · split at h4
          · simp only [Run.ret.injEq, Prod.mk.injEq] at h4
            rw [← h4.1]; exact hb
          · split at h4
            · simp only [Run.ret.injEq, Prod.mk.injEq] at h4
              rw [← h4.1]; exact hb
            · exact hb.trans (loop_adv fuel (d := { d2 with state := st, start := ns, stop := np }) h4)
      | none => exact hb.trans (loop_adv fuel h4)
  · exact loop_adv fuel (d := { d with start := 0, stop := 0, buffer := d.pool.alloc, pool := { d.pool with next := d.pool.next + 1 } }) h

/-! ## Request bodies -/

theorem Reach.buf {b b' : BufRd ρ} (h : Reach b b') : Reach b.inner b'.inner := by
  induction h with
  | refl => exact .refl
  | step h _ ih =>
    rcases bufRd_read h with ⟨_, e, _, _⟩ | ⟨_, k', q, _, e, _⟩
    · rw [← e]; exact ih
    · exact .step e ih

theorem Reach.dec {d d' : ChunkedDecoder ρ} (h : Reach d d') : Reach d.inner d'.inner := by
  induction h with
  | refl => exact .refl
  | step h _ ih => exact (pollFuel_adv h).trans ih

/-- The buffered connection inside a body. -/
def ReqBody.buf {ρ : Type} : ReqBody ρ → BufRd ρ
  | .fixed r => r.inner
  | .chunked r => r.inner.inner

theorem ReqBody.io_eq (b : ReqBody ρ) : b.io = b.buf.inner := by cases b <;> rfl

theorem body_reach {b b' : ReqBody ρ} {k : Nat} {p : RPoll} (h : pollRead b k = .ret (b', p)) : Reach b.buf b'.buf := by
  cases b with
  | fixed t =>
    have h1 : (pollRead t k >>= ReqBody.ofFixed) = .ret (b', p) := h
    obtain ⟨⟨t1, p'⟩, h3, h4⟩ := Run.bind_eq_ret.1 h1
    simp only [ReqBody.ofFixed, Run.ret.injEq, Prod.mk.injEq] at h4
    obtain ⟨rfl, rfl⟩ := h4
    have h5 : t.read k = .ret (t1, p') := h3
    unfold Take.read at h5
    split at h5
    · simp only [Run.ret.injEq, Prod.mk.injEq] at h5
      rw [← h5.1]; exact .refl
    · obtain ⟨⟨i, q⟩, h6, h7⟩ := Run.bind_eq_ret.1 h5
      simp only [Run.ret.injEq] at h7
      have : t1.inner = i := by
        have := congrArg (fun x => x.1.inner) h7
        rw [← this]
        cases q <;> rfl
      show Reach t.inner t1.inner
      rw [this]
      exact .one h6
  | chunked t =>
    have h1 : (pollRead t k >>= ReqBody.ofChunked) = .ret (b', p) := h
    obtain ⟨⟨t1, p'⟩, h3, h4⟩ := Run.bind_eq_ret.1 h1
    simp only [ReqBody.ofChunked, Run.ret.injEq, Prod.mk.injEq] at h4
    obtain ⟨rfl, rfl⟩ := h4
    exact (Reach.one h3).buf.dec

end

section
variable {ρ : Type} [AsyncRead ρ] {σ : Type} [AsyncBufRead σ]

theorem runAfter_reach {b : Bool} (a : After b) (body body' : ReqBody ρ) (ev : List Event) (g : Option Glitch)
    (h : runAfter a body = .ret (body', ev, g)) : Reach body.buf body'.buf := by
  induction a generalizing body ev with
  | read k next ih =>
    simp only [runAfter] at h
    obtain ⟨⟨b1, p⟩, h1, h2⟩ := Run.bind_eq_ret.1 h
    dsimp only at h2
    obtain ⟨⟨b2, ev2, g2⟩, h3, h4⟩ := Run.bind_eq_ret.1 h2
    simp only [Run.ret.injEq, Prod.mk.injEq] at h4
    obtain ⟨rfl, rfl, rfl⟩ := h4
    exact (body_reach h1).trans (ih p b1 ev2 h3)
  | ok =>
    simp only [runAfter, Run.ret.injEq, Prod.mk.injEq] at h
    obtain ⟨rfl, rfl, rfl⟩ := h
    exact .refl
  | glitch =>
    simp only [runAfter, Run.ret.injEq, Prod.mk.injEq] at h
    obtain ⟨rfl, rfl, rfl⟩ := h
    exact .refl

theorem runProg_reach {env : Env} {fuel n : Nat} (a : Prog σ) (body body' : ReqBody ρ) (w w' : Writer) (ev : List Event) (g : Option Glitch)
    (h : runProg env fuel n a body w = .ret (body', w', ev, g)) : Reach body.buf body'.buf := by
  induction a generalizing body ev with
  | read k next ih =>
    simp only [runProg] at h
    obtain ⟨⟨b1, p⟩, h1, h2⟩ := Run.bind_eq_ret.1 h
    dsimp only at h2
    obtain ⟨⟨b2, w2, ev2, g2⟩, h3, h4⟩ := Run.bind_eq_ret.1 h2
    simp only [Run.ret.injEq, Prod.mk.injEq] at h4
    obtain ⟨rfl, rfl, rfl, rfl⟩ := h4
    exact (body_reach h1).trans (ih p b1 ev2 h3)
  | send resp onOk onErr =>
    simp only [runProg] at h
    obtain ⟨⟨w1, r⟩, h1, h2⟩ := Run.bind_eq_ret.1 h
    dsimp only at h2
    cases r with
    | running => cases h2
    | err e =>
      obtain ⟨⟨b2, ev2, g2⟩, h3, h4⟩ := Run.bind_eq_ret.1 h2
      simp only [Run.ret.injEq, Prod.mk.injEq] at h4
      obtain ⟨rfl, rfl, rfl, rfl⟩ := h4
      exact runAfter_reach _ _ _ _ _ h3
    | ok amt =>
      obtain ⟨⟨b2, ev2, g2⟩, h3, h4⟩ := Run.bind_eq_ret.1 h2
      simp only [Run.ret.injEq, Prod.mk.injEq] at h4
      obtain ⟨rfl, rfl, rfl, rfl⟩ := h4
      exact runAfter_reach _ _ _ _ _ h3
  | sendFor steps resp onOk onErr onDrop =>
    simp only [runProg] at h
    obtain ⟨⟨w1, r⟩, h1, h2⟩ := Run.bind_eq_ret.1 h
    dsimp only at h2
    cases r with
    | running =>
      obtain ⟨⟨b2, ev2, g2⟩, h3, h4⟩ := Run.bind_eq_ret.1 h2
      simp only [Run.ret.injEq, Prod.mk.injEq] at h4
      obtain ⟨rfl, rfl, rfl, rfl⟩ := h4
      exact runAfter_reach _ _ _ _ _ h3
    | err e =>
      obtain ⟨⟨b2, ev2, g2⟩, h3, h4⟩ := Run.bind_eq_ret.1 h2
      simp only [Run.ret.injEq, Prod.mk.injEq] at h4
      obtain ⟨rfl, rfl, rfl, rfl⟩ := h4
      exact runAfter_reach _ _ _ _ _ h3
    | ok amt =>
      obtain ⟨⟨b2, ev2, g2⟩, h3, h4⟩ := Run.bind_eq_ret.1 h2
      simp only [Run.ret.injEq, Prod.mk.injEq] at h4
      obtain ⟨rfl, rfl, rfl, rfl⟩ := h4
      exact runAfter_reach _ _ _ _ _ h3
  | glitch =>
    simp only [runProg, Run.ret.injEq, Prod.mk.injEq] at h
    obtain ⟨rfl, rfl, rfl, rfl⟩ := h
    exact .refl

end

/-! ## What reading does to the bytes still to come -/

section
variable {ρ : Type} [AsyncRead ρ] [LawfulRead ρ]

/-- If the connection does not fail, what is still to come after some reads is the end of what was to come before. -/
theorem Reach.suffix {r r' : ρ} (h : Reach r r') (hf : fin r = none) : rem r' <:+ rem r ∧ fin r' = none ∧ meas r' ≤ meas r := by
  induction h with
  | refl => exact ⟨List.suffix_rfl, hf, Nat.le_refl _⟩
  | step h _ ih =>
    rename_i r r1 r' k p hr
    obtain ⟨r2, p2, h1, h2⟩ := LawfulRead.read_ok r k
    rw [h] at h1
    injection h1 with h1; injection h1 with e1 e2
    subst e1 e2
    cases h2 with
    | pending a b c =>
      obtain ⟨i1, i2, i3⟩ := ih (by rw [b, hf])
      exact ⟨by rw [← a]; exact i1, i2, by omega⟩
    | err a b => rw [hf] at b; cases b
    | data a b c d =>
      obtain ⟨i1, i2, i3⟩ := ih (by rw [c, hf])
      exact ⟨by rw [b]; exact i1.trans (List.suffix_append _ _), i2, by omega⟩

theorem BufRd.inner_suffix (b : BufRd ρ) : rem b.inner <:+ rem b := List.suffix_append _ _

end

end Tophat
