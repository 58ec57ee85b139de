import Verif.Proofs.Lockstep
import Verif.Proofs.ThruClient
import Verif.Proofs.ThruAccept
/-! A peer that falls silent and then goes on; nobody can tell before how it goes on. -/

set_option linter.unusedSectionVars false

namespace Tophat
open Spec

/-- A reader, and then another one. -/
inductive Later (ρ : Type)
  | talk (r : ρ) (s : Script)
  | rest (s : Script)

namespace Later
variable {ρ : Type}

/-- `poll_read` with a buffer of length `k`. -/
def read [AsyncRead ρ] : Later ρ → Nat → Run (Later ρ × RPoll)
  | .talk r s, k => do
    let (r, p) ← pollRead r k
    if p = .data [] ∧ 0 < k then .ret (.rest (s.read k).1, (s.read k).2) else .ret (.talk r s, p)
  | .rest s, k => .ret (.rest (s.read k).1, (s.read k).2)

end Later

instance {ρ : Type} [AsyncRead ρ] : AsyncRead (Later ρ) where
  pollRead := Later.read

section
variable {ρ : Type} [AsyncRead ρ] [LawfulRead ρ]

/-- What it delivers, how it ends, and how often it may be `Pending`. -/
def Later.remL : Later ρ → Bytes
  | .talk r s => if fin r = none then rem r ++ Script.bytes s else rem r
  | .rest s => Script.bytes s
@[inherit_doc Later.remL] def Later.finL : Later ρ → Option IoErr
  | .talk r s => if fin r = none then Script.ending s else fin r
  | .rest s => Script.ending s
@[inherit_doc Later.remL] def Later.measL : Later ρ → Nat
  | .talk r s => meas r + Script.pendings s
  | .rest s => Script.pendings s

theorem Later.read_lawful (x : Later ρ) (k : Nat) : ∃ x' p, pollRead x k = .ret (x', p) ∧ ReadOk Later.remL Later.finL Later.measL x k x' p := by
  have go : ∀ (s : Script) (x : Later ρ), x.remL = Script.bytes s → x.finL = Script.ending s → Script.pendings s ≤ x.measL →
      ReadOk Later.remL Later.finL Later.measL x k (.rest (s.read k).1) (s.read k).2 := by
    intro s x h1 h2 h3
    have := Script.read_spec s k
    generalize (s.read k).1 = s1 at this ⊢
    generalize (s.read k).2 = p at this ⊢
    cases this with
    | pending a b c => exact .pending (by rw [h1]; exact a) (by rw [h2]; exact b) (show Script.pendings s1 < _ by omega)
    | err a b => exact .err (by rw [h1]; exact a) (by rw [h2]; exact b)
    | data a b c d e => exact .data a (by rw [h1]; exact b) (by rw [h2]; exact c) (show Script.pendings s1 ≤ _ by omega) (by rw [h1, h2]; exact e)
  cases x with
  | rest s => exact ⟨_, _, rfl, go s _ rfl rfl (Nat.le_refl _)⟩
  | talk r s =>
    obtain ⟨r', p, h, ok⟩ := LawfulRead.read_ok r k
    show ∃ x' p, (Later.talk r s).read k = .ret (x', p) ∧ _
    simp only [Later.read, h, Run.ret_bind]
    by_cases hp : p = .data [] ∧ 0 < k
    · rw [if_pos hp]
      obtain ⟨rfl, hk⟩ := hp
      cases ok with
      | data a b c d e =>
        obtain ⟨e1, e2⟩ := e hk rfl
        exact ⟨_, _, rfl, go s _ (by simp [remL, show fin r = none from e2, show rem r = [] from e1]) (by simp [finL, show fin r = none from e2]) (by simp [measL])⟩
    · rw [if_neg hp]
      refine ⟨_, _, rfl, ?_⟩
      cases ok with
      | pending a b c =>
        have a' : rem r' = rem r := a
        have b' : fin r' = fin r := b
        have c' : meas r' < meas r := c
        exact .pending (by simp [remL, a', b']) (by simp [finL, b']) (by simp [measL]; exact c')
      | err a b =>
        have a' : rem r = [] := a
        have b' : fin r = _ := b
        exact .err (by simp [remL, a', b']) (by simp [finL, b'])
      | data a b c d e =>
        rename_i bs
        have b' : rem r = bs ++ rem r' := b
        have c' : fin r' = fin r := c
        have d' : meas r' ≤ meas r := d
        refine .data a (by simp only [remL, b', c']; split <;> simp) (by simp [finL, c']) (by simp [measL]; exact d') fun hk hb => ?_
        exact absurd ⟨by rw [hb], hk⟩ hp

instance : LawfulRead (Later ρ) where
  rem := Later.remL
  fin := Later.finL
  meas := Later.measL
  read_ok := Later.read_lawful

theorem thru_later (s : Script) : Thru (fun r : ρ => Later.talk r s) where
  read := by
    intro r k r' p h hp
    show (Later.talk r s).read k = _
    simp only [Later.read, h, Run.ret_bind]
    rw [if_neg (fun x => hp x.1)]

/-- Silence of `n` polls, and then `x`. -/
def afterSilence (n : Nat) (x : Script) : Script := List.replicate n .pending ++ x

theorem afterSilence_bytes (n : Nat) (x : Script) : Script.bytes (afterSilence n x) = Script.bytes x := by
  unfold afterSilence
  induction n with
  | zero => rfl
  | succ n ih => simpa [List.replicate_succ, Script.bytes] using ih

/-- The peer that is silent, and the one that goes on after that. -/
inductive StallS (x : Script) (n : Nat) : Stall ρ → Later ρ → Prop
  | talk {r N} : n ≤ N → StallS x n (.talk r N) (.talk r (afterSilence N x))
  | hush {j} : n ≤ j → StallS x n (.hush j) (.rest (afterSilence j x))

theorem silence_lock (x : Script) {n j : Nat} (h : n + 1 ≤ j) (k : Nat) :
    Par (StallS (ρ := ρ) x) n (Stall.silence j) (.ret (.rest ((afterSilence j x).read k).1, ((afterSilence j x).read k).2)) := by
  obtain ⟨j, rfl⟩ : ∃ i, j = i + 1 := ⟨j - 1, by omega⟩
  have : (afterSilence (j + 1) x).read k = (afterSilence j x, .pending) := by simp [afterSilence, List.replicate_succ, Script.read]
  rw [this]
  exact .ret (p := .pending) (.hush (by simp only [left, if_true]; omega))

theorem stall_lock (x : Script) : Lock (StallS (ρ := ρ) x) where
  less := by
    intro n r r' h
    cases h with
    | talk h => exact .talk (by omega)
    | hush h => exact .hush (by omega)
  step := by
    intro n r r' h k
    cases h with
    | hush h => exact silence_lock x h k
    | @talk r N h =>
      obtain ⟨r', p, h1, -⟩ := LawfulRead.read_ok r k
      show Par _ _ (Stall.read _ k) (Later.read _ k)
      simp only [Stall.read, Later.read, h1, Run.ret_bind]
      split
      · exact silence_lock x h k
      · exact .ret (.talk (by unfold left; split <;> omega))

end

/-! ## How it may go on -/

/-- The end of a chunked body, and the end with another chunk before it. -/
def ending0 : Bytes := [48, 13, 10] ++ [13, 10]
@[inherit_doc ending0] def ending1 : Bytes := [49, 13, 10] ++ ([97] ++ (13 :: 10 :: ([48, 13, 10] ++ [13, 10])))

theorem within_less {f g b : Nat} {w p : Bytes} (h : Within f b w p) (hg : g ≤ f) : Within g b w p := by
  induction h with
  | nil h => exact .nil (by omega)
  | cons a b c _ ih => exact .cons a b c ih

theorem within_more {b : Nat} {w p : Bytes} (h : Within 11 b w p) : Within 5 b (w ++ ([49, 13, 10] ++ ([97] ++ (13 :: 10 :: [])))) (p ++ [97]) := by
  induction h with
  | nil h =>
    have hs : SizeLine ([49, 13, 10] : Bytes) ([97] : Bytes).length := ⟨[49], [], [], by decide, by decide, by decide, by simp, .inl rfl⟩
    exact Within.cons (d := [97]) (p := []) hs (by decide) (by simp; omega) (.nil (by simp [chunkCost]; omega))
  | @cons b l d w p a1 a2 a3 _ ih =>
    have := Within.cons a1 a2 a3 ih
    simpa using this

theorem roomy0 {w p : Bytes} (h : Within 11 4096 w p) : Roomy (w ++ ending0) p [] :=
  ⟨w, _, _, rfl, within_less h (by simp), lastLine, emptySection⟩

theorem roomy1 {w p : Bytes} (h : Within 11 4096 w p) : Roomy (w ++ ending1) (p ++ [97]) [] :=
  ⟨_, [48, 13, 10], [13, 10], by simp [ending1], within_more h, lastLine, emptySection⟩

section
variable {ρ ρ' : Type} [AsyncRead ρ] [AsyncRead ρ'] {S : Nat → ρ → ρ' → Prop}

/-- Bodies in the same state in front of readers that answer alike. -/
inductive BodyS (S : Nat → ρ → ρ' → Prop) (n : Nat) : ReqBody ρ → ReqBody ρ' → Prop
  | mk {t t'} : BufS (DecS (BufS S)) n t t' → BodyS S n (.chunked t) (.chunked t')
  | fixed {t t' l} : BufS S n t t' → BodyS S n (.fixed ⟨t, l⟩) (.fixed ⟨t', l⟩)

@[inherit_doc BodyS] inductive ReplyS (S : Nat → ρ → ρ' → Prop) (n : Nat) : ReplyBody ρ → ReplyBody ρ' → Prop
  | mk {t t'} : BodyS S n t t' → ReplyS S n (.stream t) (.stream t')

theorem Lock.body (h : Lock S) : Lock (BodyS S) where
  less := by
    intro n _ _ hx
    cases hx with
    | mk x => exact .mk (h.buf.dec.buf.less x)
    | fixed x => exact .fixed (h.buf.less x)
  step := by
    intro n _ _ hx k
    cases hx with
    | @mk t t' x =>
      have := h.buf.dec.buf.step x k
      show Par _ _ (pollRead t k >>= ReqBody.ofChunked) (pollRead t' k >>= ReqBody.ofChunked)
      generalize pollRead t k = y at this ⊢
      generalize pollRead t' k = y' at this ⊢
      cases this with
      | ret z => exact .ret (.mk z)
      | panic => exact .panic
      | diverge => exact .diverge
    | @fixed t t' l x =>
      show Par _ _ (Take.read ⟨t, l⟩ k >>= ReqBody.ofFixed) (Take.read ⟨t', l⟩ k >>= ReqBody.ofFixed)
      unfold Take.read
      dsimp only
      by_cases hl : l = 0
      · rw [if_pos hl, if_pos hl]
        exact .ret (.fixed x)
      · rw [if_neg hl, if_neg hl]
        have := h.buf.step x (min k l)
        generalize pollRead t (min k l) = y at this ⊢
        generalize pollRead t' (min k l) = y' at this ⊢
        cases this with
        | @ret _ _ p z =>
          cases p with
          | pending => exact .ret (.fixed z)
          | err e => exact .ret (.fixed z)
          | data bs => exact .ret (.fixed z)
        | panic => exact .panic
        | diverge => exact .diverge

theorem Lock.reply (h : Lock S) : Lock (ReplyS S) where
  less := by rintro n _ _ ⟨x⟩; exact ⟨h.body.less x⟩
  step := by
    rintro n _ _ ⟨x⟩ k
    rename_i t t'
    have := h.body.step x k
    show Par _ _ (pollRead t k >>= ReplyBody.ofStream) (pollRead t' k >>= ReplyBody.ofStream)
    generalize pollRead t k = y at this ⊢
    generalize pollRead t' k = y' at this ⊢
    cases this with
    | ret z => exact .ret (.mk z)
    | panic => exact .panic
    | diverge => exact .diverge

end

section
variable {ρ : Type} [AsyncRead ρ] [LawfulRead ρ]

theorem fixed_later (t : BufRd ρ) (l N : Nat) (x : Script) :
    BodyS (StallS x) N ((ReqBody.fixed ⟨t, l⟩).on fun r => Stall.talk r N) ((ReqBody.fixed ⟨t, l⟩).on fun r => Later.talk r (afterSilence N x)) :=
  .fixed (t := t.on fun r => Stall.talk r N) (t' := t.on fun r => Later.talk r (afterSilence N x)) (.mk (.talk (Nat.le_refl _)))

theorem body_later (t : BufRd (ChunkedDecoder (BufRd ρ))) (N : Nat) (x : Script) :
    BodyS (StallS x) N ((ReqBody.chunked t).on fun r => Stall.talk r N) ((ReqBody.chunked t).on fun r => Later.talk r (afterSilence N x)) :=
  .mk (.mk (DecS.mk (d := t.inner.on (BufRd.on fun r => Stall.talk r N)) (r' := t.inner.inner.on fun r => Later.talk r (afterSilence N x)) (.mk (.talk (Nat.le_refl _)))))

end

section
variable {ρ ρ' : Type} [AsyncRead ρ] [LawfulRead ρ] [AsyncRead ρ'] {f : ρ → ρ'} {σ : Type} [AsyncBufRead σ]

/-- The endpoint's reads of the body, on a connection that behaves as `c` does before the end of the stream. -/
theorem acceptStep_reads_thru (hf : Thru f) {env : Env} {opts : ServerOpts} {endpoint : Endpoint σ} {fuel n : Nat} {c : Conn ρ} {c' : Conn ρ'} {ev : List Event} {res : Option AcceptRes}
    {hd : Bytes} (hh : FirstHead (rem c.rd) hd) (hfuel : (rem c.rd).length + meas c.rd + c.wr.script.length + 2 ≤ fuel)
    (h : acceptStep env opts endpoint fuel n (c.on f) = .ret (c', ev, res)) {head : ReqHead} {len : Option Nat} (hc : .call head len ∈ ev) :
    ∃ (body : ReqBody ρ) (b1 : ReqBody ρ'), BodyAt (env.pool n) ((rem c.rd).drop hd.length) (fin c.rd) (meas c.rd + c.wr.script.length) len body ∧
      polls (body.on f) ((untilErr (bodyReads ev)).map (·.1)) = .ret (b1, (untilErr (bodyReads ev)).map (·.2)) := by
  unfold acceptStep at h
  rcases awaitDecode_spec (env := env) (opts := opts) (pool := env.pool n) fuel fuel c.clock (decInv_start c.rd c.wr) with
    ⟨_, k | k⟩ | ⟨w2, ck2, a2, k1, k2⟩
  · omega
  · omega
  have hstart : (DecFut.start c.rd).Coming hd := by
    refine ⟨noHead_nil, ?_⟩
    show FirstHead ([] ++ ([] ++ rem c.rd)) hd
    exact hh
  have h1' := awaitDecode_thru hf fuel k1 hstart
  rw [decFut_start_on] at h1'
  replace h : (awaitDecode env opts fuel (env.pool n) fuel (DecFut.start (f c.rd)) c.wr c.clock >>= _) = _ := h
  rw [h1'] at h
  simp only [Run.ret_bind] at h
  cases a2 with
  | timedOut io =>
    simp only [Await.on, Run.ret.injEq, Prod.mk.injEq] at h
    obtain ⟨rfl, rfl, rfl⟩ := h
    rw [← mem_calls] at hc
    have : calls (interimEvent (c.on f).wr w2) = [] := calls_interimEvent _ _
    rw [this] at hc; cases hc
  | ready r =>
    cases r with
    | none io =>
      simp only [Await.on, DecRes.on, Run.ret.injEq, Prod.mk.injEq] at h
      obtain ⟨rfl, rfl, rfl⟩ := h
      rw [← mem_calls] at hc
      have : calls (interimEvent (c.on f).wr w2) = [] := calls_interimEvent _ _
      rw [this] at hc; cases hc
    | fail e io =>
      dsimp only [Await.on, DecRes.on] at h
      obtain ⟨⟨w3, ev3⟩, h3, h4⟩ := Run.bind_eq_ret.1 h
      simp only [Run.ret.injEq, Prod.mk.injEq] at h4
      obtain ⟨rfl, rfl, rfl⟩ := h4
      have h3' : calls ev3 = [] := by
        unfold answerFail at h3
        split at h3
        · simp only [Run.ret.injEq, Prod.mk.injEq] at h3
          rw [← h3.2]; rfl
        · obtain ⟨⟨w5, x⟩, -, h6⟩ := Run.bind_eq_ret.1 h3
          simp only [Run.ret.injEq, Prod.mk.injEq] at h6
          rw [← h6.2]; rfl
      rw [← mem_calls, calls_append, h3', show calls (interimEvent (c.on f).wr w2) = [] from calls_interimEvent _ _] at hc
      cases hc
    | request req =>
      dsimp only [Await.on, DecRes.on] at h
      obtain ⟨⟨b1, w3, ev1, g⟩, h3, h4⟩ := Run.bind_eq_ret.1 h
      dsimp only at h4
      obtain ⟨⟨w4, ev2⟩, h5, h6⟩ := Run.bind_eq_ret.1 h4
      simp only [Run.ret.injEq, Prod.mk.injEq] at h6
      obtain ⟨rfl, rfl, rfl⟩ := h6
      have hr : bodyReads (interimEvent c.wr w2 ++ Event.call req.head req.length :: (ev1 ++ ev2)) = bodyReads ev1 := by
        rw [bodyReads_append, bodyReads_interimEvent]
        simp only [List.nil_append, bodyReads]
        rw [bodyReads_append, answerGlitch_reads h5, List.append_nil]
      have hcall : len = req.length := by
        rw [← mem_calls] at hc
        rw [calls_append, show calls (interimEvent (c.on f).wr w2) = [] from calls_interimEvent _ _, calls, calls_append, runProg_calls _ _ _ _ _ _ _ h3, answerGlitch_calls h5] at hc
        simp at hc
        exact hc.2
      subst hcall
      cases k2 with
      | ready x y z u =>
        have := x.decided
        cases this with
        | serve b1' b2' b3' b4' b5' b6' b7' =>
          have e := b1'.unique hh; subst e
          obtain ⟨b2, e2, -⟩ := runProg_polls _ _ _ _ _ _ _ h3
          refine ⟨_, b2, b7', ?_⟩
          show polls _ ((untilErr (bodyReads (interimEvent c.wr w2 ++ _))).map _) = .ret (_, (untilErr (bodyReads (interimEvent c.wr w2 ++ _))).map _)
          rw [hr]
          exact e2

end

end Tophat
