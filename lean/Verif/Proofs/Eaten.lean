import Verif.Proofs.ThruBody
import Verif.Proofs.Consumed
import Verif.Proofs.StepReach
/-! A chunked body that has been read to its end has been taken from the connection, all of it. -/

set_option linter.unusedSectionVars false

namespace Tophat
open Spec

section
variable {δ : Type} [AsyncRead δ]

/-- `bufRd_polls`, and the end of the stream is reported by the one when it is reported by the other. -/
theorem bufRd_ends {b b' : BufRd δ} {ks : List Nat} {ps : List RPoll} (hk : ∀ k ∈ ks, 0 < k) (h : polls b ks = .ret (b', ps)) :
    ∃ ks' ps', (∀ k ∈ ks', 0 < k) ∧ polls b.inner ks' = .ret (b'.inner, ps') ∧
      b.buf ++ received ps' = received ps ++ b'.buf ∧ (∀ e, .err e ∈ ps ↔ .err e ∈ ps') ∧ (SawEof ps ↔ SawEof ps') := by
  induction ks generalizing b ps with
  | nil =>
    simp only [polls, Run.ret.injEq, Prod.mk.injEq] at h
    obtain ⟨rfl, rfl⟩ := h
    exact ⟨[], [], by simp, rfl, by simp [received], by simp, by simp [SawEof]⟩
  | cons k ks ih =>
    have hk0 : 0 < k := hk k (by simp)
    replace ih := @ih
    have h0 := h
    simp only [polls] at h
    obtain ⟨⟨b1, p⟩, h1, h2⟩ := Run.bind_eq_ret.1 h
    dsimp only at h2
    have tail : (∀ e, p ≠ .err e) → ∃ ps1, polls b1 ks = .ret (b', ps1) ∧ ps = p :: ps1 := by
      intro hp
      rw [polls_cons_data h1 hp] at h0
      obtain ⟨⟨b2, ps1⟩, g1, g2⟩ := Run.bind_eq_ret.1 h0
      simp only [Run.ret.injEq, Prod.mk.injEq] at g2
      obtain ⟨rfl, rfl⟩ := g2
      exact ⟨ps1, g1, rfl⟩
    have hks : ∀ k ∈ ks, 0 < k := fun x hx => hk x (List.mem_cons_of_mem _ hx)
    rcases bufRd_read h1 with ⟨hb, e1, rfl, e2⟩ | ⟨hb, k', q, hk', e1, e2⟩
    · obtain ⟨ps1, g1, rfl⟩ := tail (by simp)
      obtain ⟨ks', ps', i1, i2, i3, i4, i5⟩ := ih hks g1
      refine ⟨ks', ps', i1, by rw [← e1]; exact i2, ?_, by simpa using i4, ?_⟩
      · simp only [received]
        rw [List.append_assoc, ← i3, e2, ← List.append_assoc, List.take_append_drop]
      · rw [← i5]
        have : b.buf.take k ≠ [] := by
          intro h
          rcases List.take_eq_nil_iff.1 h with h | h
          · omega
          · exact hb h
        simp only [SawEof, List.mem_cons, RPoll.data.injEq]
        exact ⟨fun h => h.resolve_left (fun h => this h.symm), .inr⟩
    · cases q with
      | pending =>
        obtain ⟨rfl, e3⟩ := e2
        obtain ⟨ps1, g1, rfl⟩ := tail (by simp)
        obtain ⟨ks', ps', i1, i2, i3, i4, i5⟩ := ih hks g1
        refine ⟨k' :: ks', .pending :: ps', ?_, ?_, ?_, by simpa using i4, by simpa [SawEof] using i5⟩
        · intro k hk; rcases List.mem_cons.1 hk with rfl | hk
          · exact hk'
          · exact i1 k hk
        · rw [polls_cons_data e1 (by simp), i2]; rfl
        · rw [e3] at i3; simpa [received, hb] using i3
      | err e =>
        obtain ⟨rfl, e3⟩ := e2
        simp only [Run.ret.injEq, Prod.mk.injEq] at h2
        obtain ⟨rfl, rfl⟩ := h2
        refine ⟨[k'], [.err e], by simpa using hk', ?_, by simp [received, hb, e3], by simp, by simp [SawEof]⟩
        simp [polls, e1]
      | data bs =>
        obtain ⟨x, rfl, e3, e4⟩ := e2
        obtain ⟨ps1, g1, rfl⟩ := tail (by simp)
        obtain ⟨ks', ps', i1, i2, i3, i4, i5⟩ := ih hks g1
        refine ⟨k' :: ks', .data bs :: ps', ?_, ?_, ?_, by simpa using i4, ?_⟩
        · intro k hk; rcases List.mem_cons.1 hk with rfl | hk
          · exact hk'
          · exact i1 k hk
        · rw [polls_cons_data e1 (by simp), i2]; rfl
        · simp only [received, hb, List.nil_append, e3, List.append_assoc]
          rw [i3]
        · have hx : x = [] ↔ bs = [] := ⟨e4 hk0, fun h => by rw [h] at e3; exact (List.append_eq_nil_iff.1 e3.symm).1⟩
          have i5' : RPoll.data [] ∈ ps1 ↔ RPoll.data [] ∈ ps' := i5
          simp only [SawEof, List.mem_cons, RPoll.data.injEq, i5']
          rw [eq_comm, hx, eq_comm]

end

section
variable {ρ : Type} [AsyncRead ρ] [LawfulRead ρ]

/-- When the decoder has reported the end of a body whose framing fits, and no error, it has taken the whole body, and the bytes behind it are in its window or still to come. -/
theorem chunked_eaten {r : ρ} {pool : Pool} (hp : pool.Ok) {ks : List Nat} (hk : ∀ k ∈ ks, 0 < k) {d : ChunkedDecoder ρ} {ps : List RPoll}
    (h : polls (ChunkedDecoder.new r pool) ks = .ret (d, ps)) {b x p : Bytes} {fs : List (Bytes × Bytes)} (hb : Roomy b p fs) (hn : fs.length ≤ 16) (hs : rem r = b ++ x)
    (he : SawEof ps) (hne : ∀ e, .err e ∉ ps) : rem d.inner <:+ x := by
  obtain ⟨_, m, hm, _⟩ := (C13_roomy_partial hp hk h hb hn hs).2.1 he
  obtain ⟨d', ps', h1, h2⟩ := Dec.polls_spec ks (ChunkedDecoder.new r pool) hk (Dec.decInv_new r pool hp)
  rw [h] at h1
  injection h1 with h1; injection h1 with e1 e2
  subst e1 e2
  cases h2 with
  | failed => exact absurd (List.mem_append_right _ List.mem_cons_self) (hne _)
  | going a _ _ _ f _ =>
    obtain ⟨c, hc, hr⟩ := (Dec.inv_new r pool).steps a
    have hst : (Dec.abs d).st = .done := f he
    have hsent : (Dec.abs d).sent = [m] := hm
    rw [hst, hsent] at hr
    rcases hr with ⟨_, hr⟩ | ⟨fs', hb', hn', _⟩
    · cases hr
    · have := (Body.unique hb' hb.body hn' hn (by rw [← hc, hs])).2.2
      exact ⟨(Dec.abs d).win, this⟩

/-- Behind a `BufReader`. -/
theorem chunked_eaten' {r : ρ} {pool : Pool} (hp : pool.Ok) {ks : List Nat} (hk : ∀ k ∈ ks, 0 < k) {t : BufRd (ChunkedDecoder ρ)} {ps : List RPoll}
    (h : polls (BufRd.new (ChunkedDecoder.new r pool)) ks = .ret (t, ps)) {b x p : Bytes} {fs : List (Bytes × Bytes)} (hb : Roomy b p fs) (hn : fs.length ≤ 16) (hs : rem r = b ++ x)
    (he : SawEof ps) (hne : ∀ e, .err e ∉ ps) : rem t.inner.inner <:+ x := by
  obtain ⟨ks', ps', h1, h2, _, h4, h5⟩ := bufRd_ends hk h
  exact chunked_eaten hp h1 h2 hb hn hs (h5.1 he) (fun e x => hne e ((h4 e).2 x))

/-- An error is only reported after the end. -/
theorem chunked_no_err {r : ρ} {pool : Pool} (hp : pool.Ok) {ks : List Nat} (hk : ∀ k ∈ ks, 0 < k) {t : BufRd (ChunkedDecoder ρ)} {ps : List RPoll}
    (h : polls (BufRd.new (ChunkedDecoder.new r pool)) ks = .ret (t, ps)) {b x p : Bytes} {fs : List (Bytes × Bytes)} (hb : Roomy b p fs) (hn : fs.length ≤ 16) (hs : rem r = b ++ x)
    {e : IoErr} (he : .err e ∈ ps) : SawEof ps := by
  obtain ⟨ks', ps', h1, h2, _, h4, h5⟩ := bufRd_ends hk h
  exact h5.2 ((C13_roomy_partial hp h1 h2 hb hn hs).1 ⟨e, (h4 e).1 he⟩)

/-- What reads do to a connection that does not fail. -/
theorem Reach.lawful {r r' : ρ} (h : Reach r r') (hf : fin r = none) : rem r' <:+ rem r ∧ fin r' = none ∧ meas r' ≤ meas r := by
  induction h with
  | refl => exact ⟨List.suffix_refl _, hf, Nat.le_refl _⟩
  | step h1 _ ih =>
    rename_i r r1 r' k p _
    obtain ⟨r2, q, h2, h3⟩ := LawfulRead.read_ok r k
    rw [h1] at h2
    injection h2 with h2; injection h2 with e1 e2
    subst e1 e2
    cases h3 with
    | pending a b c =>
      obtain ⟨i1, i2, i3⟩ := ih (b.trans hf)
      exact ⟨by rw [← a]; exact i1, i2, by omega⟩
    | err a b => rw [hf] at b; cases b
    | data a b c d e =>
      obtain ⟨i1, i2, i3⟩ := ih (c.trans hf)
      exact ⟨by rw [b]; exact i1.trans (List.suffix_append _ _), i2, by omega⟩

variable {σ : Type} [AsyncBufRead σ]

/-- What is left for the next head comes from behind the chunked body. -/
theorem acceptStep_eaten {env : Env} (hx : HexLenOk env.hexLen) (hp : ∀ n, (env.pool n).Ok) {opts : ServerOpts} {endpoint : Endpoint σ} {fuel n : Nat} {c c' : Conn ρ} {ev : List Event}
    {res : Option AcceptRes} {h : Bytes} {head : ReqHead} (hh : FirstHead (rem c.rd) h)
    (hs : acceptStep env opts endpoint fuel n c = .ret (c', ev, res)) (hc : .call head none ∈ ev)
    {b x p : Bytes} {fs : List (Bytes × Bytes)} (hb : Roomy b p fs) (hn : fs.length ≤ 16) (hs' : (rem c.rd).drop h.length = b ++ x)
    (hk : ∀ x ∈ bodyReads ev, 0 < x.1) (he : SawEof ((bodyReads ev).map (·.2))) (hne : ∀ e, .err e ∉ (bodyReads ev).map (·.2)) :
    rem c'.rd <:+ x := by
  obtain ⟨_, h', i, gs, hsv⟩ := call_inv (acceptStep_spec hx hs) hc
  have := hsv.firstHead.unique hh
  subst this
  obtain ⟨used, body, body', w1, w2, ev1, g, ev2, _, _, h3, h4, h5, h6, rfl⟩ := hsv.run
  have hbr : bodyReads (Spec.interim i ++ .call head none :: (ev1 ++ ev2)) = bodyReads ev1 := by
    rw [bodyReads_append, ← interimEvents_eq, bodyReads_interimEvents, bodyReads, bodyReads_append, answerGlitch_reads h5]
    · simp
    all_goals simp
  rw [hbr] at hk he hne
  have hne' : ∀ k e, (k, .err e) ∉ bodyReads ev1 := fun k e hx => hne e (List.mem_map.2 ⟨_, hx, rfl⟩)
  obtain ⟨b1, g1, g2⟩ := runProg_polls _ _ _ _ _ _ _ h4
  rw [← g2 hne'] at h6
  rw [untilErr_eq _ (by rintro ⟨e, j, hx⟩; exact hne' j e hx)] at g1
  generalize hl : none = l at h3
  cases h3 with
  | fixed => cases hl
  | chunked a b' cc =>
    rename_i r
    obtain ⟨t, ht, g3⟩ : ∃ t, b1 = .chunked t ∧ polls (BufRd.new (ChunkedDecoder.new r (env.pool n))) ((bodyReads ev1).map (·.1)) = .ret (t, (bodyReads ev1).map (·.2)) := by
      exact polls_chunked g1
    have := chunked_eaten' (hp n) (by intro k hk'; obtain ⟨y, hy, rfl⟩ := List.mem_map.1 hk'; exact hk y hy) g3 hb hn (a.trans hs') he hne
    rw [h6, ht]
    exact (BufRd.inner_suffix _).trans this

end

end Tophat
