import Verif.Model.Body
import Verif.Proofs.ChunkedReqBody
import Verif.Proofs.Total
/-! Reading a body to its end. -/

set_option linter.unusedSectionVars false

namespace Tophat
open Spec

theorem polls_snoc {ρ : Type} [AsyncRead ρ] {ks : List Nat} {k : Nat} : ∀ {r r1 r2 : ρ} {ps : List RPoll} {p : RPoll}, polls r ks = .ret (r1, ps) → (∀ e, .err e ∉ ps) →
    pollRead r1 k = .ret (r2, p) → polls r (ks ++ [k]) = .ret (r2, ps ++ [p]) := by
  induction ks with
  | nil =>
    intro r r1 r2 ps p h he hp
    simp only [polls, Run.ret.injEq, Prod.mk.injEq] at h
    obtain ⟨rfl, rfl⟩ := h
    simp only [List.nil_append, polls, hp, Run.ret_bind]
    cases p <;> rfl
  | cons k' ks ih =>
    intro r r1 r2 ps p h he hp
    simp only [polls] at h
    obtain ⟨⟨r3, q⟩, h1, h2⟩ := Run.bind_eq_ret.1 h
    dsimp only at h2
    cases q with
    | err e =>
      simp only [Run.ret.injEq, Prod.mk.injEq] at h2
      exact absurd (by rw [← h2.2]; exact List.mem_cons_self) (he e)
    | pending =>
      dsimp only at h2
      obtain ⟨⟨r4, qs⟩, h3, h4⟩ := Run.bind_eq_ret.1 h2
      simp only [Run.ret.injEq, Prod.mk.injEq] at h4
      obtain ⟨rfl, rfl⟩ := h4
      simp only [List.cons_append, polls, h1, Run.ret_bind, ih h3 (fun e hm => he e (List.mem_cons_of_mem _ hm)) hp]
    | data bs =>
      dsimp only at h2
      obtain ⟨⟨r4, qs⟩, h3, h4⟩ := Run.bind_eq_ret.1 h2
      simp only [Run.ret.injEq, Prod.mk.injEq] at h4
      obtain ⟨rfl, rfl⟩ := h4
      simp only [List.cons_append, polls, h1, Run.ret_bind, ih h3 (fun e hm => he e (List.mem_cons_of_mem _ hm)) hp]

/-- How `readToEnd` ends: some reads, and one more that reports the end or an error. -/
def Slurped {ρ : Type} [AsyncRead ρ] (fuel : Nat) (r : ρ) (got : Bytes) (r' : ρ) (x : Slurp) : Prop :=
  ∃ ks ps r1, (∀ k ∈ ks, 0 < k) ∧ polls r ks = .ret (r1, ps) ∧ ¬ SawEof ps ∧ (∀ e, .err e ∉ ps) ∧
    match x with
    | .running => r' = r1 ∧ ks.length = fuel
    | .err e => ∃ k, 0 < k ∧ pollRead r1 k = .ret (r', .err e)
    | .eof bs => bs = got ++ received ps ∧ ∃ k, 0 < k ∧ pollRead r1 k = .ret (r', .data [])

theorem room_got {grow : Nat → Nat → Nat} (s : ToEnd) : (s.room grow).got = s.got := by
  unfold ToEnd.room; split <;> rfl

theorem room_lt {grow : Nat → Nat → Nat} (hg : GrowOk grow) (s : ToEnd) (h : (s.room grow).got.length ≤ (s.room grow).len) : (s.room grow).got.length < (s.room grow).len := by
  unfold ToEnd.room at *
  by_cases hl : s.got.length = s.len
  · rw [if_pos hl]
    dsimp only
    have := hg s.cap s.len
    split <;> omega
  · rw [if_neg hl] at *
    omega

theorem Slurped.cons {ρ : Type} [AsyncRead ρ] {fuel : Nat} {r r2 r' : ρ} {got : Bytes} {x : Slurp} {k : Nat} {p : RPoll} (hk : 0 < k) (hp : pollRead r k = .ret (r2, p))
    (h1 : p ≠ .data []) (h2 : ∀ e, p ≠ .err e) (h : Slurped fuel r2 (got ++ received [p]) r' x) : Slurped (fuel + 1) r got r' x := by
  obtain ⟨ks, ps, r1, a, b, c, d, e⟩ := h
  refine ⟨k :: ks, p :: ps, r1, ?_, ?_, ?_, ?_, ?_⟩
  · intro k' hk'
    rcases List.mem_cons.1 hk' with rfl | hk'
    · exact hk
    · exact a k' hk'
  · rw [polls_cons_data hp h2, b]; rfl
  · unfold SawEof at *
    simp only [List.mem_cons, not_or]
    exact ⟨fun h => h1 h.symm, c⟩
  · intro e he
    rcases List.mem_cons.1 he with he | he
    · exact h2 e he.symm
    · exact d e he
  · cases x with
    | running => exact ⟨e.1, by simp [e.2]⟩
    | err => exact e
    | eof bs =>
      refine ⟨?_, e.2⟩
      rw [e.1, List.append_assoc, ← received_append]; rfl

theorem readToEnd_slurped {ρ : Type} [AsyncRead ρ] {grow : Nat → Nat → Nat} (hg : GrowOk grow) (fuel : Nat) : ∀ {r r' : ρ} {s : ToEnd} {x : Slurp},
    readToEnd grow fuel r s = .ret (r', x) → Slurped fuel r s.got r' x := by
  induction fuel with
  | zero =>
    intro r r' s x h
    simp only [readToEnd, Run.ret.injEq, Prod.mk.injEq] at h
    obtain ⟨rfl, rfl⟩ := h
    exact ⟨[], [], _, by simp, rfl, by simp [SawEof], by simp, rfl, rfl⟩
  | succ fuel ih =>
    intro r r' s x h
    simp only [readToEnd] at h
    split at h
    · rename_i hle
      have hlt := room_lt hg s hle
      have hgot := room_got (grow := grow) s
      generalize hs : s.room grow = s1 at *
      have hk : 0 < s1.len - s1.got.length := by omega
      obtain ⟨⟨r2, p⟩, h1, h2⟩ := Run.bind_eq_ret.1 h
      dsimp only at h2
      split at h2
      · refine .cons hk h1 (by simp) (by simp) ?_
        simpa [received, hgot] using ih h2
      · simp only [Run.ret.injEq, Prod.mk.injEq] at h2
        obtain ⟨rfl, rfl⟩ := h2
        exact ⟨[], [], r, by simp, rfl, by simp [SawEof], by simp, _, hk, h1⟩
      · simp only [Run.ret.injEq, Prod.mk.injEq] at h2
        obtain ⟨rfl, rfl⟩ := h2
        exact ⟨[], [], r, by simp, rfl, by simp [SawEof], by simp, by simp [received, hgot], _, hk, h1⟩
      · rename_i bs hne
        refine .cons hk h1 (by intro hh; injection hh with hh; exact hne hh) (by simp) ?_
        simpa [received, hgot] using ih h2
    · cases h

theorem readToEnd_total {ρ : Type} [AsyncRead ρ] {grow : Nat → Nat → Nat} (hg : GrowOk grow) {I : ρ → Prop}
    (hI : ∀ r k, I r → ∃ r' p, pollRead r k = .ret (r', p) ∧ (p.good = true → I r') ∧ p.Fits k) (fuel : Nat) : ∀ {r : ρ} {s : ToEnd}, I r → s.got.length ≤ s.len →
    ∃ r' x, readToEnd grow fuel r s = .ret (r', x) := by
  induction fuel with
  | zero => intro r s _ _; exact ⟨r, .running, rfl⟩
  | succ fuel ih =>
    intro r s hr hs
    have hle : (s.room grow).got.length ≤ (s.room grow).len := by
      unfold ToEnd.room
      split
      · rename_i hl
        dsimp only
        have := hg s.cap s.len
        split <;> omega
      · exact hs
    simp only [readToEnd]
    rw [if_pos hle]
    obtain ⟨r1, p, h1, h2, h3⟩ := hI r ((s.room grow).len - (s.room grow).got.length) hr
    rw [h1]
    simp only [Run.ret_bind]
    cases p with
    | pending => exact ih (h2 rfl) (by simp)
    | err e => exact ⟨_, _, rfl⟩
    | data bs =>
      cases bs with
      | nil => exact ⟨_, _, rfl⟩
      | cons b bs =>
        refine ih (h2 rfl) ?_
        simp only [RPoll.Fits] at h3
        simp only [List.length_append]
        omega

/-- Reading repeatedly through a `BufReader`, as long as neither end nor error is reported. -/
theorem bufRd_quiet {δ : Type} [AsyncRead δ] (ks : List Nat) : ∀ {b b' : BufRd δ} {ps : List RPoll}, polls b ks = .ret (b', ps) → ¬ SawEof ps → (∀ e, .err e ∉ ps) →
    ∃ ks' ps', (∀ k ∈ ks', 0 < k) ∧ polls b.inner ks' = .ret (b'.inner, ps') ∧ b.buf ++ received ps' = received ps ++ b'.buf ∧ ¬ SawEof ps' ∧ ∀ e, .err e ∉ ps' := by
  induction ks with
  | nil =>
    intro b b' ps h _ _
    simp only [polls, Run.ret.injEq, Prod.mk.injEq] at h
    obtain ⟨rfl, rfl⟩ := h
    exact ⟨[], [], by simp, rfl, by simp [received], by simp [SawEof], by simp⟩
  | cons k ks ih =>
    intro b b' ps h hs he
    simp only [polls] at h
    obtain ⟨⟨b1, p⟩, h1, h2⟩ := Run.bind_eq_ret.1 h
    dsimp only at h2
    have tail : ∃ ps1, polls b1 ks = .ret (b', ps1) ∧ ps = p :: ps1 := by
      cases p with
      | err e =>
        simp only [Run.ret.injEq, Prod.mk.injEq] at h2
        exact absurd (by rw [← h2.2]; exact List.mem_cons_self) (he e)
      | pending =>
        dsimp only at h2
        obtain ⟨⟨b2, qs⟩, h3, h4⟩ := Run.bind_eq_ret.1 h2
        simp only [Run.ret.injEq, Prod.mk.injEq] at h4
        obtain ⟨rfl, rfl⟩ := h4
        exact ⟨qs, h3, rfl⟩
      | data bs =>
        dsimp only at h2
        obtain ⟨⟨b2, qs⟩, h3, h4⟩ := Run.bind_eq_ret.1 h2
        simp only [Run.ret.injEq, Prod.mk.injEq] at h4
        obtain ⟨rfl, rfl⟩ := h4
        exact ⟨qs, h3, rfl⟩
    obtain ⟨ps1, h3, rfl⟩ := tail
    have hs1 : ¬ SawEof ps1 := fun h => hs (by unfold SawEof at *; exact List.mem_cons_of_mem _ h)
    have hp1 : p ≠ .data [] := fun h => hs (by rw [h]; exact List.mem_cons_self)
    have hp2 : ∀ e, p ≠ .err e := fun e h => he e (by rw [h]; exact List.mem_cons_self)
    obtain ⟨ks', ps', g1, g2, g3, g4, g5⟩ := ih h3 hs1 (fun e h => he e (List.mem_cons_of_mem _ h))
    rcases bufRd_read h1 with ⟨a1, a2, a3, a4⟩ | ⟨a1, k', q, a2, a3, a4⟩
    · refine ⟨ks', ps', g1, by rw [← a2]; exact g2, ?_, g4, g5⟩
      subst a3
      rw [a4] at g3
      simp only [received, List.append_assoc]
      rw [← g3, ← List.append_assoc, List.take_append_drop]
    · have hq : q ≠ .data [] ∧ (∀ e, q ≠ .err e) ∧ received [q] = received [p] ++ b1.buf := by
        cases q with
        | pending => obtain ⟨rfl, h5⟩ := a4; rw [h5]; exact ⟨by simp, by simp, by simp [received]⟩
        | err e => exact absurd a4.1 (hp2 e)
        | data bs =>
          obtain ⟨x, rfl, h5, -⟩ := a4
          refine ⟨?_, by simp, by simp [received, h5]⟩
          intro hb
          injection hb with hb
          rw [hb] at h5
          exact hp1 (by rw [(List.append_eq_nil_iff.1 h5.symm).1])
      refine ⟨k' :: ks', q :: ps', ?_, ?_, ?_, ?_, ?_⟩
      · intro j hj
        rcases List.mem_cons.1 hj with rfl | hj
        · exact a2
        · exact g1 j hj
      · rw [polls_cons_data a3 hq.2.1, g2]; rfl
      · have e1 : received (q :: ps') = received [q] ++ received ps' := received_append [q] ps'
        have e2 : received (p :: ps1) = received [p] ++ received ps1 := received_append [p] ps1
        rw [e1, e2, hq.2.2, a1, List.nil_append, List.append_assoc, g3, List.append_assoc]
      · unfold SawEof at *
        simp only [List.mem_cons, not_or]
        exact ⟨fun h => hq.1 h.symm, g4⟩
      · intro e hm
        rcases List.mem_cons.1 hm with hm | hm
        · exact hq.2.1 e hm.symm
        · exact g5 e hm

section
variable {ρ : Type} [AsyncRead ρ] [LawfulRead ρ]

theorem lawful_total (r : ρ) (k : Nat) : ∃ r' p, pollRead r k = .ret (r', p) ∧ (p.good = true → True) ∧ p.Fits k := by
  obtain ⟨r', p, h1, h2⟩ := LawfulRead.read_ok r k
  refine ⟨r', p, h1, fun _ => trivial, ?_⟩
  cases h2 with
  | pending => trivial
  | err => trivial
  | data a => exact a

/-- Reading a lawful reader to its end. -/
theorem readToEnd_lawful {grow : Nat → Nat → Nat} (hg : GrowOk grow) (fuel : Nat) (r : ρ) (cap : Nat) :
    ∃ r' x, readToEnd grow fuel r (ToEnd.new cap) = .ret (r', x) ∧
      match x with
      | .running => fuel ≤ (rem r).length + meas r
      | .err e => fin r = some e
      | .eof bs => bs = rem r ∧ fin r = none := by
  obtain ⟨r', x, h⟩ := readToEnd_total hg (I := fun _ : ρ => True) (fun r k _ => lawful_total r k) fuel (r := r) (s := ToEnd.new cap) trivial (by simp [ToEnd.new])
  refine ⟨r', x, h, ?_⟩
  obtain ⟨ks, ps, r1, a, b, c, d, e⟩ := readToEnd_slurped hg fuel h
  obtain ⟨r2, ps2, g1, g2⟩ := polls_lawful r ks
  rw [b] at g1
  injection g1 with g1; injection g1 with e1 e2
  subst e1; subst e2
  obtain ⟨q1, q2, q3⟩ := g2.rest d
  cases x with
  | running =>
    have := g2.live a c d
    have := g2.pre.length_le
    dsimp only at e ⊢
    omega
  | err x =>
    obtain ⟨k, hk, e⟩ := e
    obtain ⟨r4, p4, h4, h5⟩ := LawfulRead.read_ok r1 k
    rw [e] at h4
    injection h4 with h4; injection h4 with e3 e4
    subst e3; subst e4
    cases h5 with
    | err h6 h7 => dsimp only; rw [← q2]; exact h7
  | eof bs =>
    obtain ⟨e, k, hk, e'⟩ := e
    obtain ⟨r4, p4, h4, h5⟩ := LawfulRead.read_ok r1 k
    rw [e'] at h4
    injection h4 with h4; injection h4 with e3 e4
    subst e3; subst e4
    cases h5 with
    | data _ _ _ _ h6 =>
      obtain ⟨h7, h8⟩ := h6 hk rfl
      refine ⟨?_, by rw [← q2]; exact h8⟩
      rw [e, q1, h7]
      simp [ToEnd.new]

/-- Reading a reader in a wrapper to its end. -/
theorem readToEnd_lift {α β : Type} [AsyncRead α] [AsyncRead β] (f : α → β) (hf : ∀ a k, pollRead (f a) k = (pollRead a k).bind fun (a', p) => .ret (f a', p))
    (grow : Nat → Nat → Nat) (fuel : Nat) : ∀ (a : α) (s : ToEnd), readToEnd grow fuel (f a) s = (readToEnd grow fuel a s).bind fun (a', x) => .ret (f a', x) := by
  induction fuel with
  | zero => intro a s; rfl
  | succ fuel ih =>
    intro a s
    simp only [readToEnd]
    split
    · rw [hf]
      cases hr : pollRead a ((s.room grow).len - (s.room grow).got.length) with
      | panic => rfl
      | diverge => rfl
      | ret y =>
        obtain ⟨a1, p⟩ := y
        simp only [Run.bind, Run.ret_bind]
        cases p with
        | pending => exact ih _ _
        | err e => rfl
        | data bs =>
          cases bs with
          | nil => rfl
          | cons b bs => exact ih _ _
    · rfl

/-- Reading through a `BufReader` to the end: what the reader inside was asked. -/
theorem readToEnd_inside {δ : Type} [AsyncRead δ] {grow : Nat → Nat → Nat} (hg : GrowOk grow) {fuel : Nat} {d : δ} {t' : BufRd δ} {cap : Nat} {y : Slurp}
    (h : readToEnd grow fuel (BufRd.new d) (ToEnd.new cap) = .ret (t', y)) :
    match y with
    | .running => True
    | .err e => ∃ ks ps, (∀ k ∈ ks, 0 < k) ∧ polls d ks = .ret (t'.inner, ps ++ [.err e]) ∧ ¬ SawEof ps ∧ ∀ e, .err e ∉ ps
    | .eof bs => ∃ ks ps, (∀ k ∈ ks, 0 < k) ∧ polls d ks = .ret (t'.inner, ps) ∧ SawEof ps ∧ (∀ e, .err e ∉ ps) ∧ received ps = bs := by
  obtain ⟨ks, ps, r1, a, b', c, d', e⟩ := readToEnd_slurped hg fuel h
  obtain ⟨ks', ps', g1, g2, g3, g4, g5⟩ := bufRd_quiet ks b' c d'
  have hpos : ∀ {k'}, 0 < k' → ∀ j ∈ ks' ++ [k'], 0 < j := by
    intro k' h1 j hj
    rcases List.mem_append.1 hj with hj | hj
    · exact g1 j hj
    · rw [List.mem_singleton.1 hj]; exact h1
  cases y with
  | running => trivial
  | err er =>
    obtain ⟨k, hk, e⟩ := e
    rcases bufRd_read e with ⟨_, _, h3, _⟩ | ⟨_, k', q, h1, h2, h3⟩
    · cases h3
    · cases q with
      | pending => cases h3.1
      | data bs => obtain ⟨x, h3, _⟩ := h3; cases h3
      | err er' =>
        obtain ⟨h3, -⟩ := h3
        injection h3 with h3
        subst h3
        exact ⟨ks' ++ [k'], ps', hpos h1, polls_snoc g2 g5 h2, g4, g5⟩
  | eof bs =>
    obtain ⟨e1, k, hk, e2⟩ := e
    rcases bufRd_read e2 with ⟨h1, _, h3, _⟩ | ⟨h0, k', q, h1, h2, h3⟩
    · injection h3 with h3
      have := congrArg List.length h3
      have := List.length_pos_iff.2 h1
      simp only [List.length_nil, List.length_take] at *
      omega
    · cases q with
      | pending => cases h3.1
      | err er => cases h3.1
      | data bs' =>
        obtain ⟨x', h3, h4, h5⟩ := h3
        injection h3 with h3
        have h6 := h5 hk h3.symm
        subst h6
        refine ⟨ks' ++ [k'], ps' ++ [.data []], hpos h1, polls_snoc g2 g5 h2, by unfold SawEof; simp, ?_, ?_⟩
        · intro e he
          simp only [List.mem_append, List.mem_singleton, reduceCtorEq, or_false] at he
          exact g5 e he
        · rw [received_append, e1]
          have g3' : [] ++ received ps' = received ps ++ r1.buf := g3
          rw [h0] at g3'
          simpa [received, ToEnd.new] using g3'

theorem readToEnd_bufDec {grow : Nat → Nat → Nat} (hg : GrowOk grow) (fuel : Nat) (r : ρ) {pool : Pool} (hp : pool.Ok) (cap : Nat) :
    ∃ t' y, readToEnd grow fuel (BufRd.new (ChunkedDecoder.new r pool)) (ToEnd.new cap) = .ret (t', y) :=
  readToEnd_total hg (I := fun t : BufRd (ChunkedDecoder ρ) => Dec.DecInv t.inner)
    (fun t k ht => by
      obtain ⟨t', q, h1, h2⟩ := bufDec_poll t ht k
      refine ⟨t', q, h1, fun hq => ?_, ?_⟩
      · cases q with
        | pending => exact h2.1
        | data bs => exact h2.1
        | err e => cases hq
      · cases q with
        | pending => trivial
        | data bs => exact h2.2.2
        | err e => trivial)
    fuel (r := BufRd.new (ChunkedDecoder.new r pool)) (s := ToEnd.new cap) (Dec.decInv_new r pool hp) (by simp [ToEnd.new])

/-- Reading a chunked body whose framing fits to its end: the payload, and the trailers are in the channel. -/
theorem readToEnd_chunked {grow : Nat → Nat → Nat} (hg : GrowOk grow) (fuel : Nat) {r : ρ} {pool : Pool} (hp : pool.Ok) (cap : Nat)
    {b x p : Bytes} {fs : List (Bytes × Bytes)} (hb : Roomy b p fs) (hn : fs.length ≤ 16) (hs : rem r = b ++ x) (hf : p.length + meas r < fuel) :
    ∃ t' m, readToEnd grow fuel (BufRd.new (ChunkedDecoder.new r pool)) (ToEnd.new cap) = .ret (t', .eof p) ∧ t'.inner.sent = [m] ∧ MapOf m fs := by
  obtain ⟨t', y, h⟩ := readToEnd_bufDec hg fuel r hp cap
  have hin := readToEnd_inside hg h
  cases y with
  | running =>
    obtain ⟨ks, ps, r1, a, b', c, d, e⟩ := readToEnd_slurped hg fuel h
    rcases (chunked_roomy hp a b' hb hn hs).2.2 (by dsimp only at e; omega) with h | ⟨e, h⟩
    · exact absurd h c
    · exact absurd h (d e)
  | err er =>
    obtain ⟨ks, ps, g1, g2, g3, g4⟩ := hin
    have := (C13_roomy_partial hp g1 g2 hb hn hs).1 ⟨er, by simp⟩
    unfold SawEof at *
    simp only [List.mem_append, List.mem_singleton, reduceCtorEq, or_false] at this
    exact absurd this g3
  | eof bs =>
    obtain ⟨ks, ps, g1, g2, g3, g4, rfl⟩ := hin
    obtain ⟨i1, m, i2, i3⟩ := (C13_roomy_partial hp g1 g2 hb hn hs).2.1 g3
    exact ⟨t', m, by rw [h, i1], i2, i3⟩

/-- The sender of the trailers is in the decoder until the trailers are sent. -/
def Held (g : Dec.G) : Prop := g.hasSender = true ∨ (∃ h, g.st = .trailerSending h) ∨ g.sent ≠ []

theorem Held.step {g g' : Dec.G} {x : Bytes} (h : Dec.Trans g x g') (hg : Held g) : Held g' := by
  unfold Held at *
  cases h with
  | grow => exact hg
  | refill => exact hg
  | eof h => rcases hg with h1 | ⟨_, h1⟩ | h1
             · exact .inl h1
             · rw [h1] at h; exact h.elim
             · exact .inr (.inr h1)
  | take h1 => exact .inr (.inl ⟨_, rfl⟩)
  | send h h1 => exact .inr (.inr (by simp))
  | size _ _ _ h | drain _ _ _ _ h | direct _ _ _ _ h | cut _ _ h | chunkEnd _ h | trailer _ _ _ h =>
    rcases hg with h1 | ⟨_, h1⟩ | h1
    · exact .inl h1
    · rw [h1] at h; cases h
    · exact .inr (.inr h1)

theorem Held.steps {g g' : Dec.G} {x : Bytes} (h : Dec.Steps g x g') (hg : Held g) : Held g' := by
  induction h with
  | refl => exact hg
  | tail _ h ih => exact Held.step h ih

/-- What is known when any chunked body has been read to its end. -/
theorem readToEnd_trailers {grow : Nat → Nat → Nat} (hg : GrowOk grow) {fuel : Nat} {r : ρ} {pool : Pool} (hp : pool.Ok) {cap : Nat} {t' : BufRd (ChunkedDecoder ρ)} {bs : Bytes}
    (h : readToEnd grow fuel (BufRd.new (ChunkedDecoder.new r pool)) (ToEnd.new cap) = .ret (t', .eof bs)) :
    (Announces.sent t' = [] ∧ Announces.holds t' = true) ∨
      ∃ b fs m, b <+: rem r ∧ Body b bs fs ∧ fs.length ≤ 16 ∧ Announces.sent t' = [m] ∧ MapOf m fs := by
  obtain ⟨ks, ps, g1, g2, g3, g4, rfl⟩ := readToEnd_inside hg h
  rcases C16_trailers hp g1 g2 with h1 | h1
  · left
    refine ⟨h1, ?_⟩
    obtain ⟨d1, ps1, h2, ho⟩ := Dec.polls_spec ks _ g1 (Dec.decInv_new r pool hp)
    rw [g2] at h2
    injection h2 with h2; injection h2 with e1 e2
    subst e1; subst e2
    cases ho with
    | failed => exact absurd (List.mem_append_right _ (List.mem_singleton.2 rfl)) (g4 _)
    | going i1 i2 i3 i4 i5 i6 =>
      have := Held.steps i1 (.inl rfl)
      rcases this with h3 | ⟨h', h3⟩ | h3
      · show (t'.inner.hasSender || _) = true
        have h3' : t'.inner.hasSender = true := h3
        rw [h3']; rfl
      · exact absurd h3 (i2.rest.2 h')
      · exact absurd h1 h3
  · exact .inr h1

/-! ## The bodies of requests and responses -/

/-- Reading a body of known length to its end. -/
theorem BodyAt.fixed_end {grow : Nat → Nat → Nat} (hg : GrowOk grow) (fuel cap : Nat) {pool : Pool} {s : Bytes} {e : Option IoErr} {m n : Nat} {body : ReqBody ρ}
    (hb : BodyAt pool s e m (some n) body) :
    ∃ t x, readToEnd grow fuel body (ToEnd.new cap) = .ret (.fixed t, x) ∧
      match x with
      | .running => fuel ≤ n + m
      | .err x => s.length < n ∧ e = some x
      | .eof bs => bs = s.take n ∧ (s.length < n → e = none) := by
  generalize hlen : some n = len at hb
  cases hb with
  | chunked => cases hlen
  | fixed a b c =>
    injection hlen with hlen
    subst hlen
    rename_i r
    obtain ⟨t, x, h1, h2⟩ := readToEnd_lawful hg fuel (⟨r, n⟩ : Take (BufRd ρ)) cap
    have hrem : rem (⟨r, n⟩ : Take (BufRd ρ)) = s.take n := by
      show (rem r).take n = _; rw [a]
    have hfin : fin (⟨r, n⟩ : Take (BufRd ρ)) = if n ≤ s.length then none else e := by
      show (if n ≤ (rem r).length then none else fin r) = _; rw [a, b]
    have hmeas : meas (⟨r, n⟩ : Take (BufRd ρ)) = meas r := rfl
    refine ⟨t, x, by rw [readToEnd_lift ReqBody.fixed (fun a k => rfl), h1]; rfl, ?_⟩
    rw [hrem, hfin, hmeas] at h2
    cases x with
    | running =>
      have : (s.take n).length ≤ n := by simp; omega
      dsimp only at h2 ⊢
      omega
    | err er =>
      dsimp only at h2 ⊢
      split at h2
      · cases h2
      · exact ⟨by omega, h2⟩
    | eof bs =>
      dsimp only at h2 ⊢
      refine ⟨h2.1, fun hn => ?_⟩
      rw [if_neg (by omega)] at h2
      exact h2.2

/-- Reading a chunked body to its end. -/
theorem BodyAt.chunked_end {grow : Nat → Nat → Nat} (hg : GrowOk grow) (fuel cap : Nat) {pool : Pool} (hp : pool.Ok) {s : Bytes} {e : Option IoErr} {m : Nat} {body : ReqBody ρ}
    (hb : BodyAt pool s e m none body) :
    ∃ t x, readToEnd grow fuel body (ToEnd.new cap) = .ret (.chunked t, x) ∧
      (∀ bs, x = .eof bs → (Announces.sent t = [] ∧ Announces.holds t = true) ∨
        ∃ b fs mp, b <+: s ∧ Body b bs fs ∧ fs.length ≤ 16 ∧ Announces.sent t = [mp] ∧ MapOf mp fs) ∧
      ∀ b y p fs, Roomy b p fs → fs.length ≤ 16 → s = b ++ y → p.length + m < fuel → x = .eof p ∧ ∃ mp, Announces.sent t = [mp] ∧ MapOf mp fs := by
  generalize hlen : none = len at hb
  cases hb with
  | fixed => cases hlen
  | chunked a b c =>
    rename_i r
    obtain ⟨t, x, h⟩ := readToEnd_bufDec hg fuel r hp cap
    refine ⟨t, x, by rw [readToEnd_lift ReqBody.chunked (fun a k => rfl), h]; rfl, ?_, ?_⟩
    · rintro bs rfl
      rw [← a]
      exact readToEnd_trailers hg hp h
    · intro b y p fs h1 h3 h4 h5
      obtain ⟨t', mp, g1, g2, g3⟩ := readToEnd_chunked hg fuel hp cap h1 h3 (a.trans h4) (by omega)
      rw [h] at g1
      injection g1 with g1; injection g1 with e1 e2
      subst e1; subst e2
      exact ⟨rfl, mp, g2, g3⟩

end

end Tophat
