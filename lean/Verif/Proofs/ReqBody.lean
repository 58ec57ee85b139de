import Verif.Proofs.Accept
import Verif.Proofs.DecoderMain
/-! Reading the body of a request, and what an endpoint reads of it. -/

set_option linter.unusedSectionVars false

namespace Tophat
open Spec

/-! ## Reading from a lawful reader -/

section
variable {ρ : Type} [AsyncRead ρ] [LawfulRead ρ]

/-- What reading repeatedly from a lawful reader gives. -/
structure PollsOk (r : ρ) (ks : List Nat) (r' : ρ) (ps : List RPoll) : Prop where
  pre : received ps <+: rem r
  rest : (∀ e, .err e ∉ ps) → rem r = received ps ++ rem r' ∧ fin r' = fin r ∧ meas r' ≤ meas r
  err : ∀ e, .err e ∈ ps → received ps = rem r ∧ fin r = some e
  eof : (∀ k ∈ ks, 0 < k) → SawEof ps → received ps = rem r ∧ fin r = none
  live : (∀ k ∈ ks, 0 < k) → ¬ SawEof ps → (∀ e, .err e ∉ ps) → ks.length ≤ (received ps).length + (meas r - meas r')

theorem polls_lawful (r : ρ) (ks : List Nat) : ∃ r' ps, polls r ks = .ret (r', ps) ∧ PollsOk r ks r' ps := by
  induction ks generalizing r with
  | nil => exact ⟨r, [], rfl, ⟨by simp [received], by simp [received], by simp, by simp [SawEof], by simp⟩⟩
  | cons k ks ih =>
    obtain ⟨r1, p, hp, ho⟩ := LawfulRead.read_ok r k
    simp only [polls, hp, Run.ret_bind]
    cases ho with
    | pending a b c =>
      obtain ⟨r2, ps, h1, h2⟩ := ih r1
      refine ⟨r2, .pending :: ps, by rw [h1]; rfl, ?_⟩
      have hsaw : SawEof (.pending :: ps) ↔ SawEof ps := by simp [SawEof]
      refine ⟨by simpa [received, a] using h2.pre, ?_, ?_, ?_, ?_⟩
      · intro h
        obtain ⟨g1, g2, g3⟩ := h2.rest (fun e he => h e (List.mem_cons_of_mem _ he))
        exact ⟨by rw [← a, g1]; rfl, by rw [g2, b], by omega⟩
      · intro e he
        have := h2.err e (by simpa using he)
        rw [a, b] at this; exact this
      · intro hk hs
        have := h2.eof (fun k h => hk k (List.mem_cons_of_mem _ h)) (hsaw.1 hs)
        rw [a, b] at this; exact this
      · intro hk hs he
        have hne : ∀ e, .err e ∉ ps := fun e h => he e (List.mem_cons_of_mem _ h)
        have := h2.live (fun k h => hk k (List.mem_cons_of_mem _ h)) (fun h => hs (hsaw.2 h)) hne
        have := (h2.rest hne).2.2
        simp only [received, List.length_cons]
        omega
    | err a b =>
      rename_i e
      refine ⟨r1, [.err e], rfl, ⟨by simp [received], by intro h; exact absurd List.mem_cons_self (h e), ?_, by simp [SawEof], ?_⟩⟩
      · intro e' he; simp at he; subst he; exact ⟨by simp [received, a], b⟩
      · intro _ _ h; exact absurd List.mem_cons_self (h e)
    | data a b c d f =>
      rename_i bs
      obtain ⟨r2, ps, h1, h2⟩ := ih r1
      refine ⟨r2, .data bs :: ps, by rw [h1]; rfl, ?_⟩
      have hsaw : SawEof (.data bs :: ps) ↔ bs = [] ∨ SawEof ps := by
        simp only [SawEof, List.mem_cons, RPoll.data.injEq]
        constructor
        · rintro (h | h)
          · exact .inl h.symm
          · exact .inr h
        · rintro (h | h)
          · exact .inl h.symm
          · exact .inr h
      refine ⟨?_, ?_, ?_, ?_, ?_⟩
      · rw [b]; simp only [received]
        obtain ⟨z, hz⟩ := h2.pre
        exact ⟨z, by rw [← hz]; simp⟩
      · intro h
        obtain ⟨g1, g2, g3⟩ := h2.rest (fun e he => h e (List.mem_cons_of_mem _ he))
        exact ⟨by rw [b, g1]; simp [received], by rw [g2, c], by omega⟩
      · intro e he
        obtain ⟨g1, g2⟩ := h2.err e (by simpa using he)
        exact ⟨by simp [received, g1, b], by rw [← c, g2]⟩
      · intro hk hs
        rcases hsaw.1 hs with rfl | hs
        · have := f (hk k List.mem_cons_self) rfl
          have hp := h2.pre
          rw [this.1] at b
          simp at b
          rw [b] at hp
          have : received ps = [] := List.prefix_nil.1 hp
          simp [received, this, *]
        · have := h2.eof (fun k h => hk k (List.mem_cons_of_mem _ h)) hs
          exact ⟨by simp [received, this.1, b], by rw [← c, this.2]⟩
      · intro hk hs he
        have hne : ∀ e, .err e ∉ ps := fun e h => he e (List.mem_cons_of_mem _ h)
        have hbs : bs ≠ [] := fun h => hs (hsaw.2 (.inl h))
        have := h2.live (fun k h => hk k (List.mem_cons_of_mem _ h)) (fun h => hs (hsaw.2 (.inr h))) hne
        have := List.length_pos_iff.2 hbs
        simp only [received, List.length_cons, List.length_append]
        omega

end

/-! ## Reading through a `BufReader` -/

section
variable {δ : Type} [AsyncRead δ]

theorem polls_cons_data {ρ : Type} [AsyncRead ρ] {r r1 : ρ} {k : Nat} {p : RPoll} (h : pollRead r k = .ret (r1, p)) (hp : ∀ e, p ≠ .err e) (ks : List Nat) :
    polls r (k :: ks) = (do let (r, ps) ← polls r1 ks; .ret (r, p :: ps)) := by
  simp only [polls, h, Run.ret_bind]

/-- A read of the outer reader: from the buffer, or one read of the reader inside. -/
theorem bufRd_read {b b1 : BufRd δ} {k : Nat} {p : RPoll} (h : pollRead b k = .ret (b1, p)) :
    (b.buf ≠ [] ∧ b1.inner = b.inner ∧ p = .data (b.buf.take k) ∧ b1.buf = b.buf.drop k) ∨
    (b.buf = [] ∧ ∃ k' q, 0 < k' ∧ pollRead b.inner k' = .ret (b1.inner, q) ∧
      match q with
      | .data bs => ∃ x, p = .data x ∧ bs = x ++ b1.buf ∧ (0 < k → x = [] → bs = [])
      | .pending => p = .pending ∧ b1.buf = []
      | .err e => p = .err e ∧ b1.buf = []) := by
  have h' : b.read k = .ret (b1, p) := h
  unfold BufRd.read at h'
  by_cases hb : b.buf = []
  · right
    refine ⟨hb, ?_⟩
    by_cases hk : k ≥ bufRdCap
    · rw [if_pos ⟨hb, hk⟩] at h'
      obtain ⟨⟨d, q⟩, h1, h2⟩ := Run.bind_eq_ret.1 h'
      simp only [Run.ret.injEq, Prod.mk.injEq] at h2
      obtain ⟨rfl, rfl⟩ := h2
      refine ⟨k, q, by unfold bufRdCap at hk; omega, h1, ?_⟩
      cases q with
      | pending => exact ⟨rfl, rfl⟩
      | err e => exact ⟨rfl, rfl⟩
      | data bs => exact ⟨bs, rfl, by simp, fun _ h => h⟩
    · rw [if_neg (by simp [hk])] at h'
      obtain ⟨⟨b2, q⟩, h1, h2⟩ := Run.bind_eq_ret.1 h'
      unfold BufRd.fill at h1
      rw [if_pos hb] at h1
      obtain ⟨⟨d, q'⟩, h3, h4⟩ := Run.bind_eq_ret.1 h1
      simp only [Run.ret.injEq] at h2 h4
      refine ⟨bufRdCap, q', by decide, ?_⟩
      cases q' with
      | pending =>
        simp only [BufRd.filled, Prod.mk.injEq] at h4
        obtain ⟨rfl, rfl⟩ := h4
        simp only [BufRd.copyOut, Prod.mk.injEq] at h2
        obtain ⟨rfl, rfl⟩ := h2
        exact ⟨h3, rfl, rfl⟩
      | err e =>
        simp only [BufRd.filled, Prod.mk.injEq] at h4
        obtain ⟨rfl, rfl⟩ := h4
        simp only [BufRd.copyOut, Prod.mk.injEq] at h2
        obtain ⟨rfl, rfl⟩ := h2
        exact ⟨h3, rfl, rfl⟩
      | data bs =>
        simp only [BufRd.filled, Prod.mk.injEq] at h4
        obtain ⟨rfl, rfl⟩ := h4
        simp only [BufRd.copyOut, Prod.mk.injEq] at h2
        obtain ⟨rfl, rfl⟩ := h2
        refine ⟨h3, bs.take k, rfl, by simp [BufRd.drop], ?_⟩
        intro h0 h1
        have := congrArg List.length h1
        simp at this
        rcases this with h | h
        · omega
        · exact h
  · left
    rw [if_neg (by simp [hb])] at h'
    obtain ⟨⟨b2, q⟩, h1, h2⟩ := Run.bind_eq_ret.1 h'
    unfold BufRd.fill at h1
    rw [if_neg hb] at h1
    simp only [Run.ret.injEq, Prod.mk.injEq] at h1 h2
    obtain ⟨rfl, rfl⟩ := h1
    simp only [BufRd.copyOut, Prod.mk.injEq] at h2
    obtain ⟨rfl, rfl⟩ := h2
    exact ⟨hb, rfl, rfl, rfl⟩

/-- Reading repeatedly through a `BufReader` is reading repeatedly, with non-empty buffers, from the reader inside. -/
theorem bufRd_polls {b b' : BufRd δ} {ks : List Nat} {ps : List RPoll} (h : polls b ks = .ret (b', ps)) :
    ∃ ks' ps', (∀ k ∈ ks', 0 < k) ∧ polls b.inner ks' = .ret (b'.inner, ps') ∧
      b.buf ++ received ps' = received ps ++ b'.buf ∧ (∀ e, .err e ∈ ps ↔ .err e ∈ ps') ∧
      ((∃ e, .err e ∈ ps) → b'.buf = []) := by
  induction ks generalizing b ps with
  | nil =>
    simp only [polls, Run.ret.injEq, Prod.mk.injEq] at h
    obtain ⟨rfl, rfl⟩ := h
    exact ⟨[], [], by simp, rfl, by simp [received], by simp, by simp⟩
  | cons k ks ih =>
    have h0 := h
    simp only [polls] at h
    obtain ⟨⟨b1, p⟩, h1, h2⟩ := Run.bind_eq_ret.1 h
    dsimp only at h2
    have tail : (∀ e, p ≠ .err e) → ∃ ps1, polls b1 ks = .ret (b', ps1) ∧ ps = p :: ps1 := by
      intro hp
      rw [polls_cons_data h1 hp] at h0
      obtain ⟨⟨b2, ps1⟩, g1, g2⟩ := Run.bind_eq_ret.1 h0
      simp only [Run.ret.injEq, Prod.mk.injEq] at g2
      obtain ⟨rfl, rfl⟩ := g2
      exact ⟨ps1, g1, rfl⟩
    rcases bufRd_read h1 with ⟨hb, e1, rfl, e2⟩ | ⟨hb, k', q, hk', e1, e2⟩
    · obtain ⟨ps1, g1, rfl⟩ := tail (by simp)
      obtain ⟨ks', ps', i1, i2, i3, i4, i5⟩ := ih g1
      refine ⟨ks', ps', i1, by rw [← e1]; exact i2, ?_, by simpa using i4, by simpa using i5⟩
      simp only [received]
      rw [List.append_assoc, ← i3, e2, ← List.append_assoc, List.take_append_drop]
    · cases q with
      | pending =>
        obtain ⟨rfl, e3⟩ := e2
        obtain ⟨ps1, g1, rfl⟩ := tail (by simp)
        obtain ⟨ks', ps', i1, i2, i3, i4, i5⟩ := ih g1
        refine ⟨k' :: ks', .pending :: ps', ?_, ?_, ?_, by simpa using i4, by simpa using i5⟩
        · intro k hk; rcases List.mem_cons.1 hk with rfl | hk
          · exact hk'
          · exact i1 k hk
        · rw [polls_cons_data e1 (by simp), i2]; rfl
        · rw [e3] at i3; simpa [received, hb] using i3
      | err e =>
        obtain ⟨rfl, e3⟩ := e2
        simp only [Run.ret.injEq, Prod.mk.injEq] at h2
        obtain ⟨rfl, rfl⟩ := h2
        refine ⟨[k'], [.err e], by simpa using hk', ?_, by simp [received, hb, e3], by simp, fun _ => e3⟩
        simp [polls, e1]
      | data bs =>
        obtain ⟨x, rfl, e3, e4⟩ := e2
        obtain ⟨ps1, g1, rfl⟩ := tail (by simp)
        obtain ⟨ks', ps', i1, i2, i3, i4, i5⟩ := ih g1
        refine ⟨k' :: ks', .data bs :: ps', ?_, ?_, ?_, by simpa using i4, by simpa using i5⟩
        · intro k hk; rcases List.mem_cons.1 hk with rfl | hk
          · exact hk'
          · exact i1 k hk
        · rw [polls_cons_data e1 (by simp), i2]; rfl
        · simp only [received, hb, List.nil_append, e3, List.append_assoc]
          rw [i3]

/-- If the end of the stream was reported, it was reported by the reader inside, with the same bytes read before. -/
theorem bufRd_eof {b b' : BufRd δ} {ks : List Nat} {ps : List RPoll} (hk : ∀ k ∈ ks, 0 < k) (h : polls b ks = .ret (b', ps)) (hs : SawEof ps) :
    ∃ ks' d ps1 ps1', (∀ k ∈ ks', 0 < k) ∧ polls b.inner ks' = .ret (d, ps1') ∧ SawEof ps1' ∧ ps1 <+: ps ∧
      b.buf ++ received ps1' = received ps1 := by
  induction ks generalizing b ps with
  | nil =>
    simp only [polls, Run.ret.injEq, Prod.mk.injEq] at h
    obtain ⟨rfl, rfl⟩ := h
    simp [SawEof] at hs
  | cons k ks ih =>
    have h0 := h
    simp only [polls] at h
    obtain ⟨⟨b1, p⟩, h1, h2⟩ := Run.bind_eq_ret.1 h
    dsimp only at h2
    have tail : (∀ e, p ≠ .err e) → ∃ ps1, polls b1 ks = .ret (b', ps1) ∧ ps = p :: ps1 := by
      intro hp
      rw [polls_cons_data h1 hp] at h0
      obtain ⟨⟨b2, ps1⟩, g1, g2⟩ := Run.bind_eq_ret.1 h0
      simp only [Run.ret.injEq, Prod.mk.injEq] at g2
      obtain ⟨rfl, rfl⟩ := g2
      exact ⟨ps1, g1, rfl⟩
    have hkt : ∀ k ∈ ks, 0 < k := fun k h => hk k (List.mem_cons_of_mem _ h)
    rcases bufRd_read h1 with ⟨hb, e1, rfl, e2⟩ | ⟨hb, k', q, hk', e1, e2⟩
    · obtain ⟨ps1, g1, rfl⟩ := tail (by simp)
      have hne : b.buf.take k ≠ [] := by
        intro h
        have := congrArg List.length h
        simp at this
        rcases this with h | h
        · have := hk k List.mem_cons_self; omega
        · exact hb h
      have hs' : SawEof ps1 := by
        simp only [SawEof, List.mem_cons, RPoll.data.injEq] at hs
        rcases hs with hs | hs
        · exact absurd hs.symm hne
        · exact hs
      obtain ⟨ks', d, qs, qs', i1, i2, i3, i4, i5⟩ := ih hkt g1 hs'
      refine ⟨ks', d, .data (b.buf.take k) :: qs, qs', i1, by rw [← e1]; exact i2, i3, ?_, ?_⟩
      · obtain ⟨z, hz⟩ := i4; exact ⟨z, by rw [← hz]; rfl⟩
      · simp only [received]
        rw [← i5, e2, ← List.append_assoc, List.take_append_drop]
    · cases q with
      | pending =>
        obtain ⟨rfl, e3⟩ := e2
        obtain ⟨ps1, g1, rfl⟩ := tail (by simp)
        have hs' : SawEof ps1 := by simpa [SawEof] using hs
        obtain ⟨ks', d, qs, qs', i1, i2, i3, i4, i5⟩ := ih hkt g1 hs'
        refine ⟨k' :: ks', d, .pending :: qs, .pending :: qs', ?_, ?_, by simpa [SawEof] using i3, ?_, ?_⟩
        · intro k hk; rcases List.mem_cons.1 hk with rfl | hk
          · exact hk'
          · exact i1 k hk
        · rw [polls_cons_data e1 (by simp), i2]; rfl
        · obtain ⟨z, hz⟩ := i4; exact ⟨z, by rw [← hz]; rfl⟩
        · rw [e3] at i5; simpa [received, hb] using i5
      | err e =>
        obtain ⟨rfl, e3⟩ := e2
        simp only [Run.ret.injEq, Prod.mk.injEq] at h2
        obtain ⟨rfl, rfl⟩ := h2
        simp [SawEof] at hs
      | data bs =>
        obtain ⟨x, rfl, e3, e4⟩ := e2
        obtain ⟨ps1, g1, rfl⟩ := tail (by simp)
        by_cases hx : x = []
        · have hbs := e4 (hk k List.mem_cons_self) hx
          refine ⟨[k'], b1.inner, [.data x], [.data bs], by simpa using hk', ?_, by simp [SawEof, hbs], ⟨ps1, rfl⟩, by simp [received, hb, hx, hbs]⟩
          rw [polls_cons_data e1 (by simp)]; rfl
        · have hs' : SawEof ps1 := by
            simp only [SawEof, List.mem_cons, RPoll.data.injEq] at hs
            rcases hs with hs | hs
            · exact absurd hs.symm hx
            · exact hs
          obtain ⟨ks', d, qs, qs', i1, i2, i3, i4, i5⟩ := ih hkt g1 hs'
          refine ⟨k' :: ks', d, .data x :: qs, .data bs :: qs', ?_, ?_, ?_, ?_, ?_⟩
          · intro k hk; rcases List.mem_cons.1 hk with rfl | hk
            · exact hk'
            · exact i1 k hk
          · rw [polls_cons_data e1 (by simp), i2]; rfl
          · simp only [SawEof, List.mem_cons]; exact .inr i3
          · obtain ⟨z, hz⟩ := i4; exact ⟨z, by rw [← hz]; rfl⟩
          · simp only [received, hb, List.nil_append, e3, List.append_assoc]
            rw [i5]

end

/-! ## The two kinds of bodies -/

section
variable {ρ : Type} [AsyncRead ρ]

theorem polls_fixed {t : Take (BufRd ρ)} {ks : List Nat} {b' : ReqBody ρ} {ps : List RPoll} (h : polls (ReqBody.fixed t) ks = .ret (b', ps)) :
    ∃ t', b' = .fixed t' ∧ polls t ks = .ret (t', ps) := by
  induction ks generalizing t ps with
  | nil =>
    simp only [polls, Run.ret.injEq, Prod.mk.injEq] at h
    obtain ⟨rfl, rfl⟩ := h
    exact ⟨t, rfl, rfl⟩
  | cons k ks ih =>
    simp only [polls] at h ⊢
    obtain ⟨⟨b1, p⟩, h1, h2⟩ := Run.bind_eq_ret.1 h
    have h1' : (pollRead t k >>= ReqBody.ofFixed) = .ret (b1, p) := h1
    obtain ⟨⟨t1, p'⟩, h3, h4⟩ := Run.bind_eq_ret.1 h1'
    simp only [ReqBody.ofFixed, Run.ret.injEq, Prod.mk.injEq] at h4
    obtain ⟨rfl, rfl⟩ := h4
    rw [h3]
    simp only [Run.ret_bind]
    cases p' with
    | err e =>
      simp only [Run.ret.injEq, Prod.mk.injEq] at h2
      obtain ⟨rfl, rfl⟩ := h2
      exact ⟨t1, rfl, rfl⟩
    | pending =>
      dsimp only at h2
      obtain ⟨⟨b2, ps1⟩, g1, g2⟩ := Run.bind_eq_ret.1 h2
      simp only [Run.ret.injEq, Prod.mk.injEq] at g2
      obtain ⟨rfl, rfl⟩ := g2
      obtain ⟨t', rfl, i2⟩ := ih g1
      exact ⟨t', rfl, by rw [i2]; rfl⟩
    | data bs =>
      dsimp only at h2
      obtain ⟨⟨b2, ps1⟩, g1, g2⟩ := Run.bind_eq_ret.1 h2
      simp only [Run.ret.injEq, Prod.mk.injEq] at g2
      obtain ⟨rfl, rfl⟩ := g2
      obtain ⟨t', rfl, i2⟩ := ih g1
      exact ⟨t', rfl, by rw [i2]; rfl⟩

theorem polls_chunked {t : BufRd (ChunkedDecoder (BufRd ρ))} {ks : List Nat} {b' : ReqBody ρ} {ps : List RPoll} (h : polls (ReqBody.chunked t) ks = .ret (b', ps)) :
    ∃ t', b' = .chunked t' ∧ polls t ks = .ret (t', ps) := by
  induction ks generalizing t ps with
  | nil =>
    simp only [polls, Run.ret.injEq, Prod.mk.injEq] at h
    obtain ⟨rfl, rfl⟩ := h
    exact ⟨t, rfl, rfl⟩
  | cons k ks ih =>
    simp only [polls] at h ⊢
    obtain ⟨⟨b1, p⟩, h1, h2⟩ := Run.bind_eq_ret.1 h
    have h1' : (pollRead t k >>= ReqBody.ofChunked) = .ret (b1, p) := h1
    obtain ⟨⟨t1, p'⟩, h3, h4⟩ := Run.bind_eq_ret.1 h1'
    simp only [ReqBody.ofChunked, Run.ret.injEq, Prod.mk.injEq] at h4
    obtain ⟨rfl, rfl⟩ := h4
    rw [h3]
    simp only [Run.ret_bind]
    cases p' with
    | err e =>
      simp only [Run.ret.injEq, Prod.mk.injEq] at h2
      obtain ⟨rfl, rfl⟩ := h2
      exact ⟨t1, rfl, rfl⟩
    | pending =>
      dsimp only at h2
      obtain ⟨⟨b2, ps1⟩, g1, g2⟩ := Run.bind_eq_ret.1 h2
      simp only [Run.ret.injEq, Prod.mk.injEq] at g2
      obtain ⟨rfl, rfl⟩ := g2
      obtain ⟨t', rfl, i2⟩ := ih g1
      exact ⟨t', rfl, by rw [i2]; rfl⟩
    | data bs =>
      dsimp only at h2
      obtain ⟨⟨b2, ps1⟩, g1, g2⟩ := Run.bind_eq_ret.1 h2
      simp only [Run.ret.injEq, Prod.mk.injEq] at g2
      obtain ⟨rfl, rfl⟩ := g2
      obtain ⟨t', rfl, i2⟩ := ih g1
      exact ⟨t', rfl, by rw [i2]; rfl⟩

end

/-! ## What an endpoint reads -/

theorem bodyReads_append (a b : List Event) : bodyReads (a ++ b) = bodyReads a ++ bodyReads b := by
  induction a with
  | nil => rfl
  | cons x a ih => cases x <;> simp [bodyReads, ih]

section
variable {ρ : Type} [AsyncRead ρ] {σ : Type} [AsyncBufRead σ]

theorem runAfter_polls {b : Bool} (a : After b) (body body' : ReqBody ρ) (ev : List Event) (g : Option Glitch)
    (h : runAfter a body = .ret (body', ev, g)) :
    ∃ b1, polls body ((untilErr (bodyReads ev)).map (·.1)) = .ret (b1, (untilErr (bodyReads ev)).map (·.2)) ∧
      ((∀ k e, (k, .err e) ∉ bodyReads ev) → b1 = body') := by
  induction a generalizing body ev with
  | read k next ih =>
    simp only [runAfter] at h
    obtain ⟨⟨b1, p⟩, h1, h2⟩ := Run.bind_eq_ret.1 h
    dsimp only at h2
    obtain ⟨⟨b2, ev2, g2⟩, h3, h4⟩ := Run.bind_eq_ret.1 h2
    simp only [Run.ret.injEq, Prod.mk.injEq] at h4
    obtain ⟨rfl, rfl, rfl⟩ := h4
    obtain ⟨b3, i1, i2⟩ := ih p b1 ev2 h3
    cases p with
    | err e =>
      refine ⟨b1, by simp [bodyReads, untilErr, polls, h1], ?_⟩
      intro h; exact absurd List.mem_cons_self (h k e)
    | pending =>
      refine ⟨b3, ?_, fun h => i2 (fun k e he => h k e (List.mem_cons_of_mem _ he))⟩
      simp only [bodyReads, untilErr, List.map_cons]
      rw [polls_cons_data h1 (by simp), i1]; rfl
    | data bs =>
      refine ⟨b3, ?_, fun h => i2 (fun k e he => h k e (List.mem_cons_of_mem _ he))⟩
      simp only [bodyReads, untilErr, List.map_cons]
      rw [polls_cons_data h1 (by simp), i1]; rfl
  | ok =>
    simp only [runAfter, Run.ret.injEq, Prod.mk.injEq] at h
    obtain ⟨rfl, rfl, rfl⟩ := h
    exact ⟨body, rfl, fun _ => rfl⟩
  | glitch =>
    simp only [runAfter, Run.ret.injEq, Prod.mk.injEq] at h
    obtain ⟨rfl, rfl, rfl⟩ := h
    exact ⟨body, rfl, fun _ => rfl⟩

theorem runProg_polls {env : Env} {fuel n : Nat} (a : Prog σ) (body body' : ReqBody ρ) (w w' : Writer) (ev : List Event) (g : Option Glitch)
    (h : runProg env fuel n a body w = .ret (body', w', ev, g)) :
    ∃ b1, polls body ((untilErr (bodyReads ev)).map (·.1)) = .ret (b1, (untilErr (bodyReads ev)).map (·.2)) ∧
      ((∀ k e, (k, .err e) ∉ bodyReads ev) → b1 = body') := by
  induction a generalizing body ev with
  | read k next ih =>
    simp only [runProg] at h
    obtain ⟨⟨b1, p⟩, h1, h2⟩ := Run.bind_eq_ret.1 h
    dsimp only at h2
    obtain ⟨⟨b2, w2, ev2, g2⟩, h3, h4⟩ := Run.bind_eq_ret.1 h2
    simp only [Run.ret.injEq, Prod.mk.injEq] at h4
    obtain ⟨rfl, rfl, rfl, rfl⟩ := h4
    obtain ⟨b3, i1, i2⟩ := ih p b1 ev2 h3
    cases p with
    | err e =>
      refine ⟨b1, by simp [bodyReads, untilErr, polls, h1], ?_⟩
      intro h; exact absurd List.mem_cons_self (h k e)
    | pending =>
      refine ⟨b3, ?_, fun h => i2 (fun k e he => h k e (List.mem_cons_of_mem _ he))⟩
      simp only [bodyReads, untilErr, List.map_cons]
      rw [polls_cons_data h1 (by simp), i1]; rfl
    | data bs =>
      refine ⟨b3, ?_, fun h => i2 (fun k e he => h k e (List.mem_cons_of_mem _ he))⟩
      simp only [bodyReads, untilErr, List.map_cons]
      rw [polls_cons_data h1 (by simp), i1]; rfl
  | send resp onOk onErr =>
    simp only [runProg] at h
    obtain ⟨⟨w1, r⟩, h1, h2⟩ := Run.bind_eq_ret.1 h
    dsimp only at h2
    cases r with
    | running => cases h2
    | err e =>
      obtain ⟨⟨b2, ev2, g2⟩, h3, h4⟩ := Run.bind_eq_ret.1 h2
      simp only [Run.ret.injEq, Prod.mk.injEq] at h4
      obtain ⟨rfl, rfl, rfl, rfl⟩ := h4
      have hw : bodyReads (wroteSince w w1 :: ev2) = bodyReads ev2 := rfl
      rw [hw]
      exact runAfter_polls _ _ _ _ _ h3
    | ok amt =>
      obtain ⟨⟨b2, ev2, g2⟩, h3, h4⟩ := Run.bind_eq_ret.1 h2
      simp only [Run.ret.injEq, Prod.mk.injEq] at h4
      obtain ⟨rfl, rfl, rfl, rfl⟩ := h4
      have hw : bodyReads (wroteSince w w1 :: ev2) = bodyReads ev2 := rfl
      rw [hw]
      exact runAfter_polls _ _ _ _ _ h3
  | sendFor steps resp onOk onErr onDrop =>
    simp only [runProg] at h
    obtain ⟨⟨w1, r⟩, h1, h2⟩ := Run.bind_eq_ret.1 h
    dsimp only at h2
    cases r with
    | running =>
      obtain ⟨⟨b2, ev2, g2⟩, h3, h4⟩ := Run.bind_eq_ret.1 h2
      simp only [Run.ret.injEq, Prod.mk.injEq] at h4
      obtain ⟨rfl, rfl, rfl, rfl⟩ := h4
      have hw : bodyReads (wroteSince w w1 :: ev2) = bodyReads ev2 := rfl
      rw [hw]
      exact runAfter_polls _ _ _ _ _ h3
    | err e =>
      obtain ⟨⟨b2, ev2, g2⟩, h3, h4⟩ := Run.bind_eq_ret.1 h2
      simp only [Run.ret.injEq, Prod.mk.injEq] at h4
      obtain ⟨rfl, rfl, rfl, rfl⟩ := h4
      have hw : bodyReads (wroteSince w w1 :: ev2) = bodyReads ev2 := rfl
      rw [hw]
      exact runAfter_polls _ _ _ _ _ h3
    | ok amt =>
      obtain ⟨⟨b2, ev2, g2⟩, h3, h4⟩ := Run.bind_eq_ret.1 h2
      simp only [Run.ret.injEq, Prod.mk.injEq] at h4
      obtain ⟨rfl, rfl, rfl, rfl⟩ := h4
      have hw : bodyReads (wroteSince w w1 :: ev2) = bodyReads ev2 := rfl
      rw [hw]
      exact runAfter_polls _ _ _ _ _ h3
  | glitch =>
    simp only [runProg, Run.ret.injEq, Prod.mk.injEq] at h
    obtain ⟨rfl, rfl, rfl, rfl⟩ := h
    exact ⟨body, rfl, fun _ => rfl⟩

theorem answerGlitch_reads {env : Env} {opts : ServerOpts} {fuel n : Nat} {g : Option Glitch} {w w' : Writer} {ev : List Event}
    (h : answerGlitch env opts fuel n g w = .ret (w', ev)) : bodyReads ev = [] := by
  unfold answerGlitch at h
  cases g with
  | none => simp at h; rw [h.2]; rfl
  | some g =>
    dsimp only at h
    obtain ⟨⟨w1, r⟩, h1, h2⟩ := Run.bind_eq_ret.1 h
    simp at h2
    rw [← h2.2]; rfl

end

end Tophat
