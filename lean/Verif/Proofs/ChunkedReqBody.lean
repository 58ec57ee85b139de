import Verif.Proofs.Served
import Verif.Props.ChunkedDecoder
/-! Reading a chunked request body through the `BufReader` around its decoder. -/

set_option linter.unusedSectionVars false

namespace Tophat
open Spec Dec

section
variable {ρ : Type} [AsyncRead ρ] [LawfulRead ρ]

/-- One read, of any size. -/
theorem bufDec_poll (b : BufRd (ChunkedDecoder ρ)) (hd : Dec.DecInv b.inner) (k : Nat) :
    ∃ b' p, pollRead b k = .ret (b', p) ∧
      match p with
      | .pending => Dec.DecInv b'.inner ∧ meas b'.inner.inner < meas b.inner.inner
      | .data bs => Dec.DecInv b'.inner ∧ meas b'.inner.inner ≤ meas b.inner.inner ∧ bs.length ≤ k
      | .err _ => True := by
  show ∃ b' p, b.read k = .ret (b', p) ∧ _
  unfold BufRd.read
  by_cases hb : b.buf = []
  · by_cases hk : k ≥ bufRdCap
    · rw [if_pos ⟨hb, hk⟩]
      obtain ⟨d', p, h1, h2⟩ := Dec.poll_spec b.inner k (by unfold bufRdCap at hk; omega) hd
      rw [h1]
      refine ⟨_, _, rfl, ?_⟩
      cases h2 with
      | pending a b c => exact ⟨b, c⟩
      | data a b c d => exact ⟨b, c, d⟩
      | err => trivial
    · rw [if_neg (by simp [hk])]
      unfold BufRd.fill
      rw [if_pos hb]
      obtain ⟨d', p, h1, h2⟩ := Dec.poll_spec b.inner bufRdCap (by decide) hd
      rw [h1]
      refine ⟨_, _, rfl, ?_⟩
      cases h2 with
      | pending a b c => exact ⟨b, c⟩
      | data a b c d => exact ⟨b, c, by simp; omega⟩
      | err => trivial
  · rw [if_neg (by simp [hb])]
    unfold BufRd.fill
    rw [if_neg hb]
    exact ⟨_, _, rfl, hd, Nat.le_refl _, by simp; omega⟩

theorem bufDec_polls (ks : List Nat) : ∀ (b : BufRd (ChunkedDecoder ρ)), Dec.DecInv b.inner →
    ∃ b' ps, polls b ks = .ret (b', ps) ∧
      ((∀ k ∈ ks, 0 < k) → ¬ SawEof ps → (∀ e, .err e ∉ ps) → ks.length + meas b'.inner.inner ≤ (received ps).length + meas b.inner.inner) := by
  induction ks with
  | nil => intro b _; exact ⟨b, [], rfl, by simp [received]⟩
  | cons k ks ih =>
    intro b hd
    obtain ⟨b1, p, h1, h2⟩ := bufDec_poll b hd k
    simp only [polls, h1, Run.ret_bind]
    cases p with
    | err e => exact ⟨_, _, rfl, fun _ _ h => absurd List.mem_cons_self (h e)⟩
    | pending =>
      obtain ⟨b2, ps, g1, g2⟩ := ih b1 h2.1
      rw [g1]
      refine ⟨_, _, rfl, ?_⟩
      intro hk hs he
      have := g2 (fun k h => hk k (List.mem_cons_of_mem _ h)) (by simpa [SawEof] using hs) (by simpa using he)
      simp only [received, List.length_cons]
      have := h2.2
      omega
    | data bs =>
      obtain ⟨b2, ps, g1, g2⟩ := ih b1 h2.1
      rw [g1]
      refine ⟨_, _, rfl, ?_⟩
      intro hk hs he
      have hbs : bs ≠ [] := fun h => hs (by simp [SawEof, h])
      have := g2 (fun k h => hk k (List.mem_cons_of_mem _ h)) (fun h => hs (by simp only [SawEof, List.mem_cons]; exact .inr h)) (by simpa using he)
      have := List.length_pos_iff.2 hbs
      have := h2.2.1
      simp only [received, List.length_cons, List.length_append]
      omega

theorem received_prefix {a b : List RPoll} (h : a <+: b) : received a <+: received b := by
  obtain ⟨z, rfl⟩ := h
  rw [received_append]; exact List.prefix_append _ _

/-- **C12** behind a `BufReader`. -/
theorem chunked_prefix {r : ρ} {pool : Pool} (hp : pool.Ok) {ks : List Nat} {b' : BufRd (ChunkedDecoder ρ)} {ps : List RPoll}
    (h : polls (BufRd.new (ChunkedDecoder.new r pool)) ks = .ret (b', ps)) : ∃ x, Carries (rem r) x ∧ received ps <+: x := by
  obtain ⟨ks', ps', h1, h2, h3, _⟩ := bufRd_polls h
  refine ⟨_, C12_prefix hp h1 h2, ?_⟩
  have : received ps' = received ps ++ b'.buf := h3
  rw [this]; exact List.prefix_append _ _

/-- A body whose framing fits, behind a `BufReader`. -/
theorem chunked_roomy {r : ρ} {pool : Pool} (hp : pool.Ok) {ks : List Nat} (hk : ∀ k ∈ ks, 0 < k) {b' : BufRd (ChunkedDecoder ρ)} {ps : List RPoll}
    (h : polls (BufRd.new (ChunkedDecoder.new r pool)) ks = .ret (b', ps))
    {b x p : Bytes} {fs : List (Bytes × Bytes)} (hb : Roomy b p fs) (hn : fs.length ≤ 16) (hs : rem r = b ++ x) :
    received ps <+: p ∧ (SawEof ps ∨ (∃ e, .err e ∈ ps) → received ps = p) ∧
      (p.length + meas r < ks.length → SawEof ps ∨ ∃ e, .err e ∈ ps) := by
  obtain ⟨ks', ps', h1, h2, h3, h4, h5⟩ := bufRd_polls h
  have h3' : received ps' = received ps ++ b'.buf := h3
  have hpre : received ps <+: p := by
    have := C12_of_message hp h1 h2 hb.body hs
    rw [h3'] at this
    exact (List.prefix_append _ _).trans this
  refine ⟨hpre, ?_, ?_⟩
  · rintro (he | ⟨e, he⟩)
    · obtain ⟨ks1, d, ps1, ps1', g1, g2, g3, g4, g5⟩ := bufRd_eof hk h he
      have := (C13_roomy_partial hp g1 g2 hb hn hs).2.1 g3
      have g5' : received ps1' = received ps1 := g5
      rw [this.1] at g5'
      have hle := received_prefix g4
      rw [← g5'] at hle
      exact hpre.eq_of_length (Nat.le_antisymm hpre.length_le hle.length_le)
    · have g := C13_roomy_partial hp h1 h2 hb hn hs
      have := (g.2.1 (g.1 ⟨e, (h4 e).1 he⟩)).1
      rw [h3', h5 ⟨e, he⟩, List.append_nil] at this
      exact this
  · intro hl
    obtain ⟨b2, ps2, g1, g2⟩ := bufDec_polls ks (BufRd.new (ChunkedDecoder.new r pool)) (Dec.decInv_new r pool hp)
    rw [h] at g1
    injection g1 with g1; injection g1 with e1 e2
    subst e1 e2
    by_cases hc : SawEof ps ∨ ∃ e, .err e ∈ ps
    · exact hc
    · exfalso
      have h1 : ¬ SawEof ps := fun h => hc (.inl h)
      have h2 : ∀ e, .err e ∉ ps := fun e h => hc (.inr ⟨e, h⟩)
      have := g2 hk h1 h2
      have := hpre.length_le
      have hm : meas (BufRd.new (ChunkedDecoder.new r pool)).inner.inner = meas r := rfl
      omega

end

section
variable {ρ : Type} [AsyncRead ρ] [LawfulRead ρ]

/-- Reading a body of known length. -/
theorem BodyAt.fixed_reads {pool : Pool} {s : Bytes} {e : Option IoErr} {m n : Nat} {body b1 : ReqBody ρ} (hb : BodyAt pool s e m (some n) body)
    {ks : List Nat} {ps : List RPoll} (h : polls body ks = .ret (b1, ps)) :
    received ps <+: s.take n ∧
    (∀ x, .err x ∈ ps → received ps = s ∧ s.length < n ∧ e = some x) ∧
    ((∀ k ∈ ks, 0 < k) → SawEof ps → received ps = s.take n ∧ (s.length < n → e = none)) ∧
    ((∀ k ∈ ks, 0 < k) → (s.take n).length + m < ks.length → SawEof ps ∨ ∃ x, .err x ∈ ps) := by
  generalize hlen : some n = len at hb
  cases hb with
  | chunked => cases hlen
  | fixed a b c =>
    injection hlen with hlen
    subst hlen
    rename_i r
    obtain ⟨t', rfl, h1⟩ := polls_fixed h
    obtain ⟨t2, ps2, h2, ho⟩ := polls_lawful (⟨r, n⟩ : Take (BufRd ρ)) ks
    rw [h1] at h2
    injection h2 with h2; injection h2 with e1 e2
    subst e1 e2
    have hrem : rem (⟨r, n⟩ : Take (BufRd ρ)) = s.take n := by
      show (rem r).take n = _; rw [a]
    have hfin : fin (⟨r, n⟩ : Take (BufRd ρ)) = if n ≤ s.length then none else e := by
      show (if n ≤ (rem r).length then none else fin r) = _; rw [a, b]
    have hmeas : meas (⟨r, n⟩ : Take (BufRd ρ)) = meas r := rfl
    refine ⟨hrem ▸ ho.pre, ?_, ?_, ?_⟩
    · intro x hx
      obtain ⟨g1, g2⟩ := ho.err x hx
      rw [hfin] at g2
      by_cases hn : n ≤ s.length
      · rw [if_pos hn] at g2; cases g2
      · rw [if_neg hn] at g2
        rw [hrem, List.take_of_length_le (by omega)] at g1
        exact ⟨g1, by omega, g2⟩
    · intro hk hs
      obtain ⟨g1, g2⟩ := ho.eof hk hs
      rw [hfin] at g2
      refine ⟨hrem ▸ g1, ?_⟩
      intro hn
      rw [if_neg (by omega)] at g2
      exact g2
    · intro hk hl
      by_cases hc : SawEof ps ∨ ∃ e, .err e ∈ ps
      · exact hc
      · exfalso
        have := ho.live hk (fun h => hc (.inl h)) (fun e h => hc (.inr ⟨e, h⟩))
        have := ho.pre.length_le
        rw [hrem] at this
        omega

/-- Reading a chunked body. -/
theorem BodyAt.chunked_polls {pool : Pool} {s : Bytes} {e : Option IoErr} {m : Nat} {body b1 : ReqBody ρ} (hb : BodyAt pool s e m none body)
    {ks : List Nat} {ps : List RPoll} (h : polls body ks = .ret (b1, ps)) :
    ∃ (r : BufRd ρ) (t' : BufRd (ChunkedDecoder (BufRd ρ))), rem r = s ∧ fin r = e ∧ meas r ≤ m ∧
      polls (BufRd.new (ChunkedDecoder.new r pool)) ks = .ret (t', ps) := by
  generalize hlen : none = len at hb
  cases hb with
  | fixed => cases hlen
  | chunked a b c =>
    obtain ⟨t', rfl, h1⟩ := polls_chunked h
    exact ⟨_, t', a, b, c, h1⟩

end

end Tophat
