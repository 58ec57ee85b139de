import Verif.Proofs.Later
/-! A body of declared length, of which a part has arrived, read while the peer is silent. -/

set_option linter.unusedSectionVars false

namespace Tophat
open Spec

theorem afterSilence_ending (n : Nat) (x : Script) : Script.ending (afterSilence n x) = Script.ending x := by
  unfold afterSilence
  induction n with
  | zero => rfl
  | succ n ih => rw [List.replicate_succ]; exact ih

section
variable {ρ ρ' : Type} [AsyncRead ρ] [LawfulRead ρ] [AsyncRead ρ'] {f : ρ → ρ'}

/-- A peer that falls silent: what has arrived of the body is read. -/
theorem BodyAt.unsilenced_fixed (hf : Thru f) {pool : Pool} {s : Bytes} {m n : Nat} {body : ReqBody ρ} (hb : BodyAt pool s none m (some n) body)
    {ks : List Nat} (hk : ∀ k ∈ ks, 0 < k) (hl : (s.take n).length + m < ks.length) {b1 : ReqBody ρ} {ps : List RPoll} (h : polls body ks = .ret (b1, ps))
    {b2 : ReqBody ρ'} {ps2 : List RPoll} (h2 : polls (body.on f) ks = .ret (b2, ps2)) : s.take n <+: received ps2 := by
  obtain ⟨-, c1, c2, c3⟩ := hb.fixed_reads h
  have he : SawEof ps := by
    rcases c3 hk hl with he | ⟨x, hx⟩
    · exact he
    · cases (c1 x hx).2.2
  obtain ⟨ks1, ks2, d1, d2, qs, k, rfl, g2, g3, g4⟩ := polls_before_end ks h he
  have hq : received qs = s.take n := by
    obtain ⟨-, -, i2, -⟩ := hb.fixed_reads g4
    have := (i2 (fun x hx => hk x (by simp at hx ⊢; rcases hx with hx | hx <;> simp [hx])) (by simp [SawEof])).1
    simpa [received_append, received] using this
  have := polls_on (alike_noEnd hf) ks1 g2 (hb.noEnd fun x hx => g3 _ (List.of_mem_zip hx).2)
  have := polls_append_prefix ks1 this h2
  rw [← hq]
  exact received_prefix this

/-- While the silence lasts, a body that has not arrived completely has no end and no error. -/
theorem BodyAt.held {pool : Pool} {s : Bytes} {m n N : Nat} {body : ReqBody ρ} (hb : BodyAt pool s none m (some n) body) (hn : s.length < n)
    {ks : List Nat} (hk : ∀ k ∈ ks, 0 < k) (hl : ks.length ≤ N) {b2 : ReqBody (Stall ρ)} {ps : List RPoll} (h : polls (body.on fun r => Stall.talk r N) ks = .ret (b2, ps)) :
    received ps <+: s ∧ ¬ SawEof ps ∧ ∀ e, .err e ∉ ps := by
  generalize hlen : some n = len at hb
  cases hb with
  | chunked => cases hlen
  | @fixed r _ a1 a2 a3 =>
    injection hlen with hlen
    subst hlen
    have key : ∀ E : Bytes, ∃ b3, polls ((ReqBody.fixed ⟨r, n⟩).on fun r => Later.talk r (afterSilence N [.data E])) ks = .ret (b3, ps) ∧
        ∃ m', BodyAt pool (s ++ E) none m' (some n) ((ReqBody.fixed ⟨r, n⟩).on fun r => Later.talk r (afterSilence N [.data E])) := by
      intro E
      obtain ⟨b3, h3⟩ := (stall_lock (ρ := ρ) [.data E]).body.polls _ (fixed_later r n N [.data E]) hl h
      have a1' : r.buf ++ rem r.inner = s := a1
      have a2' : fin r.inner = none := a2
      have hrem : rem (r.on fun r => Later.talk r (afterSilence N [.data E])) = s ++ E := by
        show r.buf ++ Later.remL (Later.talk r.inner (afterSilence N [.data E])) = _
        simp only [Later.remL, a2', if_true, afterSilence_bytes, Script.bytes, List.append_nil]
        rw [← List.append_assoc, a1']
      have hfin : fin (r.on fun r => Later.talk r (afterSilence N [.data E])) = none := by
        show Later.finL (Later.talk r.inner (afterSilence N [.data E])) = _
        simp only [Later.finL, a2', if_true]
        rw [afterSilence_ending]; rfl
      exact ⟨b3, h3, _, .fixed (r := r.on fun r => Later.talk r (afterSilence N [.data E])) hrem hfin (Nat.le_refl _)⟩
    obtain ⟨b3, h3, m3, q3⟩ := key []
    obtain ⟨b4, h4, m4, q4⟩ := key [97]
    obtain ⟨c1, c2, c3, -⟩ := q3.fixed_reads h3
    obtain ⟨-, -, d3, -⟩ := q4.fixed_reads h4
    refine ⟨?_, fun he => ?_, fun e he => ?_⟩
    · rw [List.append_nil, List.take_of_length_le (by omega)] at c1
      exact c1
    · have e1 := (c3 hk he).1
      have e2 := (d3 hk he).1
      rw [e1, List.append_nil, List.take_of_length_le (by omega), List.take_of_length_le (by simp; omega)] at e2
      simp at e2
    · cases (c2 e he).2.2

end

end Tophat
