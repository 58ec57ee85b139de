import Verif.Model.Duplex
import Verif.Proofs.Copy
import Verif.Proofs.ServerDecode
/-! Single steps of the tasks of `Duplex`. -/

set_option linter.unusedSectionVars false

namespace Tophat
open Spec

/-! ## Copying -/

section
variable {ε : Type} {poll : ε → Bytes → Run (ε × Bytes × EPoll)} {I : ε → Bytes → Prop}
  {work : ε → Bytes → Nat} {F : Bytes → Prop} {E : Bytes → IoErr → Prop}

/-- A state of `io::copy`, between two iterations, in which `out` has been taken from the encoder and `sent` has been written. -/
structure CopyAt (I : ε → Bytes → Prop) (s : CopyState ε) (out sent : Bytes) : Prop where
  inv : I s.enc out
  buf : s.buf.length = copyBufLen
  pos : s.pos ≤ s.cap
  cap : s.cap ≤ copyBufLen
  idle : s.writer = .idle
  rest : out = sent ++ (s.buf.take s.cap).drop s.pos

/-- How much is left to do. -/
def copyRank (work : ε → Bytes → Nat) (s : CopyState ε) (out : Bytes) : Nat := 8193 * work s.enc out + (s.cap - s.pos)

theorem CopyAt.init {e : ε} (h : I e []) : CopyAt I (CopyState.init e .idle) [] [] where
  inv := h
  buf := List.length_replicate
  pos := Nat.le_refl _
  cap := Nat.zero_le _
  idle := rfl
  rest := by simp [CopyState.init]

theorem CopyAt.left {s : CopyState ε} {out sent : Bytes} (h : CopyAt I s out sent) : out.length = sent.length + (s.cap - s.pos) := by
  have h1 := congrArg List.length h.rest
  have := h.buf
  have := h.cap
  simp only [List.length_append, List.length_drop, List.length_take] at h1
  omega

theorem copyStep_spec (hE : EncSpec poll I work F E False) {s : CopyState ε} {out sent : Bytes} (h : CopyAt I s out sent) (room : Nat) :
    ∃ s' r bs, copyStep poll room s = .ret (s', r, bs) ∧ bs.length ≤ room ∧
      match r with
      | .running => (room = 0 ∧ s.pos < s.cap ∧ s' = s ∧ bs = []) ∨
          ∃ out', CopyAt I s' out' (sent ++ bs) ∧ 2 * copyRank work s' out' + bs.length < 2 * copyRank work s out
      | .ok _ => F sent ∧ bs = []
      | .err e => E sent e := by
  unfold copyStep
  have hbl : copyBufLen = 8192 := rfl
  by_cases hpos : s.pos ≥ s.cap
  · have hpeq : s.pos = s.cap := by have := h.pos; omega
    have hout : out = sent := by rw [h.rest, hpeq]; simp
    subst hout
    simp only [hpos, if_true]
    unfold copyGo
    rw [if_pos hpos]
    rcases hE.step s.enc out s.buf h.inv h.buf with ⟨-, hU⟩ | ⟨e', buf', r, hp, hb', hr⟩
    · exact hU.elim
    · dsimp only
      rw [hp]
      simp only [Run.ret_bind]
      cases r with
      | pending =>
        refine ⟨_, _, _, rfl, Nat.zero_le _, .inr ⟨out, ⟨hr.1, hb', h.pos, h.cap, rfl, ?_⟩, ?_⟩⟩
        · simp [hpeq]
        · have := hr.2
          simp only [copyRank, List.length_nil]
          omega
      | err x => exact ⟨_, _, _, rfl, Nat.zero_le _, hr⟩
      | ready n =>
        simp only [] at hr
        obtain ⟨r1, r2, r3, r4⟩ := hr
        by_cases hn : n = 0
        · subst hn
          simp only [if_true]
          exact ⟨_, _, _, rfl, Nat.zero_le _, (r3 rfl).1, rfl⟩
        · simp only [if_neg hn]
          refine ⟨_, _, _, rfl, Nat.zero_le _, .inr ⟨_, ⟨r2, hb', Nat.zero_le _, r1, rfl, by simp⟩, ?_⟩⟩
          have := r4 hn
          simp only [copyRank, List.length_nil]
          omega
  · have hlt : s.pos < s.cap := by omega
    simp only [hpos, if_false]
    unfold copyGo
    rw [if_neg hpos]
    dsimp only
    have hsl : slice s.buf s.pos s.cap = .ret ((s.buf.take s.cap).drop s.pos) := slice_ok ⟨h.pos, by rw [h.buf]; exact h.cap⟩
    rw [hsl]
    simp only [Run.ret_bind]
    have hlen : ((s.buf.take s.cap).drop s.pos).length = s.cap - s.pos := by
      have := h.buf; have := h.cap
      simp only [List.length_drop, List.length_take]; omega
    by_cases hroom : room = 0
    · subst hroom
      simp only [if_true, Writer.write]
      refine ⟨_, _, _, rfl, Nat.zero_le _, .inl ⟨by trivial, hlt, ?_, rfl⟩⟩
      have := h.idle
      cases s
      simp only [CopyState.mk.injEq, true_and, and_true] at this ⊢
      exact this.symm
    · simp only [if_neg hroom, Writer.write]
      rw [if_neg (by rw [hlen]; omega)]
      refine ⟨_, _, _, rfl, by simp only [List.nil_append, List.length_take]; omega, .inr ⟨out, ⟨h.inv, h.buf, by dsimp only; omega, h.cap, rfl, ?_⟩, ?_⟩⟩
      · dsimp only
        rw [hlen, show min (s.pos + min room (s.cap - s.pos)) s.cap = s.pos + min room (s.cap - s.pos) by omega, ← List.drop_drop, List.nil_append]
        have hrest := h.rest
        generalize (s.buf.take s.cap).drop s.pos = l at hrest hlen ⊢
        rw [hrest, List.append_assoc]
        congr 1
        rcases Nat.le_total room (s.cap - s.pos) with hm | hm
        · rw [Nat.min_eq_left hm, List.take_append_drop]
        · rw [Nat.min_eq_right hm, List.take_of_length_le (by omega), List.drop_of_length_le (by omega), List.append_nil]
      · dsimp only [copyRank]
        simp only [List.nil_append, List.length_take, hlen]
        omega

end

/-! ## Reading the head -/

theorem headGo_pipe (fuel : Nat) : ∀ (p : Pipe) (b buf : Bytes) (nread : Nat), NoHead buf → b.length + p.inside.length + 1 ≤ fuel → b.length ≤ 8192 →
    (∃ nread', headGo fuel (⟨p, b⟩ : BufRd Pipe) buf nread = .ret (.pending ⟨⟨[]⟩, []⟩ (buf ++ (b ++ p.inside)) nread') ∧ NoHead (buf ++ (b ++ p.inside)) ∧
      (b ++ p.inside = [] → nread' = nread)) ∨
    ∃ p' b' h, headGo fuel (⟨p, b⟩ : BufRd Pipe) buf nread = .ret (.head ⟨p', b'⟩ h) ∧ FirstHead (buf ++ (b ++ p.inside)) h ∧
      buf ++ (b ++ p.inside) = h ++ (b' ++ p'.inside) ∧ b'.length ≤ 8192 := by
  induction fuel with
  | zero => intro p b buf nread _ hf; omega
  | succ fuel ih =>
    intro p b buf nread hb hf hb8
    -- with bytes in the buffer
    have key : ∀ (p : Pipe) (b : Bytes), b ≠ [] → b.length + p.inside.length + 1 ≤ fuel + 1 → b.length ≤ 8192 →
        let x := (match lineOf b with
          | some line => if endsHead (buf ++ line) then (.ret (.head (consume (⟨p, b⟩ : BufRd Pipe) line.length) (buf ++ line)) : Run (HeadPoll Pipe)) else headGo fuel (consume (⟨p, b⟩ : BufRd Pipe) line.length) (buf ++ line) 0
          | none => headGo fuel (consume (⟨p, b⟩ : BufRd Pipe) b.length) (buf ++ b) (nread + b.length))
        (∃ nread', x = .ret (.pending ⟨⟨[]⟩, []⟩ (buf ++ (b ++ p.inside)) nread') ∧ NoHead (buf ++ (b ++ p.inside)) ∧ (b ++ p.inside = [] → nread' = nread)) ∨
        ∃ p' b' h, x = .ret (.head ⟨p', b'⟩ h) ∧ FirstHead (buf ++ (b ++ p.inside)) h ∧ buf ++ (b ++ p.inside) = h ++ (b' ++ p'.inside) ∧ b'.length ≤ 8192 := by
      intro p b hbne hf hb8
      have hblen := List.length_pos_iff.2 hbne
      dsimp only
      cases hl : lineOf b with
      | some line =>
        dsimp only
        obtain ⟨q, rest, h1, h2, h3⟩ := lineOf_some hl
        have hcons : consume (⟨p, b⟩ : BufRd Pipe) line.length = ⟨p, rest⟩ := by
          show (⟨p, b.drop line.length⟩ : BufRd Pipe) = _
          rw [h1, List.drop_left]
        have hlen : 1 ≤ line.length := by rw [h2]; simp
        have hbl : b.length = line.length + rest.length := by rw [h1, List.length_append]
        rw [hcons]
        split
        · rename_i hend
          rw [endsHead_iff] at hend
          refine .inr ⟨p, rest, _, rfl, ⟨⟨rest ++ p.inside, by rw [h1]; simp⟩, hend, ?_⟩, by rw [h1]; simp, by omega⟩
          intro p' hp he
          rw [h2] at hp ⊢
          exact prefix_line h3 hb hp he
        · rename_i hend
          rw [endsHead_iff] at hend
          have hnb : NoHead (buf ++ line) := by rw [h2] at hend ⊢; exact NoHead.line h3 hb hend
          have heq : buf ++ line ++ (rest ++ p.inside) = buf ++ (b ++ p.inside) := by rw [h1]; simp
          rcases ih p rest (buf ++ line) 0 hnb (by omega) (by omega) with ⟨nr, k1, k2, -⟩ | ⟨p', b', h, k1, k2, k3, k4⟩
          · rw [heq] at k1 k2
            exact .inl ⟨nr, k1, k2, fun h => absurd (List.append_eq_nil_iff.1 h).1 hbne⟩
          · rw [heq] at k2 k3
            exact .inr ⟨p', b', h, k1, k2, k3, k4⟩
      | none =>
        dsimp only
        have hno := lineOf_none hl
        have hcons : consume (⟨p, b⟩ : BufRd Pipe) b.length = ⟨p, []⟩ := by
          show (⟨p, b.drop b.length⟩ : BufRd Pipe) = _
          rw [List.drop_length]
        rw [hcons]
        have heq : buf ++ b ++ ([] ++ p.inside) = buf ++ (b ++ p.inside) := by simp
        rcases ih p [] (buf ++ b) (nread + b.length) (hb.append hno) (by simp only [List.length_nil]; omega) (by simp) with ⟨nr, k1, k2, -⟩ | ⟨p', b', h, k1, k2, k3, k4⟩
        · rw [heq] at k1 k2
          exact .inl ⟨nr, k1, k2, fun h => absurd (List.append_eq_nil_iff.1 h).1 hbne⟩
        · rw [heq] at k2 k3
          exact .inr ⟨p', b', h, k1, k2, k3, k4⟩
    simp only [headGo]
    by_cases hbe : b = []
    · subst hbe
      by_cases hpe : p.inside = []
      · obtain ⟨ins⟩ := p
        simp only at hpe
        subst hpe
        exact .inl ⟨nread, by simp [pollFill, BufRd.fill, pollRead, BufRd.filled], by simpa using hb, fun _ => rfl⟩
      · have hfill : pollFill (⟨p, []⟩ : BufRd Pipe) = .ret (⟨⟨p.inside.drop 8192⟩, p.inside.take 8192⟩, .data (p.inside.take 8192)) := by
          simp [pollFill, BufRd.fill, pollRead, BufRd.filled, hpe, bufRdCap]
        rw [hfill]
        simp only [Run.ret_bind]
        have hne : p.inside.take 8192 ≠ [] := by
          intro h0
          have := congrArg List.length h0
          have := List.length_pos_iff.2 hpe
          simp only [List.length_take, List.length_nil] at *
          omega
        have hk := key ⟨p.inside.drop 8192⟩ (p.inside.take 8192) hne (by simp only [List.length_take, List.length_drop, List.length_nil] at hf ⊢; omega) (by simp only [List.length_take]; omega)
        dsimp only at hk
        rw [List.take_append_drop] at hk
        simp only [if_neg hne, List.nil_append]
        exact hk
    · have hfill : pollFill (⟨p, b⟩ : BufRd Pipe) = .ret (⟨p, b⟩, .data b) := by
        simp [pollFill, BufRd.fill, hbe]
      rw [hfill]
      simp only [Run.ret_bind]
      have hk := key p b hbe hf hb8
      dsimp only at hk
      simp only [if_neg hbe]
      exact hk

end Tophat
