import Verif.Model.Client
import Verif.Proofs.Copy
/-! The client's encoder, as seen by `io::copy`. -/

set_option linter.unusedSectionVars false

namespace Tophat
namespace ClientEncoder

variable {σ : Type} [AsyncBufRead σ] [LawfulBufRead σ]

/-- State of the encoder of the head `H` and the body `b` that has handed out `out`. -/
def Inv (H : Bytes) (b : σ) (e : ClientEncoder σ) (out : Bytes) : Prop :=
  e.headers = H ∧ e.cursor ≤ H.length ∧ fin e.body = fin b ∧
  (e.headersDone = false → e.cursor < H.length ∧ out = H.take e.cursor ∧ rem e.body = rem b ∧ e.bodyDone = false) ∧
  (e.headersDone = true → ∃ p, out = H ++ p ∧ rem b = p ++ rem e.body ∧ (e.bodyDone = true → rem e.body = [] ∧ fin b = none))

theorem Inv.out {H : Bytes} {b : σ} {e : ClientEncoder σ} {out : Bytes} (h : Inv H b e out) : out <+: H ++ rem b := by
  obtain ⟨-, -, -, h1, h2⟩ := h
  cases hd : e.headersDone with
  | false => rw [(h1 hd).2.1]; exact (List.take_prefix _ _).trans (List.prefix_append _ _)
  | true =>
    obtain ⟨p, rfl, h3, -⟩ := h2 hd
    rw [h3, ← List.append_assoc]; exact List.prefix_append _ _

/-- The part that copies the headers. -/
theorem pollHeaders_spec {H : Bytes} {b : σ} {e : ClientEncoder σ} {out buf : Bytes} (h : Inv H b e out) (hbl : 0 < buf.length) :
    ∃ e' buf' n, e.pollHeaders buf = .ret (e', buf', n) ∧ buf'.length = buf.length ∧ n ≤ buf.length ∧ Inv H b e' (out ++ buf'.take n) ∧ e'.body = e.body ∧
      (n = 0 → e'.headersDone = true) ∧ (0 < n → e'.bodyDone = false) ∧ (e'.headersDone = false → n = buf.length) := by
  obtain ⟨h1, h2, h3, h4, h5⟩ := h
  unfold pollHeaders
  cases hd : e.headersDone with
  | true =>
    exact ⟨e, buf, 0, by simp, rfl, by omega, ⟨h1, h2, h3, by simp [hd], by simpa [hd] using h5 hd⟩, rfl, fun _ => hd, by omega, by simp [hd]⟩
  | false =>
    obtain ⟨g1, g2, g3, g4⟩ := h4 hd
    rw [h1]
    simp only [Bool.false_eq_true, if_false, if_pos h2]
    have hlen : min (H.length - e.cursor) buf.length ≤ H.length - e.cursor ∧ min (H.length - e.cursor) buf.length ≤ buf.length := by omega
    have hl0 : 0 < min (H.length - e.cursor) buf.length := by omega
    have hfull : e.cursor + min (H.length - e.cursor) buf.length ≠ H.length → min (H.length - e.cursor) buf.length = buf.length := by omega
    generalize hL : min (H.length - e.cursor) buf.length = len at *
    rw [slice_ok (by omega)]
    simp only [Run.ret_bind]
    have hpl : ((H.take (e.cursor + len)).drop e.cursor).length = len := by simp; omega
    have hw : writeAt buf 0 ((H.take (e.cursor + len)).drop e.cursor) = .ret ((H.take (e.cursor + len)).drop e.cursor ++ buf.drop len) := by
      unfold writeAt
      rw [if_pos (by omega)]
      simp only [List.take_zero, List.nil_append, Nat.zero_add, hpl]
    rw [hw]
    simp only [Run.ret_bind]
    have htk : ((H.take (e.cursor + len)).drop e.cursor ++ buf.drop len).take len = (H.take (e.cursor + len)).drop e.cursor := by
      rw [List.take_append_of_le_length (by omega), List.take_of_length_le (by omega)]
    have hout : out ++ (H.take (e.cursor + len)).drop e.cursor = H.take (e.cursor + len) := by
      rw [g2]
      have : H.take e.cursor = (H.take (e.cursor + len)).take e.cursor := by rw [List.take_take]; congr 1; omega
      rw [this, List.take_append_drop]
    have hbl' : ((H.take (e.cursor + len)).drop e.cursor ++ buf.drop len).length = buf.length := by
      rw [List.length_append, hpl, List.length_drop]; omega
    refine ⟨_, _, _, rfl, hbl', hlen.2, ?_, ?_, by omega, ?_, ?_⟩
    · rw [htk, hout]
      split
      · rename_i hc
        refine ⟨rfl, by dsimp only; omega, h3, by simp, ?_⟩
        intro _
        refine ⟨[], ?_, by rw [g3]; rfl, by dsimp only; simp [g4]⟩
        rw [hc, List.take_length, List.append_nil]
      · rename_i hc
        exact ⟨rfl, by dsimp only; omega, h3, fun _ => ⟨by dsimp only; omega, rfl, g3, g4⟩, by dsimp only; simp [hd]⟩
    · split <;> rfl
    · intro _; split <;> exact g4
    · intro hf
      split at hf
      · cases hf
      · rename_i hc; exact hfull hc

/-- The client's encoder as seen by `io::copy`. -/
theorem encSpec (H : Bytes) (b : σ) :
    EncSpec (ClientEncoder.poll (σ := σ)) (Inv H b) (fun e out => H.length + (rem b).length - out.length + meas e.body)
      (fun out => out = H ++ rem b ∧ fin b = none) (fun _ x => fin b = some x) False where
  step := by
    intro e out buf h hbl
    have hpos : 0 < buf.length := by rw [hbl]; decide
    obtain ⟨e1, buf1, n, hp, hb1, hn, hI, hbody, hn0, hdone, hnf⟩ := pollHeaders_spec h hpos
    right
    unfold poll
    rw [hp]
    simp only [Run.ret_bind]
    have hlen := hI.out.length_le
    have hl0 := h.out.length_le
    have hlt : (out ++ buf1.take n).length = out.length + n := by
      simp only [List.length_append, List.length_take]; omega
    rw [List.length_append (as := H)] at hlen hl0
    cases hbd : e1.bodyDone with
    | true =>
      have hnz : n = 0 := by
        rcases Nat.eq_zero_or_pos n with h0 | h0
        · exact h0
        · rw [hdone h0] at hbd; cases hbd
      subst hnz
      simp only [if_true]
      refine ⟨e1, buf1, .ready 0, rfl, by omega, by omega, hI, ?_, by simp⟩
      intro _
      simp only [List.take_zero, List.append_nil] at hI
      obtain ⟨p, h1, h2, h3⟩ := hI.2.2.2.2 (hn0 rfl)
      obtain ⟨h4, h5⟩ := h3 hbd
      refine ⟨⟨by rw [h1, h2, h4, List.append_nil], h5⟩, by rw [hbody]; exact Nat.le_refl _⟩
    | false =>
      simp only [Bool.false_eq_true, if_false]
      rw [if_pos (by omega)]
      obtain ⟨b', p, hr, ho⟩ := LawfulRead.read_ok e1.body (buf1.length - n)
      rw [hr]
      simp only [Run.ret_bind]
      rw [hbody] at ho
      obtain ⟨i1, i2, i3, i4, i5⟩ := hI
      rw [hbody] at i3 i4 i5
      cases ho with
      | err h1 h2 => exact ⟨_, _, _, rfl, by omega, by rw [← i3]; exact h2⟩
      | pending h1 h2 h3 =>
        have hI' : Inv H b { e1 with body := b', bodyDone := false } (out ++ buf1.take n) :=
          ⟨i1, i2, by dsimp only; rw [h2, i3], by
            dsimp only; rw [h1]; intro hf
            obtain ⟨a, b, c, -⟩ := i4 hf
            exact ⟨a, b, c, rfl⟩, by dsimp only; rw [h1]; rw [hbd] at i5; exact i5⟩
        dsimp only
        split
        · rename_i hnz
          subst hnz
          exact ⟨_, _, _, rfl, by omega, by simpa using hI', by dsimp only; omega⟩
        · rename_i hnz
          exact ⟨_, _, _, rfl, by omega, by omega, hI', fun h0 => absurd h0 hnz, fun _ => by dsimp only; rw [hlt]; omega⟩
      | data h1 h2 h3 h4 h5 =>
        rename_i bs
        dsimp only
        have hw : writeAt buf1 n bs = .ret (buf1.take n ++ bs ++ buf1.drop (n + bs.length)) := by
          unfold writeAt; rw [if_pos (by omega)]
        rw [hw]
        simp only [Run.ret_bind]
        have htn : (buf1.take n).length = n := by rw [List.length_take]; omega
        have htk : (buf1.take n ++ bs ++ buf1.drop (n + bs.length)).take (n + bs.length) = buf1.take n ++ bs := by
          rw [List.take_append_of_le_length (by rw [List.length_append]; omega), List.take_of_length_le (by rw [List.length_append]; omega)]
        refine ⟨_, _, _, rfl, by simp only [List.length_append, List.length_drop, htn]; omega, by omega, ?_, ?_, ?_⟩
        · rw [htk]
          have base : ∀ bd : Bool, (bd = true → n = 0 ∧ bs = []) →
              Inv H b { e1 with body := b', bodyBytesRead := e1.bodyBytesRead + bs.length, bodyDone := bd } (out ++ (buf1.take n ++ bs)) := by
            intro bd hbd'
            refine ⟨i1, i2, by dsimp only; rw [h3, i3], ?_, ?_⟩
            · intro hf
              obtain ⟨j1, j2, j3, j4⟩ := i4 hf
              have hnb := hnf hf
              have hbs : bs = [] := List.length_eq_zero_iff.1 (by omega)
              subst hbs
              refine ⟨j1, by rw [List.append_nil]; exact j2, ?_, ?_⟩
              · dsimp only; rw [← j3, h2]; rfl
              · dsimp only
                cases bd with
                | false => rfl
                | true => have := (hbd' rfl).1; omega
            · intro hf
              obtain ⟨q, j1, j2, j3⟩ := i5 hf
              refine ⟨q ++ bs, by rw [← List.append_assoc, j1, List.append_assoc], by rw [j2, h2, List.append_assoc], ?_⟩
              intro hb
              obtain ⟨k1, k2⟩ := hbd' hb
              obtain ⟨k3, k4⟩ := h5 (by omega) k2
              rw [h2, k2] at k3
              exact ⟨k3, by rw [← i3]; exact k4⟩
          split
          · rename_i hz
            exact base true (fun _ => ⟨by omega, List.length_eq_zero_iff.1 (by omega)⟩)
          · exact base false (by simp)
        · intro hz
          have hn' : n = 0 := by omega
          have hbs : bs = [] := List.length_eq_zero_iff.1 (by omega)
          subst hn'
          obtain ⟨q, j1, j2, j3⟩ := i5 (hn0 rfl)
          obtain ⟨k3, k4⟩ := h5 (by omega) hbs
          simp only [List.take_zero, List.append_nil] at j1
          refine ⟨⟨by rw [j1, j2, k3, List.append_nil], by rw [← i3]; exact k4⟩, ?_⟩
          rw [if_pos hz]
          dsimp only; omega
        · intro hz
          rw [htk, if_neg hz]
          dsimp only
          have hsum : (out ++ (buf1.take n ++ bs)).length = out.length + n + bs.length := by
            simp only [List.length_append, htn]; omega
          rw [hsum]
          have hle : out.length + n + bs.length ≤ H.length + (rem b).length := by
            cases hf : e1.headersDone with
            | true =>
              obtain ⟨q, j1, j2, j3⟩ := i5 hf
              have a1 := congrArg List.length j1
              have a2 := congrArg List.length j2
              have a3 := congrArg List.length h2
              simp only [List.length_append, htn] at a1 a2 a3
              omega
            | false =>
              have hnb := hnf hf
              omega
          omega

end ClientEncoder
end Tophat
