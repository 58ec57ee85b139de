import Verif.Spec.Conversation
import Verif.Proofs.Writers
/-! The course of a connection. -/

set_option linter.unusedSectionVars false

namespace Tophat
open Spec

section
variable {ρ : Type} [AsyncRead ρ] [LawfulRead ρ] {σ : Type} [AsyncBufRead σ]

theorem drop_head {s h x : Bytes} (e : s = h ++ x) : s.drop h.length = x := by rw [e]; simp

theorem BodyAt.buf {pool : Pool} {s : Bytes} {e : Option IoErr} {m : Nat} {len : Option Nat} {body : ReqBody ρ} (h : BodyAt pool s e m len body) :
    rem body.buf = s ∧ fin body.buf = e := by
  cases h with
  | fixed a b => exact ⟨a, b⟩
  | chunked a b => exact ⟨a, b⟩

theorem Spec.Conversation.mono {uriOk : Bytes → Bool} {now : Nat → Bytes} {P Q : Prop} (h : P → Q) {n : Nat} {s : Bytes} {ev : List Event}
    (c : Conversation uriOk now Q n s ev) : Conversation uriOk now P n s ev := by
  induction c with
  | done => exact .done
  | timeout a b c => exact .timeout a b c
  | cut a b c d _ ih => exact .cut a (fun p => b (h p)) c d ih
  | refused a b c d e _ ih => exact .refused a b c (fun p => d (h p)) e ih
  | gaveUp a b c d => exact .gaveUp a b c (fun p => d (h p))
  | served a b c d e _ ih => exact .served a b c d e ih

theorem acceptGo_conversation {env : Env} (hx : HexLenOk env.hexLen) {opts : ServerOpts} {endpoint : Endpoint σ} {fuel : Nat} (it : Nat) :
    ∀ {n : Nat} {c c' : Conn ρ} {ev : List Event} {res : AcceptRes}, fin c.rd = none →
    acceptGo env opts endpoint fuel it n c = .ret (c', ev, res) → Conversation env.uriOk env.now c.wr.Reliable n (rem c.rd) ev := by
  induction it with
  | zero =>
    intro n c c' ev res _ h
    simp only [acceptGo, Run.ret.injEq, Prod.mk.injEq] at h
    obtain ⟨rfl, rfl, rfl⟩ := h
    exact .done
  | succ it ih =>
    intro n c c' ev res hf h
    simp only [acceptGo] at h
    obtain ⟨⟨c1, ev1, r1⟩, h1, h2⟩ := Run.bind_eq_ret.1 h
    have hs := acceptStep_spec hx h1
    have ht := acceptStep_told h1
    have hn : ∀ {s'}, rem c1.rd <:+ s' → fin c1.rd = none → r1 = none → ∃ ev2, ev = ev1 ++ ev2 ∧ rem c1.rd <:+ s' ∧
        Conversation env.uriOk env.now c.wr.Reliable (n + 1) (rem c1.rd) ev2 := by
      rintro s' e1 e2 rfl
      obtain ⟨⟨c2, ev2, r2⟩, h3, h4⟩ := Run.bind_eq_ret.1 h2
      simp only [Run.ret.injEq, Prod.mk.injEq] at h4
      obtain ⟨rfl, rfl, rfl⟩ := h4
      exact ⟨ev2, rfl, e1, (ih e2 h3).mono (ht.1.reliable)⟩
    have hsome : ∀ r, r1 = some r → ev = ev1 := by
      rintro r rfl
      simp only [Run.ret.injEq, Prod.mk.injEq] at h2
      exact h2.2.1.symm
    cases hs with
    | closed => rw [hsome _ rfl]; exact .done
    | timedOut a b d e f g k =>
      rename_i ticks x used
      rw [hsome _ rfl]
      unfold interimEvent
      split
      · exact .done
      · rename_i hne
        have hx0 : x ≠ [] := by rintro rfl; exact hne (by rw [f]; simp)
        obtain ⟨hd, hh⟩ := k hx0
        simp only [wroteSince, f, List.drop_left]
        exact .timeout hh hx0 e
    | lost a b => rw [hf] at b; cases b
    | cut a b d e f g k l m o =>
      rename_i hd v x y used r
      obtain ⟨ev2, rfl, e1, e2⟩ := hn (s' := (rem c.rd).drop hd.length) (by rw [o, drop_head l]; exact r.inner_suffix) (by rw [o]; rw [← hf, ← m]; rfl) rfl
      refine .cut a e ?_ e1 e2
      unfold interimEvent
      split
      · exact .inl rfl
      · exact .inr ⟨x, ⟨y, f.symm⟩, by simp [wroteSince, g]⟩
    | refused a b d e f g k l =>
      rename_i hd i st used r w1
      obtain ⟨ev2, rfl, e1, e2⟩ := hn (s' := (rem c.rd).drop hd.length) (by rw [l, drop_head g]; exact r.inner_suffix) (by rw [l]; rw [← hf, ← k]; rfl) rfl
      obtain ⟨x, f1, f2, f3⟩ := f.wrote
      rw [f2]
      have : interimEvents i ++ [Event.wrote x] ++ ev2 = Spec.interim i ++ .wrote x :: ev2 := by rw [interimEvents_eq]; simp
      rw [this]
      refine .refused a b f1 ?_ e1 e2
      intro hr
      have := (f.whole (hr.suffix e)).1
      rw [f3] at this
      exact List.append_cancel_left this
    | gaveUp a b d =>
      rw [hsome _ rfl]
      obtain ⟨x, f1, f2, f3⟩ := d.wrote
      rw [f2]
      refine .gaveUp a b f1 ?_
      intro hr
      have := (d.whole hr).1
      rw [f3] at this
      exact List.append_cancel_left this
    | served a b d e f g k l m =>
      rename_i hd i m' t fs len hm used body body' w1 w2 w3 eva gg evb clock'
      have hr := (runProg_reach _ _ _ _ _ _ _ l).suffix (by rw [k.buf.2, hf])
      have hsuf : rem body'.io <:+ (rem c.rd).drop hd.length := by
        rw [ReqBody.io_eq]
        exact (BufRd.inner_suffix _).trans (by rw [← k.buf.1]; exact hr.1)
      obtain ⟨ev2, rfl, e1, e2⟩ := hn (s' := (rem c.rd).drop hd.length) hsuf (by show fin body'.io = none; rw [ReqBody.io_eq]; exact hr.2.1) rfl
      have : interimEvents i ++ Event.call ⟨m', t, hm⟩ len :: (eva ++ evb) ++ ev2 = Spec.interim i ++ .call ⟨m', t, hm⟩ len :: ((eva ++ evb) ++ ev2) := by
        rw [interimEvents_eq]; simp
      rw [this]
      exact .served a b d (by rw [calls_append, runProg_calls _ _ _ _ _ _ _ l, answerGlitch_calls m]; rfl) e1 e2

end

end Tophat
