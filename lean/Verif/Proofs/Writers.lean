import Verif.Proofs.Total
/-! What happens to the write half: answers are used up, bytes are added, and the events tell which. -/

set_option linter.unusedSectionVars false

namespace Tophat
open Spec

/-- `w'` is `w` after some writes. -/
def Grew (w w' : Writer) : Prop := (∃ used, w.script = used ++ w'.script) ∧ ∃ sent, w'.got = w.got ++ sent

theorem Grew.refl (w : Writer) : Grew w w := ⟨⟨[], rfl⟩, [], by simp⟩

theorem Grew.trans {a b c : Writer} (h : Grew a b) (k : Grew b c) : Grew a c := by
  obtain ⟨⟨u, h1⟩, s, h2⟩ := h
  obtain ⟨⟨u', k1⟩, s', k2⟩ := k
  exact ⟨⟨u ++ u', by rw [h1, k1]; simp⟩, s ++ s', by rw [k2, h2]; simp⟩

theorem Grew.reliable {w w' : Writer} (h : Grew w w') (hr : w.Reliable) : w'.Reliable := by
  obtain ⟨⟨u, h1⟩, _⟩ := h; exact hr.suffix h1

theorem Grew.since {w w' : Writer} (h : Grew w w') : ∃ x, wroteSince w w' = .wrote x ∧ w'.got = w.got ++ x := by
  obtain ⟨_, s, h⟩ := h
  exact ⟨s, by simp [wroteSince, h], h⟩

theorem Writer.write_grew (w : Writer) (bs : Bytes) : Grew w (w.write bs).1 := by
  unfold Writer.write
  split
  · exact ⟨⟨[], rfl⟩, bs, rfl⟩
  · rename_i h; exact ⟨⟨[_], by rw [h]; rfl⟩, _, rfl⟩
  · rename_i h; exact ⟨⟨[_], by rw [h]; rfl⟩, [], by simp⟩
  · rename_i h; exact ⟨⟨[_], by rw [h]; rfl⟩, [], by simp⟩

theorem Writer.flush_grew (w : Writer) : Grew w w.flush.1 := by
  unfold Writer.flush
  split
  · exact .refl w
  · rename_i h; exact ⟨⟨[_], by rw [h]; rfl⟩, [], by simp⟩
  · rename_i h; exact ⟨⟨[_], by rw [h]; rfl⟩, [], by simp⟩
  · rename_i h; exact ⟨⟨[_], by rw [h]; rfl⟩, [], by simp⟩

theorem copyGo_grew {ε : Type} {poll : ε → Bytes → Run (ε × Bytes × EPoll)} (fuel : Nat) : ∀ {s s' : CopyState ε} {r : CopyRes},
    copyGo poll fuel s = .ret (s', r) → Grew s.writer s'.writer := by
  induction fuel with
  | zero =>
    intro s s' r h
    simp only [copyGo, Run.ret.injEq, Prod.mk.injEq] at h
    rw [← h.1]; exact .refl _
  | succ fuel ih =>
    intro s s' r h
    simp only [copyGo] at h
    split at h
    · obtain ⟨⟨e, b, p⟩, _, h2⟩ := Run.bind_eq_ret.1 h
      cases p with
      | pending => have := ih h2; exact this
      | err e =>
        simp only [Run.ret.injEq, Prod.mk.injEq] at h2
        rw [← h2.1]; exact .refl _
      | ready n =>
        dsimp only at h2
        split at h2
        · have hg := s.writer.flush_grew
          split at h2
          · have := ih h2; exact hg.trans this
          · simp only [Run.ret.injEq, Prod.mk.injEq] at h2
            rw [← h2.1]; exact hg
          · simp only [Run.ret.injEq, Prod.mk.injEq] at h2
            rw [← h2.1]; exact hg
        · have := ih h2; exact this
    · obtain ⟨data, _, h2⟩ := Run.bind_eq_ret.1 h
      have hg := s.writer.write_grew data
      split at h2
      · have := ih h2; exact hg.trans this
      · simp only [Run.ret.injEq, Prod.mk.injEq] at h2
        rw [← h2.1]; exact hg
      · split at h2
        · simp only [Run.ret.injEq, Prod.mk.injEq] at h2
          rw [← h2.1]; exact hg
        · have := ih h2; exact hg.trans this

section
variable {σ : Type} [AsyncBufRead σ]

theorem sendResponse_grew {hexLen : Nat → Nat} {now : Bytes} {fuel : Nat} {resp : InnerResponse σ} {w w' : Writer} {r : CopyRes}
    (h : sendResponse hexLen now fuel resp w = .ret (w', r)) : Grew w w' := by
  unfold sendResponse at h
  obtain ⟨⟨s, r2⟩, h3, h4⟩ := Run.bind_eq_ret.1 h
  simp only [Run.ret.injEq, Prod.mk.injEq] at h4
  obtain ⟨rfl, rfl⟩ := h4
  exact copyGo_grew _ h3

theorem sendFully_grew {env : Env} {fuel n : Nat} {resp : InnerResponse σ} {w w' : Writer} {r : CopyRes}
    (h : sendFully env fuel n resp w = .ret (w', r)) : Grew w w' := by
  unfold sendFully sendResponse at h
  obtain ⟨⟨w1, r1⟩, h1, h2⟩ := Run.bind_eq_ret.1 h
  obtain ⟨⟨s, r2⟩, h3, h4⟩ := Run.bind_eq_ret.1 h1
  simp only [Run.ret.injEq, Prod.mk.injEq] at h4
  obtain ⟨rfl, rfl⟩ := h4
  have := copyGo_grew _ h3
  dsimp only at h2
  split at h2
  · cases h2
  · simp only [Run.ret.injEq, Prod.mk.injEq] at h2
    rw [← h2.1]; exact this

/-- The bytes are the ones the events tell. -/
def Told (w w' : Writer) (ev : List Event) : Prop := Grew w w' ∧ w'.got = w.got ++ written ev

theorem Told.append {a b c : Writer} {e f : List Event} (h : Told a b e) (k : Told b c f) : Told a c (e ++ f) :=
  ⟨h.1.trans k.1, by rw [k.2, h.2, written_append]; simp⟩

theorem Told.one {w w' : Writer} (h : Grew w w') : Told w w' [wroteSince w w'] := by
  refine ⟨h, ?_⟩
  obtain ⟨x, h1, h2⟩ := h.since
  rw [h1, h2]; simp [written]

theorem answerGlitch_told {env : Env} {opts : ServerOpts} {fuel n : Nat} {g : Option Glitch} {w w' : Writer} {ev : List Event}
    (h : answerGlitch env opts fuel n g w = .ret (w', ev)) : Told w w' ev := by
  unfold answerGlitch at h
  cases g with
  | none =>
    simp only [Run.ret.injEq, Prod.mk.injEq] at h
    rw [← h.1, ← h.2]; exact ⟨.refl _, by simp [written]⟩
  | some g =>
    dsimp only at h
    obtain ⟨⟨w1, r⟩, h1, h2⟩ := Run.bind_eq_ret.1 h
    simp only [Run.ret.injEq, Prod.mk.injEq] at h2
    obtain ⟨rfl, rfl⟩ := h2
    exact .one (sendFully_grew h1)

theorem answerFail_told {env : Env} {fuel n : Nat} {f : DecodeFail} {w w' : Writer} {ev : List Event}
    (h : answerFail env fuel n f w = .ret (w', ev)) : Told w w' ev := by
  unfold answerFail at h
  cases hf : failResponse f with
  | none =>
    rw [hf] at h
    simp only [Run.ret.injEq, Prod.mk.injEq] at h
    rw [← h.1, ← h.2]; exact ⟨.refl _, by simp [written]⟩
  | some g =>
    rw [hf] at h
    dsimp only at h
    obtain ⟨⟨w1, r⟩, h1, h2⟩ := Run.bind_eq_ret.1 h
    simp only [Run.ret.injEq, Prod.mk.injEq] at h2
    obtain ⟨rfl, rfl⟩ := h2
    exact .one (sendFully_grew h1)

variable {ρ : Type} [AsyncRead ρ]

theorem runProg_told {env : Env} {fuel n : Nat} (a : Prog σ) (body body' : ReqBody ρ) (w w' : Writer) (ev : List Event) (g : Option Glitch)
    (h : runProg env fuel n a body w = .ret (body', w', ev, g)) : Told w w' ev := by
  induction a generalizing body ev with
  | read k next ih =>
    simp only [runProg] at h
    obtain ⟨⟨b1, p⟩, h1, h2⟩ := Run.bind_eq_ret.1 h
    dsimp only at h2
    obtain ⟨⟨b2, w2, ev2, g2⟩, h3, h4⟩ := Run.bind_eq_ret.1 h2
    simp only [Run.ret.injEq, Prod.mk.injEq] at h4
    obtain ⟨rfl, rfl, rfl, rfl⟩ := h4
    exact ih p b1 ev2 h3
  | send resp onOk onErr =>
    simp only [runProg] at h
    obtain ⟨⟨w1, r⟩, h1, h2⟩ := Run.bind_eq_ret.1 h
    have hg := sendFully_grew h1
    have fin : ∀ {b : Bool} {a : After b} {b2 : ReqBody ρ} {ev2 : List Event} {g2 : Option Glitch},
        runAfter a body = .ret (b2, ev2, g2) → Told w w1 (wroteSince w w1 :: ev2) := by
      intro b a b2 ev2 g2 h3
      refine ⟨hg, ?_⟩
      obtain ⟨x, h4, h5⟩ := hg.since
      rw [h4, h5]
      simp [written, (runAfter_calls _ _ _ _ _ h3).2]
    dsimp only at h2
    cases r with
    | running => cases h2
    | err e =>
      obtain ⟨⟨b2, ev2, g2⟩, h3, h4⟩ := Run.bind_eq_ret.1 h2
      simp only [Run.ret.injEq, Prod.mk.injEq] at h4
      obtain ⟨rfl, rfl, rfl, rfl⟩ := h4
      exact fin h3
    | ok amt =>
      obtain ⟨⟨b2, ev2, g2⟩, h3, h4⟩ := Run.bind_eq_ret.1 h2
      simp only [Run.ret.injEq, Prod.mk.injEq] at h4
      obtain ⟨rfl, rfl, rfl, rfl⟩ := h4
      exact fin h3
  | sendFor steps resp onOk onErr onDrop =>
    simp only [runProg] at h
    obtain ⟨⟨w1, r⟩, h1, h2⟩ := Run.bind_eq_ret.1 h
    have hg := sendResponse_grew h1
    have fin : ∀ {b : Bool} {a : After b} {b2 : ReqBody ρ} {ev2 : List Event} {g2 : Option Glitch},
        runAfter a body = .ret (b2, ev2, g2) → Told w w1 (wroteSince w w1 :: ev2) := by
      intro b a b2 ev2 g2 h3
      refine ⟨hg, ?_⟩
      obtain ⟨x, h4, h5⟩ := hg.since
      rw [h4, h5]
      simp [written, (runAfter_calls _ _ _ _ _ h3).2]
    dsimp only at h2
    cases r with
    | running =>
      obtain ⟨⟨b2, ev2, g2⟩, h3, h4⟩ := Run.bind_eq_ret.1 h2
      simp only [Run.ret.injEq, Prod.mk.injEq] at h4
      obtain ⟨rfl, rfl, rfl, rfl⟩ := h4
      exact fin h3
    | err e =>
      obtain ⟨⟨b2, ev2, g2⟩, h3, h4⟩ := Run.bind_eq_ret.1 h2
      simp only [Run.ret.injEq, Prod.mk.injEq] at h4
      obtain ⟨rfl, rfl, rfl, rfl⟩ := h4
      exact fin h3
    | ok amt =>
      obtain ⟨⟨b2, ev2, g2⟩, h3, h4⟩ := Run.bind_eq_ret.1 h2
      simp only [Run.ret.injEq, Prod.mk.injEq] at h4
      obtain ⟨rfl, rfl, rfl, rfl⟩ := h4
      exact fin h3
  | glitch =>
    simp only [runProg, Run.ret.injEq, Prod.mk.injEq] at h
    obtain ⟨rfl, rfl, rfl, rfl⟩ := h
    exact ⟨.refl _, by simp [written]⟩

theorem interimEvent_told {w w' : Writer} (h : Grew w w') : Told w w' (interimEvent w w') := by
  unfold interimEvent
  split
  · rename_i he; exact ⟨h, by simp [written, he]⟩
  · exact .one h

theorem writeAllGo_grew (fuel : Nat) : ∀ {w w' : Writer} {todo : Bytes} {x : WriteAll}, writeAllGo fuel w todo = .ret (w', x) → Grew w w' := by
  induction fuel with
  | zero => intro w w' todo x h; simp [writeAllGo] at h
  | succ fuel ih =>
    intro w w' todo x h
    simp only [writeAllGo] at h
    split at h
    · simp only [Run.ret.injEq, Prod.mk.injEq] at h
      rw [← h.1]; exact .refl _
    · have hg := w.write_grew todo
      split at h
      · rename_i hw; rw [hw] at hg
        simp only [Run.ret.injEq, Prod.mk.injEq] at h
        rw [← h.1]; exact hg
      · rename_i hw; rw [hw] at hg
        simp only [Run.ret.injEq, Prod.mk.injEq] at h
        rw [← h.1]; exact hg
      · rename_i hw; rw [hw] at hg
        split at h
        · simp only [Run.ret.injEq, Prod.mk.injEq] at h
          rw [← h.1]; exact hg
        · exact hg.trans (ih h)

theorem pollInterim_grew {uriOk : Bytes → Bool} {pool : Pool} {r : BufRd ρ} {p : Parsed} {todo : Bytes} {w w' : Writer} {d : DecPoll ρ}
    (h : pollInterim uriOk pool r p todo w = .ret (w', d)) : Grew w w' := by
  unfold pollInterim writeAll at h
  obtain ⟨⟨w1, x⟩, h1, h2⟩ := Run.bind_eq_ret.1 h
  have := writeAllGo_grew _ h1
  cases x <;>
  · simp only [Run.ret.injEq, Prod.mk.injEq] at h2
    rw [← h2.1]; exact this

theorem decFut_poll_grew {uriOk : Bytes → Bool} {pool : Pool} {fuel : Nat} {f : DecFut ρ} {w w' : Writer} {d : DecPoll ρ}
    (h : f.poll uriOk pool fuel w = .ret (w', d)) : Grew w w' := by
  cases f with
  | interim r p todo => simp only [DecFut.poll] at h; exact pollInterim_grew h
  | head r buf nread =>
    simp only [DecFut.poll] at h
    obtain ⟨hp, h1, h2⟩ := Run.bind_eq_ret.1 h
    cases hp with
    | pending r1 b1 n1 => simp only [Run.ret.injEq, Prod.mk.injEq] at h2; rw [← h2.1]; exact .refl _
    | lost r1 e => simp only [Run.ret.injEq, Prod.mk.injEq] at h2; rw [← h2.1]; exact .refl _
    | none r1 => simp only [Run.ret.injEq, Prod.mk.injEq] at h2; rw [← h2.1]; exact .refl _
    | head r1 b1 =>
      dsimp only at h2
      split at h2
      · simp only [Run.ret.injEq, Prod.mk.injEq] at h2; rw [← h2.1]; exact .refl _
      · exact pollInterim_grew h2

theorem awaitDecode_grew {env : Env} {opts : ServerOpts} {fuel : Nat} {pool : Pool} (n : Nat) : ∀ {f : DecFut ρ} {w w' : Writer} {clock clock' : List Bool} {a : Await ρ},
    awaitDecode env opts fuel pool n f w clock = .ret (w', clock', a) → Grew w w' := by
  induction n with
  | zero => intro f w w' clock clock' a h; simp [awaitDecode] at h
  | succ n ih =>
    intro f w w' clock clock' a h
    simp only [awaitDecode] at h
    obtain ⟨⟨w1, p⟩, h1, h2⟩ := Run.bind_eq_ret.1 h
    have g1 := decFut_poll_grew h1
    cases p with
    | ready r =>
      simp only [Run.ret.injEq, Prod.mk.injEq] at h2
      rw [← h2.1]; exact g1
    | pending f1 =>
      dsimp only at h2
      split at h2
      · split at h2
        · simp only [Run.ret.injEq, Prod.mk.injEq] at h2
          rw [← h2.1]; exact g1
        · exact g1.trans (ih h2)
        · exact g1.trans (ih h2)
      · exact g1.trans (ih h2)

/-- One iteration of the accept loop. -/
theorem acceptStep_told {env : Env} {opts : ServerOpts} {endpoint : Endpoint σ} {fuel n : Nat} {c c' : Conn ρ} {ev : List Event} {res : Option AcceptRes}
    (h : acceptStep env opts endpoint fuel n c = .ret (c', ev, res)) : Told c.wr c'.wr ev := by
  unfold acceptStep at h
  obtain ⟨⟨w, clock, a⟩, h1, h2⟩ := Run.bind_eq_ret.1 h
  have g := interimEvent_told (awaitDecode_grew _ h1)
  cases a with
  | timedOut io =>
    simp only [Run.ret.injEq, Prod.mk.injEq] at h2
    obtain ⟨rfl, rfl, rfl⟩ := h2
    exact g
  | ready r =>
    cases r with
    | none io =>
      simp only [Run.ret.injEq, Prod.mk.injEq] at h2
      obtain ⟨rfl, rfl, rfl⟩ := h2
      exact g
    | fail f io =>
      dsimp only at h2
      obtain ⟨⟨w', ev'⟩, h3, h4⟩ := Run.bind_eq_ret.1 h2
      simp only [Run.ret.injEq, Prod.mk.injEq] at h4
      obtain ⟨rfl, rfl, rfl⟩ := h4
      exact g.append (answerFail_told h3)
    | request req =>
      dsimp only at h2
      obtain ⟨⟨body, w1, ev1, gl⟩, h3, h4⟩ := Run.bind_eq_ret.1 h2
      dsimp only at h4
      obtain ⟨⟨w2, ev2⟩, h5, h6⟩ := Run.bind_eq_ret.1 h4
      simp only [Run.ret.injEq, Prod.mk.injEq] at h6
      obtain ⟨rfl, rfl, rfl⟩ := h6
      have := (runProg_told _ _ _ _ _ _ _ h3).append (answerGlitch_told h5)
      exact g.append ⟨this.1, by rw [this.2]; simp [written]⟩

theorem acceptGo_told {env : Env} {opts : ServerOpts} {endpoint : Endpoint σ} {fuel : Nat} (it : Nat) : ∀ {n : Nat} {c c' : Conn ρ} {ev : List Event} {res : AcceptRes},
    acceptGo env opts endpoint fuel it n c = .ret (c', ev, res) → Told c.wr c'.wr ev := by
  induction it with
  | zero =>
    intro n c c' ev res h
    simp only [acceptGo, Run.ret.injEq, Prod.mk.injEq] at h
    obtain ⟨rfl, rfl, rfl⟩ := h
    exact ⟨.refl _, by simp [written]⟩
  | succ it ih =>
    intro n c c' ev res h
    simp only [acceptGo] at h
    obtain ⟨⟨c1, ev1, r1⟩, h1, h2⟩ := Run.bind_eq_ret.1 h
    have g := acceptStep_told h1
    cases r1 with
    | some r =>
      simp only [Run.ret.injEq, Prod.mk.injEq] at h2
      obtain ⟨rfl, rfl, rfl⟩ := h2
      exact g
    | none =>
      obtain ⟨⟨c2, ev2, r2⟩, h3, h4⟩ := Run.bind_eq_ret.1 h2
      simp only [Run.ret.injEq, Prod.mk.injEq] at h4
      obtain ⟨rfl, rfl, rfl⟩ := h4
      exact g.append (ih h3)

end

end Tophat
