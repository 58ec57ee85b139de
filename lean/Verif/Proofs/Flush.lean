import Verif.Spec.Flush
import Verif.Proofs.Writers
import Verif.Model.Client
/-! When the transport is flushed. -/

set_option linter.unusedSectionVars false

namespace Tophat
open Spec

theorem Writer.write_flushed (w : Writer) (bs : Bytes) : (w.write bs).1.flushed = w.flushed := by
  unfold Writer.write
  split <;> rfl

/-- A flush that succeeds flushes everything; one that does not, nothing. -/
theorem Writer.flush_flushed (w : Writer) : (∃ n, w.flush.2 = .ready n ∧ w.flush.1.Flushed) ∨ ((∀ n, w.flush.2 ≠ .ready n) ∧ w.flush.1.flushed = w.flushed) := by
  unfold Writer.flush
  split
  · exact .inl ⟨_, rfl, rfl⟩
  · exact .inl ⟨_, rfl, rfl⟩
  · exact .inr ⟨by simp, rfl⟩
  · exact .inr ⟨by simp, rfl⟩

theorem copyGo_flushed {ε : Type} {poll : ε → Bytes → Run (ε × Bytes × EPoll)} (fuel : Nat) : ∀ {s s' : CopyState ε} {r : CopyRes},
    copyGo poll fuel s = .ret (s', r) → (∃ a, r = .ok a ∧ s'.writer.Flushed) ∨ (∀ a, r ≠ .ok a) ∧ s'.writer.flushed = s.writer.flushed := by
  induction fuel with
  | zero =>
    intro s s' r h
    simp only [copyGo, Run.ret.injEq, Prod.mk.injEq] at h
    obtain ⟨rfl, rfl⟩ := h
    exact .inr ⟨by simp, rfl⟩
  | succ fuel ih =>
    intro s s' r h
    simp only [copyGo] at h
    split at h
    · obtain ⟨⟨e, b, p⟩, _, h2⟩ := Run.bind_eq_ret.1 h
      cases p with
      | pending => have := ih h2; exact this
      | err e =>
        simp only [Run.ret.injEq, Prod.mk.injEq] at h2
        obtain ⟨rfl, rfl⟩ := h2
        exact .inr ⟨by simp, rfl⟩
      | ready n =>
        dsimp only at h2
        split at h2
        · have hg := s.writer.flush_flushed
          split at h2
          · rename_i hp
            rcases hg with ⟨n, h0, _⟩ | ⟨_, h0⟩
            · rw [hp] at h0; cases h0
            · have := ih h2
              dsimp only at this
              rwa [h0] at this
          · rename_i hp
            simp only [Run.ret.injEq, Prod.mk.injEq] at h2
            obtain ⟨rfl, rfl⟩ := h2
            rcases hg with ⟨n, h0, _⟩ | ⟨_, h0⟩
            · rw [hp] at h0; cases h0
            · exact .inr ⟨by simp, h0⟩
          · rename_i hp
            simp only [Run.ret.injEq, Prod.mk.injEq] at h2
            obtain ⟨rfl, rfl⟩ := h2
            rcases hg with ⟨n, _, h0⟩ | ⟨h0, _⟩
            · exact .inl ⟨_, rfl, h0⟩
            · exact absurd hp (h0 _)
        · have := ih h2; exact this
    · obtain ⟨data, _, h2⟩ := Run.bind_eq_ret.1 h
      have hg := s.writer.write_flushed data
      split at h2
      · have := ih h2
        dsimp only at this
        rwa [hg] at this
      · simp only [Run.ret.injEq, Prod.mk.injEq] at h2
        obtain ⟨rfl, rfl⟩ := h2
        exact .inr ⟨by simp, hg⟩
      · split at h2
        · simp only [Run.ret.injEq, Prod.mk.injEq] at h2
          obtain ⟨rfl, rfl⟩ := h2
          exact .inr ⟨by simp, hg⟩
        · have := ih h2
          dsimp only at this
          rwa [hg] at this

/-- If the encoder reports no errors and the transport neither, `io::copy` reports none. -/
theorem copyGo_no_err {ε : Type} {poll : ε → Bytes → Run (ε × Bytes × EPoll)} {I : ε → Prop} (hI : ∀ e b e' b' r, I e → poll e b = .ret (e', b', r) → I e' ∧ ∀ x, r ≠ .err x) (fuel : Nat) :
    ∀ {s s' : CopyState ε} {r : CopyRes}, I s.enc → s.writer.Reliable → copyGo poll fuel s = .ret (s', r) → ∀ x, r ≠ .err x := by
  induction fuel with
  | zero =>
    intro s s' r _ _ h
    simp only [copyGo, Run.ret.injEq, Prod.mk.injEq] at h
    rw [← h.2]; simp
  | succ fuel ih =>
    intro s s' r he hw h
    simp only [copyGo] at h
    split at h
    · obtain ⟨⟨e, b, p⟩, h1, h2⟩ := Run.bind_eq_ret.1 h
      obtain ⟨i1, i2⟩ := hI _ _ _ _ _ he h1
      cases p with
      | pending => exact ih (s := { s with enc := e, buf := b }) i1 hw h2
      | err x => exact absurd rfl (i2 x)
      | ready n =>
        dsimp only at h2
        split at h2
        · have hg := s.writer.flush_grew
          have hr : ∀ x, s.writer.flush.2 ≠ .err x := by
            intro x hx
            unfold Writer.flush at hx
            split at hx <;> cases hx
            rename_i e _ hs
            exact (hw _ (by rw [hs]; exact List.mem_cons_self)).2 x rfl
          split at h2
          · exact ih (s := { s with enc := e, buf := b, pos := 0, cap := n, writer := s.writer.flush.1 }) i1 (hg.reliable hw) h2
          · rename_i hp; exact absurd hp (hr _)
          · simp only [Run.ret.injEq, Prod.mk.injEq] at h2
            rw [← h2.2]; simp
        · exact ih (s := { s with enc := e, buf := b, pos := 0, cap := n }) i1 hw h2
    · rename_i hpos
      obtain ⟨data, h1, h2⟩ := Run.bind_eq_ret.1 h
      have hd : data ≠ [] := by
        unfold slice at h1
        split at h1
        · rename_i hb
          simp only [Run.ret.injEq] at h1
          intro h0
          have := congrArg List.length h1
          rw [h0] at this
          simp only [List.length_drop, List.length_take, List.length_nil] at this
          omega
        · cases h1
      have hg := s.writer.write_grew data
      have hr : (∀ x, (s.writer.write data).2 ≠ .err x) ∧ (s.writer.write data).2 ≠ .ready 0 := by
        have hl : data.length ≠ 0 := fun h0 => hd (List.eq_nil_of_length_eq_zero h0)
        unfold Writer.write
        split
        · exact ⟨by simp, by simpa using hd⟩
        · rename_i n _ hs
          refine ⟨by simp, ?_⟩
          have : n ≠ 0 := by
            rintro rfl
            exact (hw _ (by rw [hs]; exact List.mem_cons_self)).1 rfl
          intro h0
          simp only [WPoll.ready.injEq] at h0
          omega
        · exact ⟨by simp, by simp⟩
        · rename_i e _ hs
          exact absurd rfl ((hw _ (by rw [hs]; exact List.mem_cons_self)).2 e)
      split at h2
      · exact ih (s := { s with writer := (s.writer.write data).1 }) he (hg.reliable hw) h2
      · rename_i hp; exact absurd hp (hr.1 _)
      · rename_i i hp
        split at h2
        · rename_i hi; rw [hi] at hp; exact absurd hp hr.2
        · exact ih (s := { s with writer := (s.writer.write data).1, amt := s.amt + i, pos := min (s.pos + i) s.cap }) he (hg.reliable hw) h2

/-- The encoder is writing a response of known length. -/
def Encoder.Known (e : Encoder Cursor) : Prop := e.contentLength ≠ none ∧ e.state ≠ .chunkedBody

theorem encodeFixedBody_known (fuel : Nat) : ∀ {e e' : Encoder Cursor} {b b' : Bytes} {r : EPoll}, e.Known → e.encodeFixedBody fuel b = .ret (e', b', r) → e'.Known ∧ ∀ x, r ≠ .err x := by
  induction fuel with
  | zero => intro e e' b b' r _ h; cases h
  | succ fuel ih =>
    intro e e' b b' r hk h
    simp only [Encoder.encodeFixedBody] at h
    split at h
    · simp only [Run.ret.injEq, Prod.mk.injEq] at h
      obtain ⟨rfl, rfl, rfl⟩ := h
      exact ⟨hk, by simp⟩
    · split at h
      · cases h
      · rename_i cl hcl
        split at h
        · split at h
          · obtain ⟨⟨body, p⟩, h1, h2⟩ := Run.bind_eq_ret.1 h
            cases p with
            | pending => exact absurd h1 (by intro h1; cases h1)
            | err x => exact absurd h1 (by intro h1; cases h1)
            | data bs =>
              dsimp only at h2
              obtain ⟨b1, h3, h4⟩ := Run.bind_eq_ret.1 h2
              split at h4
              · simp only [Run.ret.injEq, Prod.mk.injEq] at h4
                obtain ⟨rfl, rfl, rfl⟩ := h4
                exact ⟨⟨hk.1, by simp⟩, by simp⟩
              · exact ih (by exact ⟨hk.1, hk.2⟩) h4
          · cases h
        · cases h

theorem encodeHead_known {hexLen : Nat → Nat} {fuel : Nat} {e e' : Encoder Cursor} {b b' : Bytes} {r : EPoll} (hk : e.Known) (h : e.encodeHead hexLen fuel b = .ret (e', b', r)) : e'.Known ∧ ∀ x, r ≠ .err x := by
  unfold Encoder.encodeHead at h
  split at h
  · obtain ⟨part, h1, h2⟩ := Run.bind_eq_ret.1 h
    obtain ⟨b1, h3, h4⟩ := Run.bind_eq_ret.1 h2
    dsimp only at h4
    split at h4
    · cases hc : e.contentLength with
      | none => exact absurd hc hk.1
      | some n =>
        rw [hc] at h4
        exact encodeFixedBody_known _ (by exact ⟨by simp, by simp⟩) h4
    · simp only [Run.ret.injEq, Prod.mk.injEq] at h4
      obtain ⟨rfl, rfl, rfl⟩ := h4
      exact ⟨hk, by simp⟩
  · cases h

theorem encoder_known {hexLen : Nat → Nat} {now : Bytes} (e : Encoder Cursor) (b : Bytes) (e' : Encoder Cursor) (b' : Bytes) (r : EPoll) (hk : e.Known) (h : e.poll hexLen now b = .ret (e', b', r)) : e'.Known ∧ ∀ x, r ≠ .err x := by
  unfold Encoder.poll Encoder.pollFuel at h
  dsimp only at h
  split at h
  · unfold Encoder.start at h
    exact encodeHead_known (by exact ⟨hk.1, by simp⟩) h
  · exact encodeHead_known (by exact hk) h
  · exact encodeFixedBody_known _ (by exact hk) h
  · rename_i hs; exact absurd hs hk.2
  · simp only [Run.ret.injEq, Prod.mk.injEq] at h
    obtain ⟨rfl, rfl, rfl⟩ := h
    exact ⟨hk, by simp⟩

section
variable {σ : Type} [AsyncBufRead σ]

theorem sendFully_of {env : Env} {fuel n : Nat} {resp : InnerResponse σ} {w w' : Writer} {r : CopyRes}
    (h : sendResponse env.hexLen (env.now n) fuel resp w = .ret (w', r)) (hr : r ≠ .running) : sendFully env fuel n resp w = .ret (w', r) := by
  simp only [sendFully, h, Run.ret_bind, if_neg hr]

theorem sendFully_ok {env : Env} {fuel n : Nat} {resp : InnerResponse σ} {w w' : Writer} {a : Nat}
    (h : sendFully env fuel n resp w = .ret (w', .ok a)) : w'.Flushed := by
  unfold sendFully sendResponse at h
  obtain ⟨⟨w1, r1⟩, h1, h2⟩ := Run.bind_eq_ret.1 h
  obtain ⟨⟨s, r2⟩, h3, h4⟩ := Run.bind_eq_ret.1 h1
  simp only [Run.ret.injEq, Prod.mk.injEq] at h4
  obtain ⟨rfl, rfl⟩ := h4
  dsimp only at h2
  split at h2
  · cases h2
  · simp only [Run.ret.injEq, Prod.mk.injEq] at h2
    obtain ⟨rfl, rfl⟩ := h2
    rcases copyGo_flushed _ h3 with ⟨a, -, h⟩ | ⟨h, -⟩
    · exact h
    · exact absurd rfl (h _)

/-- A response of known length from memory is flushed. -/
theorem sendFully_known {env : Env} {fuel n : Nat} {resp : InnerResponse Cursor} {w w' : Writer} {r : CopyRes} (hl : resp.length ≠ none) (hw : w.Reliable)
    (h : sendFully env fuel n resp w = .ret (w', r)) : w'.Flushed := by
  have h0 := h
  unfold sendFully sendResponse at h
  obtain ⟨⟨w1, r1⟩, h1, h2⟩ := Run.bind_eq_ret.1 h
  obtain ⟨⟨s, r2⟩, h3, h4⟩ := Run.bind_eq_ret.1 h1
  simp only [Run.ret.injEq, Prod.mk.injEq] at h4
  obtain ⟨rfl, rfl⟩ := h4
  dsimp only at h2
  split at h2
  · cases h2
  · rename_i hr
    simp only [Run.ret.injEq, Prod.mk.injEq] at h2
    obtain ⟨rfl, rfl⟩ := h2
    have hne := copyGo_no_err encoder_known _ (s := CopyState.init (Encoder.encode resp) w) ⟨hl, by simp [CopyState.init, Encoder.encode]⟩ hw h3
    cases r2 with
    | running => exact absurd rfl hr
    | ok a => exact sendFully_ok h0
    | err x => exact absurd rfl (hne x)

variable {ρ : Type} [AsyncRead ρ]

theorem runAfter_failed {b : Bool} (a : After b) : b = false → ∀ (body body' : ReqBody ρ) (ev : List Event) (g : Option Glitch),
    runAfter a body = .ret (body', ev, g) → g ≠ none := by
  induction a with
  | read k next ih =>
    intro hb body body' ev g h
    simp only [runAfter] at h
    obtain ⟨⟨b1, p⟩, h1, h2⟩ := Run.bind_eq_ret.1 h
    dsimp only at h2
    obtain ⟨⟨b2, ev2, g2⟩, h3, h4⟩ := Run.bind_eq_ret.1 h2
    simp only [Run.ret.injEq, Prod.mk.injEq] at h4
    obtain ⟨rfl, rfl, rfl⟩ := h4
    exact ih p hb _ _ _ _ h3
  | ok => intro hb; cases hb
  | glitch g =>
    intro hb body body' ev g h
    simp only [runAfter, Run.ret.injEq, Prod.mk.injEq] at h
    rw [← h.2.2]; simp

/-- After the endpoint, everything is flushed, or there is an error response to be sent. -/
theorem runProg_flushed {env : Env} {fuel n : Nat} (a : Prog σ) (body body' : ReqBody ρ) (w w' : Writer) (ev : List Event) (g : Option Glitch)
    (h : runProg env fuel n a body w = .ret (body', w', ev, g)) : w'.Flushed ∨ g ≠ none := by
  induction a generalizing body ev with
  | read k next ih =>
    simp only [runProg] at h
    obtain ⟨⟨b1, p⟩, h1, h2⟩ := Run.bind_eq_ret.1 h
    dsimp only at h2
    obtain ⟨⟨b2, w2, ev2, g2⟩, h3, h4⟩ := Run.bind_eq_ret.1 h2
    simp only [Run.ret.injEq, Prod.mk.injEq] at h4
    obtain ⟨rfl, rfl, rfl, rfl⟩ := h4
    exact ih p b1 ev2 h3
  | send resp onOk onErr =>
    simp only [runProg] at h
    obtain ⟨⟨w1, r⟩, h1, h2⟩ := Run.bind_eq_ret.1 h
    dsimp only at h2
    cases r with
    | running => cases h2
    | err e =>
      obtain ⟨⟨b2, ev2, g2⟩, h3, h4⟩ := Run.bind_eq_ret.1 h2
      simp only [Run.ret.injEq, Prod.mk.injEq] at h4
      obtain ⟨rfl, rfl, rfl, rfl⟩ := h4
      exact .inr (runAfter_failed _ rfl _ _ _ _ h3)
    | ok amt =>
      obtain ⟨⟨b2, ev2, g2⟩, h3, h4⟩ := Run.bind_eq_ret.1 h2
      simp only [Run.ret.injEq, Prod.mk.injEq] at h4
      obtain ⟨rfl, rfl, rfl, rfl⟩ := h4
      exact .inl (sendFully_ok h1)
  | sendFor steps resp onOk onErr onDrop =>
    simp only [runProg] at h
    obtain ⟨⟨w1, r⟩, h1, h2⟩ := Run.bind_eq_ret.1 h
    dsimp only at h2
    cases r with
    | running =>
      obtain ⟨⟨b2, ev2, g2⟩, h3, h4⟩ := Run.bind_eq_ret.1 h2
      simp only [Run.ret.injEq, Prod.mk.injEq] at h4
      obtain ⟨rfl, rfl, rfl, rfl⟩ := h4
      exact .inr (runAfter_failed _ rfl _ _ _ _ h3)
    | err e =>
      obtain ⟨⟨b2, ev2, g2⟩, h3, h4⟩ := Run.bind_eq_ret.1 h2
      simp only [Run.ret.injEq, Prod.mk.injEq] at h4
      obtain ⟨rfl, rfl, rfl, rfl⟩ := h4
      exact .inr (runAfter_failed _ rfl _ _ _ _ h3)
    | ok amt =>
      obtain ⟨⟨b2, ev2, g2⟩, h3, h4⟩ := Run.bind_eq_ret.1 h2
      simp only [Run.ret.injEq, Prod.mk.injEq] at h4
      obtain ⟨rfl, rfl, rfl, rfl⟩ := h4
      exact .inl (sendFully_ok (sendFully_of h1 (by simp)))
  | glitch =>
    simp only [runProg, Run.ret.injEq, Prod.mk.injEq] at h
    obtain ⟨rfl, rfl, rfl, rfl⟩ := h
    exact .inr (by simp)

theorem answerGlitch_flushed {env : Env} {opts : ServerOpts} {fuel n : Nat} {g : Option Glitch} {w w' : Writer} {ev : List Event} (hw : w.Reliable) (hf : w.Flushed ∨ g ≠ none)
    (h : answerGlitch env opts fuel n g w = .ret (w', ev)) : w'.Flushed := by
  unfold answerGlitch at h
  cases g with
  | none =>
    simp only [Run.ret.injEq, Prod.mk.injEq] at h
    obtain ⟨rfl, rfl⟩ := h
    exact hf.resolve_right (by simp)
  | some g =>
    dsimp only at h
    obtain ⟨⟨w1, r⟩, h1, h2⟩ := Run.bind_eq_ret.1 h
    simp only [Run.ret.injEq, Prod.mk.injEq] at h2
    obtain ⟨rfl, rfl⟩ := h2
    exact sendFully_known (by simp [Glitch.intoInnerResponse]) hw h1

theorem failResponse_length {f : DecodeFail} {resp : InnerResponse Cursor} (h : failResponse f = some resp) : resp.length ≠ none := by
  unfold failResponse at h
  split at h <;> cases h <;> simp [plainResponse]

theorem answerFail_flushed {env : Env} {fuel n : Nat} {f : DecodeFail} {w w' : Writer} {ev : List Event} (hw : w.Reliable) (hf : w.Flushed ∨ ∀ e, f ≠ .connectionLost e)
    (h : answerFail env fuel n f w = .ret (w', ev)) : w'.Flushed := by
  unfold answerFail at h
  cases hr : failResponse f with
  | none =>
    rw [hr] at h
    simp only [Run.ret.injEq, Prod.mk.injEq] at h
    obtain ⟨rfl, rfl⟩ := h
    refine hf.resolve_right fun h0 => ?_
    unfold failResponse at hr
    split at hr
    · rename_i e; exact h0 e rfl
    all_goals cases hr
  | some resp =>
    rw [hr] at h
    dsimp only at h
    obtain ⟨⟨w1, r⟩, h1, h2⟩ := Run.bind_eq_ret.1 h
    simp only [Run.ret.injEq, Prod.mk.injEq] at h2
    obtain ⟨rfl, rfl⟩ := h2
    exact sendFully_known (failResponse_length hr) hw h1

/-! ## Decoding -/

theorem writeAllGo_flushed (fuel : Nat) : ∀ {w w' : Writer} {todo : Bytes} {x : WriteAll}, writeAllGo fuel w todo = .ret (w', x) → w'.flushed = w.flushed ∧ (w.Reliable → ∀ e, x ≠ .err e) := by
  induction fuel with
  | zero => intro w w' todo x h; simp [writeAllGo] at h
  | succ fuel ih =>
    intro w w' todo x h
    simp only [writeAllGo] at h
    split at h
    · simp only [Run.ret.injEq, Prod.mk.injEq] at h
      obtain ⟨rfl, rfl⟩ := h
      exact ⟨rfl, by simp⟩
    · rename_i hne
      have hg := w.write_grew todo
      have hf := w.write_flushed todo
      have hl : todo.length ≠ 0 := fun h0 => hne (List.eq_nil_of_length_eq_zero h0)
      have hr : w.Reliable → (∀ x, (w.write todo).2 ≠ .err x) ∧ (w.write todo).2 ≠ .ready 0 := by
        intro hw
        unfold Writer.write
        split
        · exact ⟨by simp, by simpa using hne⟩
        · rename_i n _ hs
          refine ⟨by simp, ?_⟩
          have : n ≠ 0 := by
            rintro rfl
            exact (hw _ (by rw [hs]; exact List.mem_cons_self)).1 rfl
          intro h0
          simp only [WPoll.ready.injEq] at h0
          omega
        · exact ⟨by simp, by simp⟩
        · rename_i e _ hs
          exact absurd rfl ((hw _ (by rw [hs]; exact List.mem_cons_self)).2 e)
      split at h
      · rename_i hw; rw [hw] at hf
        simp only [Run.ret.injEq, Prod.mk.injEq] at h
        obtain ⟨rfl, rfl⟩ := h
        exact ⟨hf, by simp⟩
      · rename_i hw; rw [hw] at hf hr
        simp only [Run.ret.injEq, Prod.mk.injEq] at h
        obtain ⟨rfl, rfl⟩ := h
        exact ⟨hf, fun hw => absurd rfl ((hr hw).1 _)⟩
      · rename_i hw; rw [hw] at hf hr hg
        split at h
        · rename_i h0
          simp only [Run.ret.injEq, Prod.mk.injEq] at h
          obtain ⟨rfl, rfl⟩ := h
          exact ⟨hf, fun hw => absurd (by rw [h0]) (hr hw).2⟩
        · obtain ⟨a, b⟩ := ih h
          exact ⟨by rw [a]; exact hf, fun hw => b (hg.reliable hw)⟩

/-- `decode` ended without a request or a response to be sent. -/
def DecRes.Mute : DecRes ρ → Prop
  | .none _ => True
  | .fail (.connectionLost _) _ => True
  | _ => False

theorem finishDecode_not_mute (uriOk : Bytes → Bool) (pool : Pool) (r : BufRd ρ) (p : Parsed) : ¬ (finishDecode uriOk pool r p).Mute := by
  unfold finishDecode
  dsimp only
  repeat' split
  all_goals exact id

theorem pollInterim_flushed {uriOk : Bytes → Bool} {pool : Pool} {r : BufRd ρ} {p : Parsed} {todo : Bytes} {w w' : Writer} {d : DecPoll ρ}
    (h : pollInterim uriOk pool r p todo w = .ret (w', d)) :
    w'.flushed = w.flushed ∧ (w.Reliable → (∀ x, d = .ready x → ¬ x.Mute) ∧ ∀ f, d = .pending f → ∃ todo, f = .interim r p todo) := by
  unfold pollInterim writeAll at h
  obtain ⟨⟨w1, x⟩, h1, h2⟩ := Run.bind_eq_ret.1 h
  obtain ⟨a, b⟩ := writeAllGo_flushed _ h1
  cases x with
  | pending todo =>
    simp only [Run.ret.injEq, Prod.mk.injEq] at h2
    obtain ⟨rfl, rfl⟩ := h2
    exact ⟨a, fun _ => ⟨fun x hx => (by cases hx), fun f hf => ⟨todo, by cases hf; rfl⟩⟩⟩
  | err e =>
    simp only [Run.ret.injEq, Prod.mk.injEq] at h2
    obtain ⟨rfl, rfl⟩ := h2
    exact ⟨a, fun hw => absurd rfl (b hw e)⟩
  | done =>
    simp only [Run.ret.injEq, Prod.mk.injEq] at h2
    obtain ⟨rfl, rfl⟩ := h2
    exact ⟨a, fun _ => ⟨fun x hx => by cases hx; exact finishDecode_not_mute _ _ _ _, fun f hf => (by cases hf)⟩⟩

/-- `decode` is still reading the head. -/
def DecFut.Reading : DecFut ρ → Prop
  | .head .. => True
  | .interim .. => False

theorem decFut_poll_flushed {uriOk : Bytes → Bool} {pool : Pool} {fuel : Nat} {f : DecFut ρ} {w w' : Writer} {d : DecPoll ρ}
    (h : f.poll uriOk pool fuel w = .ret (w', d)) :
    w'.flushed = w.flushed ∧ (w.Reliable → (∀ x, d = .ready x → x.Mute → f.Reading ∧ w' = w) ∧ ∀ f', d = .pending f' → f'.Reading → f.Reading ∧ w' = w) := by
  cases f with
  | interim r p todo =>
    simp only [DecFut.poll] at h
    obtain ⟨a, b⟩ := pollInterim_flushed h
    refine ⟨a, fun hw => ⟨fun x hx hm => absurd hm ((b hw).1 x hx), fun f' hf hr => ?_⟩⟩
    obtain ⟨t, rfl⟩ := (b hw).2 f' hf
    exact hr.elim
  | head r buf nread =>
    simp only [DecFut.poll] at h
    obtain ⟨hp, h1, h2⟩ := Run.bind_eq_ret.1 h
    have same : ∀ {d' : DecPoll ρ}, (Run.ret (w, d') : Run (Writer × DecPoll ρ)) = .ret (w', d) →
        w'.flushed = w.flushed ∧ (w.Reliable → (∀ x, d = .ready x → x.Mute → (DecFut.head r buf nread).Reading ∧ w' = w) ∧ ∀ f', d = .pending f' → f'.Reading → (DecFut.head r buf nread).Reading ∧ w' = w) := by
      intro d' h
      simp only [Run.ret.injEq, Prod.mk.injEq] at h
      obtain ⟨rfl, rfl⟩ := h
      exact ⟨rfl, fun _ => ⟨fun _ _ _ => ⟨trivial, rfl⟩, fun _ _ _ => ⟨trivial, rfl⟩⟩⟩
    cases hp with
    | pending r1 b1 n1 => exact same h2
    | lost r1 e => exact same h2
    | none r1 => exact same h2
    | head r1 b1 =>
      dsimp only at h2
      split at h2
      · exact same h2
      · obtain ⟨a, b⟩ := pollInterim_flushed h2
        refine ⟨a, fun hw => ⟨fun x hx hm => absurd hm ((b hw).1 x hx), fun f' hf hr => ?_⟩⟩
        obtain ⟨t, rfl⟩ := (b hw).2 f' hf
        exact hr.elim

theorem awaitDecode_flushed {env : Env} {opts : ServerOpts} {fuel : Nat} {pool : Pool} (n : Nat) : ∀ {f : DecFut ρ} {w w' : Writer} {clock clock' : List Bool} {a : Await ρ},
    awaitDecode env opts fuel pool n f w clock = .ret (w', clock', a) →
    w'.flushed = w.flushed ∧ (∀ t ∈ clock', t ∈ clock) ∧ (w.Reliable → (∀ x, a = .ready x → x.Mute → f.Reading ∧ w' = w)) ∧ (∀ io, a = .timedOut io → opts.timeout = true ∧ true ∈ clock) := by
  induction n with
  | zero => intro f w w' clock clock' a h; simp [awaitDecode] at h
  | succ n ih =>
    intro f w w' clock clock' a h
    simp only [awaitDecode] at h
    obtain ⟨⟨w1, p⟩, h1, h2⟩ := Run.bind_eq_ret.1 h
    have gr := decFut_poll_grew h1
    obtain ⟨g1, g2⟩ := decFut_poll_flushed h1
    cases p with
    | ready r =>
      simp only [Run.ret.injEq, Prod.mk.injEq] at h2
      obtain ⟨rfl, rfl, rfl⟩ := h2
      exact ⟨g1, fun _ h => h, fun hw x hx hm => (g2 hw).1 x (by cases hx; rfl) hm, fun io h => by cases h⟩
    | pending f1 =>
      have next : ∀ {c1 : List Bool}, (∀ t ∈ c1, t ∈ clock) → awaitDecode env opts fuel pool n f1 w1 c1 = .ret (w', clock', a) →
          w'.flushed = w.flushed ∧ (∀ t ∈ clock', t ∈ clock) ∧ (w.Reliable → (∀ x, a = .ready x → x.Mute → f.Reading ∧ w' = w)) ∧ (∀ io, a = .timedOut io → opts.timeout = true ∧ true ∈ clock) := by
        intro c1 hc h
        obtain ⟨i1, i2, i3, i4⟩ := ih h
        refine ⟨by rw [i1, g1], fun t ht => hc t (i2 t ht), fun hw x hx hm => ?_, fun io h => ⟨(i4 io h).1, hc _ (i4 io h).2⟩⟩
        obtain ⟨j1, j2⟩ := i3 (gr.reliable hw) x hx hm
        obtain ⟨j3, j4⟩ := (g2 hw).2 f1 rfl j1
        exact ⟨j3, by rw [j2, j4]⟩
      dsimp only at h2
      split at h2
      · rename_i hto
        split at h2
        · simp only [Run.ret.injEq, Prod.mk.injEq] at h2
          obtain ⟨rfl, rfl, rfl⟩ := h2
          exact ⟨g1, fun t ht => List.mem_cons_of_mem _ ht, fun hw x hx => (by cases hx), fun io _ => ⟨hto, List.mem_cons_self⟩⟩
        · exact next (fun t ht => List.mem_cons_of_mem _ ht) h2
        · exact next (fun t ht => by cases ht) h2
      · exact next (fun t ht => ht) h2

/-- One iteration of the accept loop. -/
theorem acceptStep_flushed {env : Env} {opts : ServerOpts} {endpoint : Endpoint σ} {fuel n : Nat} {c c' : Conn ρ} {ev : List Event} {res : Option AcceptRes}
    (hr : c.wr.Reliable) (hf : c.wr.Flushed) (ht : res = some .ok → NoTimeout opts c)
    (h : acceptStep env opts endpoint fuel n c = .ret (c', ev, res)) : c'.wr.Flushed ∧ c'.wr.Reliable ∧ ∀ t ∈ c'.clock, t ∈ c.clock := by
  have hr' := (acceptStep_told h).1.reliable hr
  refine and_comm.1 ⟨⟨hr', ?_⟩, ?_⟩
  all_goals
    unfold acceptStep at h
    obtain ⟨⟨w, clock, a⟩, h1, h2⟩ := Run.bind_eq_ret.1 h
    have g := awaitDecode_grew _ h1
    obtain ⟨i1, i2, i3, i4⟩ := awaitDecode_flushed _ h1
    have hrw := g.reliable hr
    cases a with
    | timedOut io =>
      simp only [Run.ret.injEq, Prod.mk.injEq] at h2
      obtain ⟨rfl, rfl, rfl⟩ := h2
      first
        | exact i2
        | (exfalso
           obtain ⟨j1, j2⟩ := i4 io rfl
           rcases ht rfl with h0 | h0
           · rw [j1] at h0; cases h0
           · have := h0 _ j2; cases this)
    | ready r =>
      cases r with
      | none io =>
        simp only [Run.ret.injEq, Prod.mk.injEq] at h2
        obtain ⟨rfl, rfl, rfl⟩ := h2
        first
          | exact i2
          | (obtain ⟨-, h0⟩ := i3 hr _ rfl trivial
             rw [h0]; exact hf)
      | fail f io =>
        dsimp only at h2
        obtain ⟨⟨w', ev'⟩, h3, h4⟩ := Run.bind_eq_ret.1 h2
        simp only [Run.ret.injEq, Prod.mk.injEq] at h4
        obtain ⟨rfl, rfl, rfl⟩ := h4
        first
          | exact i2
          | (refine answerFail_flushed hrw ?_ h3
             by_cases hl : ∃ e, f = .connectionLost e
             · obtain ⟨e, rfl⟩ := hl
               obtain ⟨-, h0⟩ := i3 hr _ rfl trivial
               rw [h0]; exact .inl hf
             · exact .inr fun e he => hl ⟨e, he⟩)
      | request req =>
        dsimp only at h2
        obtain ⟨⟨body, w1, ev1, gl⟩, h3, h4⟩ := Run.bind_eq_ret.1 h2
        dsimp only at h4
        obtain ⟨⟨w2, ev2⟩, h5, h6⟩ := Run.bind_eq_ret.1 h4
        simp only [Run.ret.injEq, Prod.mk.injEq] at h6
        obtain ⟨rfl, rfl, rfl⟩ := h6
        first
          | exact i2
          | exact answerGlitch_flushed ((runProg_told _ _ _ _ _ _ _ h3).1.reliable hrw) (runProg_flushed _ _ _ _ _ _ _ h3) h5

theorem acceptGo_flushed {env : Env} {opts : ServerOpts} {endpoint : Endpoint σ} {fuel : Nat} (it : Nat) : ∀ {n : Nat} {c c' : Conn ρ} {ev : List Event} {res : AcceptRes},
    c.wr.Reliable → c.wr.Flushed → (res = .ok → NoTimeout opts c) →
    acceptGo env opts endpoint fuel it n c = .ret (c', ev, res) → c'.wr.Flushed := by
  induction it with
  | zero =>
    intro n c c' ev res hr hf ht h
    simp only [acceptGo, Run.ret.injEq, Prod.mk.injEq] at h
    obtain ⟨rfl, rfl, rfl⟩ := h
    exact hf
  | succ it ih =>
    intro n c c' ev res hr hf ht h
    simp only [acceptGo] at h
    obtain ⟨⟨c1, ev1, r1⟩, h1, h2⟩ := Run.bind_eq_ret.1 h
    cases r1 with
    | some r =>
      simp only [Run.ret.injEq, Prod.mk.injEq] at h2
      obtain ⟨rfl, rfl, rfl⟩ := h2
      exact (acceptStep_flushed hr hf (fun h => ht (by injection h)) h1).1
    | none =>
      obtain ⟨⟨c2, ev2, r2⟩, h3, h4⟩ := Run.bind_eq_ret.1 h2
      simp only [Run.ret.injEq, Prod.mk.injEq] at h4
      obtain ⟨rfl, rfl, rfl⟩ := h4
      obtain ⟨a, b, d⟩ := acceptStep_flushed hr hf (fun h => by cases h) h1
      exact ih b a (fun h => (ht h).imp id fun h0 t ht => h0 t (d t ht)) h3

end

end Tophat
