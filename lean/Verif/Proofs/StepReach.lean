import Verif.Proofs.Advance
/-! An iteration of the accept loop does nothing to the read half but read from it. -/

set_option linter.unusedSectionVars false

namespace Tophat
open Spec

/-- `r'` is `r` after some reads, at least one of which did not report the end of the stream. -/
def Progress {ρ : Type} [AsyncRead ρ] (r r' : ρ) : Prop :=
  ∃ r1 k p, pollRead r k = .ret (r1, p) ∧ 0 < k ∧ p ≠ .data [] ∧ Reach r1 r'

section
variable {ρ : Type} [AsyncRead ρ]

theorem Progress.reach {r r' : ρ} (h : Progress r r') : Reach r r' := by
  obtain ⟨r1, k, p, h1, _, _, h2⟩ := h; exact .step h1 h2

theorem Progress.trans {a b c : ρ} (h : Progress a b) (k : Reach b c) : Progress a c := by
  obtain ⟨r1, n, p, h1, h0, h2, h3⟩ := h; exact ⟨r1, n, p, h1, h0, h2, h3.trans k⟩

theorem fill_reach {b b' : BufRd ρ} {p : RPoll} (h : pollFill b = .ret (b', p)) :
    Reach b.inner b'.inner ∧ (b.buf = [] → p ≠ .data [] → Progress b.inner b'.inner) := by
  have h' : b.fill = .ret (b', p) := h
  unfold BufRd.fill at h'
  split at h'
  · obtain ⟨⟨i, q⟩, h1, h2⟩ := Run.bind_eq_ret.1 h'
    simp only [Run.ret.injEq] at h2
    have e1 : b'.inner = i := by
      have := congrArg (fun x => x.1.inner) h2
      rw [← this]; cases q <;> rfl
    have e2 : p = q := by
      have : (BufRd.filled i q).2 = p := congrArg (fun x => x.2) h2
      rw [← this]; cases q <;> rfl
    rw [e1, e2]
    exact ⟨.one h1, fun _ hp => ⟨i, _, q, h1, by decide, hp, .refl⟩⟩
  · rename_i hb
    simp only [Run.ret.injEq, Prod.mk.injEq] at h'
    rw [← h'.1]
    exact ⟨.refl, fun h => absurd h hb⟩

/-- The buffered connection in the result of reading a head. -/
def HeadPoll.buf {ρ : Type} : HeadPoll ρ → BufRd ρ
  | .pending r _ _ => r
  | .lost r _ => r
  | .none r => r
  | .head r _ => r

theorem headGo_reach (fuel : Nat) : ∀ {r : BufRd ρ} {buf : Bytes} {nread : Nat} {h : HeadPoll ρ}, headGo fuel r buf nread = .ret h →
    Reach r.inner h.buf.inner ∧ (r.buf = [] → nread = 0 → (∀ r, h ≠ .none r) → Progress r.inner h.buf.inner) := by
  induction fuel with
  | zero => intro r buf nread h hh; simp [headGo] at hh
  | succ fuel ih =>
    intro r buf nread h hh
    simp only [headGo] at hh
    obtain ⟨⟨r1, p⟩, h1, h2⟩ := Run.bind_eq_ret.1 hh
    obtain ⟨f1, f2⟩ := fill_reach h1
    cases p with
    | pending =>
      simp only [Run.ret.injEq] at h2
      subst h2
      exact ⟨f1, fun hb _ _ => f2 hb (by simp)⟩
    | err e =>
      simp only [Run.ret.injEq] at h2
      subst h2
      exact ⟨f1, fun hb _ _ => f2 hb (by simp)⟩
    | data bs =>
      dsimp only at h2
      split at h2
      · rename_i line hl
        have hne : RPoll.data bs ≠ .data [] := by
          rintro h; injection h with h; subst h; simp [lineOf] at hl
        split at h2
        · simp only [Run.ret.injEq] at h2
          subst h2
          exact ⟨f1, fun hb _ _ => f2 hb hne⟩
        · have := (ih h2).1
          exact ⟨f1.trans this, fun hb _ _ => (f2 hb hne).trans this⟩
      · split at h2
        · split at h2
          · simp only [Run.ret.injEq] at h2
            subst h2
            exact ⟨f1, fun _ _ h => absurd rfl (h _)⟩
          · rename_i hn
            split at h2
            · simp only [Run.ret.injEq] at h2
              subst h2
              exact ⟨f1, fun _ h _ => absurd h hn⟩
            · exact ⟨f1.trans (ih h2).1, fun _ h _ => absurd h hn⟩
        · rename_i hb
          have := (ih h2).1
          exact ⟨f1.trans this, fun hb' _ _ => (f2 hb' (by simpa using hb)).trans this⟩

/-- The connection in the result of `decode`. -/
def DecRes.io {ρ : Type} : DecRes ρ → ρ
  | .none io => io
  | .fail _ io => io
  | .request r => r.body.io

def DecPoll.io {ρ : Type} : DecPoll ρ → ρ
  | .pending f => f.io
  | .ready r => r.io

theorem finishDecode_io {uriOk : Bytes → Bool} {pool : Pool} {r : BufRd ρ} {p : Parsed} : (finishDecode uriOk pool r p).io = r.inner := by
  unfold finishDecode
  split
  · dsimp only
    split
    · split <;> rfl
    · rfl
  · rfl

theorem finishDecode_not_none {uriOk : Bytes → Bool} {pool : Pool} {r : BufRd ρ} {p : Parsed} (io : ρ) : finishDecode uriOk pool r p ≠ .none io := by
  unfold finishDecode
  split
  · dsimp only
    split
    · split <;> simp
    · simp
  · simp

theorem pollInterim_io {uriOk : Bytes → Bool} {pool : Pool} {r : BufRd ρ} {p : Parsed} {todo : Bytes} {w w' : Writer} {d : DecPoll ρ}
    (h : pollInterim uriOk pool r p todo w = .ret (w', d)) : d.io = r.inner ∧ ∀ io, d ≠ .ready (.none io) := by
  unfold pollInterim at h
  obtain ⟨⟨w1, x⟩, _, h2⟩ := Run.bind_eq_ret.1 h
  cases x with
  | pending t =>
    simp only [Run.ret.injEq, Prod.mk.injEq] at h2
    rw [← h2.2]; exact ⟨rfl, by simp⟩
  | err e =>
    simp only [Run.ret.injEq, Prod.mk.injEq] at h2
    rw [← h2.2]; exact ⟨rfl, by simp⟩
  | done =>
    simp only [Run.ret.injEq, Prod.mk.injEq] at h2
    rw [← h2.2]
    exact ⟨finishDecode_io, fun io h => finishDecode_not_none io (by injection h)⟩

/-- The future is before its first read. -/
def DecFut.Fresh (f : DecFut ρ) : Prop := ∃ io, f = .start io

theorem decFut_poll_reach {uriOk : Bytes → Bool} {pool : Pool} {fuel : Nat} {f : DecFut ρ} {w w' : Writer} {d : DecPoll ρ}
    (h : f.poll uriOk pool fuel w = .ret (w', d)) :
    Reach f.io d.io ∧ (f.Fresh → (∀ io, d ≠ .ready (.none io)) → Progress f.io d.io) := by
  cases f with
  | interim r p todo =>
    simp only [DecFut.poll] at h
    rw [(pollInterim_io h).1]
    exact ⟨.refl, fun ⟨io, h⟩ => by cases h⟩
  | head r buf nread =>
    simp only [DecFut.poll] at h
    obtain ⟨hp, h1, h2⟩ := Run.bind_eq_ret.1 h
    obtain ⟨g1, g2⟩ := headGo_reach fuel h1
    have fresh : (DecFut.head r buf nread).Fresh → r.buf = [] ∧ nread = 0 := by
      rintro ⟨io, h⟩
      unfold DecFut.start at h
      injection h with h3 h4 h5
      subst h3
      exact ⟨rfl, h5⟩
    have key : d.io = hp.buf.inner → ((∃ r, hp = .none r) → ∃ io, d = .ready (.none io)) →
        Reach r.inner d.io ∧ ((DecFut.head r buf nread).Fresh → (∀ io, d ≠ .ready (.none io)) → Progress r.inner d.io) := by
      intro e1 e2
      rw [e1]
      exact ⟨g1, fun hf hn => g2 (fresh hf).1 (fresh hf).2 (fun r' hr => by obtain ⟨io, h⟩ := e2 ⟨r', hr⟩; exact hn io h)⟩
    apply key
    · cases hp with
      | pending r1 b1 n1 => simp only [Run.ret.injEq, Prod.mk.injEq] at h2; rw [← h2.2]; rfl
      | lost r1 e => simp only [Run.ret.injEq, Prod.mk.injEq] at h2; rw [← h2.2]; rfl
      | none r1 => simp only [Run.ret.injEq, Prod.mk.injEq] at h2; rw [← h2.2]; rfl
      | head r1 b1 =>
        dsimp only at h2
        split at h2
        · simp only [Run.ret.injEq, Prod.mk.injEq] at h2; rw [← h2.2]; rfl
        · exact (pollInterim_io h2).1
    · rintro ⟨r1, rfl⟩
      simp only [Run.ret.injEq, Prod.mk.injEq] at h2
      exact ⟨_, h2.2.symm⟩

/-- The connection after `decode` has been awaited. -/
def Await.io {ρ : Type} : Await ρ → ρ
  | .ready r => r.io
  | .timedOut io => io

theorem awaitDecode_reach {env : Env} {opts : ServerOpts} {fuel : Nat} {pool : Pool} (n : Nat) : ∀ {f : DecFut ρ} {w w' : Writer} {clock clock' : List Bool} {a : Await ρ},
    awaitDecode env opts fuel pool n f w clock = .ret (w', clock', a) →
    Reach f.io a.io ∧ (f.Fresh → (∀ io, a ≠ .ready (.none io)) → Progress f.io a.io) := by
  induction n with
  | zero => intro f w w' clock clock' a h; simp [awaitDecode] at h
  | succ n ih =>
    intro f w w' clock clock' a h
    simp only [awaitDecode] at h
    obtain ⟨⟨w1, p⟩, h1, h2⟩ := Run.bind_eq_ret.1 h
    obtain ⟨g1, g2⟩ := decFut_poll_reach h1
    cases p with
    | ready r =>
      simp only [Run.ret.injEq, Prod.mk.injEq] at h2
      rw [← h2.2.2]
      exact ⟨g1, fun hf hn => g2 hf (fun io h => hn io (by injection h with h; rw [h]))⟩
    | pending f1 =>
      have step : ∀ {w clock}, awaitDecode env opts fuel pool n f1 w clock = .ret (w', clock', a) →
          Reach f.io a.io ∧ (f.Fresh → (∀ io, a ≠ .ready (.none io)) → Progress f.io a.io) := by
        intro w clock h
        have := (ih h).1
        exact ⟨g1.trans this, fun hf _ => (g2 hf (by simp)).trans this⟩
      dsimp only at h2
      split at h2
      · split at h2
        · simp only [Run.ret.injEq, Prod.mk.injEq] at h2
          rw [← h2.2.2]
          exact ⟨g1, fun hf _ => g2 hf (by simp)⟩
        · exact step h2
        · exact step h2
      · exact step h2

variable {σ : Type} [AsyncBufRead σ]

/-- One iteration of the accept loop. -/
theorem acceptStep_reach {env : Env} {opts : ServerOpts} {endpoint : Endpoint σ} {fuel n : Nat} {c c' : Conn ρ} {ev : List Event} {res : Option AcceptRes}
    (h : acceptStep env opts endpoint fuel n c = .ret (c', ev, res)) :
    Reach c.rd c'.rd ∧ (res = none → Progress c.rd c'.rd) := by
  unfold acceptStep at h
  obtain ⟨⟨w, clock, a⟩, h1, h2⟩ := Run.bind_eq_ret.1 h
  obtain ⟨g1, g2⟩ := awaitDecode_reach _ h1
  have hfresh : (DecFut.start c.rd).Fresh := ⟨_, rfl⟩
  replace g2 := g2 hfresh
  have hio : (DecFut.start c.rd).io = c.rd := rfl
  rw [hio] at g1 g2
  cases a with
  | timedOut io =>
    simp only [Run.ret.injEq, Prod.mk.injEq] at h2
    obtain ⟨rfl, rfl, rfl⟩ := h2
    exact ⟨g1, by simp⟩
  | ready r =>
    cases r with
    | none io =>
      simp only [Run.ret.injEq, Prod.mk.injEq] at h2
      obtain ⟨rfl, rfl, rfl⟩ := h2
      exact ⟨g1, by simp⟩
    | fail f io =>
      dsimp only at h2
      obtain ⟨⟨w', ev'⟩, _, h4⟩ := Run.bind_eq_ret.1 h2
      simp only [Run.ret.injEq, Prod.mk.injEq] at h4
      obtain ⟨rfl, rfl, rfl⟩ := h4
      exact ⟨g1, fun _ => g2 (by simp)⟩
    | request req =>
      dsimp only at h2
      obtain ⟨⟨body, w1, ev1, g⟩, h3, h4⟩ := Run.bind_eq_ret.1 h2
      dsimp only at h4
      obtain ⟨⟨w2, ev2⟩, h5, h6⟩ := Run.bind_eq_ret.1 h4
      simp only [Run.ret.injEq, Prod.mk.injEq] at h6
      obtain ⟨rfl, rfl, rfl⟩ := h6
      have hr := (runProg_reach _ _ _ _ _ _ _ h3).buf
      rw [← ReqBody.io_eq, ← ReqBody.io_eq] at hr
      exact ⟨g1.trans hr, fun _ => (g2 (by simp)).trans hr⟩

/-! ## Scripts shrink -/

/-- Events and bytes of a script. -/
def Script.size : Script → Nat
  | [] => 0
  | .data bs :: s => bs.length + 1 + Script.size s
  | _ :: s => Script.size s + 1

theorem Script.read_size (s : Script) (k : Nat) : Script.size (s.read k).1 ≤ Script.size s ∧
    (0 < k → (s.read k).2 ≠ .data [] → Script.size (s.read k).1 < Script.size s) := by
  induction s with
  | nil => simp [Script.read]
  | cons e s ih =>
    cases e with
    | pending => simp only [Script.read, Script.size]; omega
    | err e => simp only [Script.read, Script.size]; omega
    | data bs =>
      simp only [Script.read]
      split
      · simp only [Script.size]
        exact ⟨by have := ih.1; omega, fun h1 h2 => by have := ih.2 h1 h2; omega⟩
      · rename_i hb
        split
        · simp only [Script.size]; omega
        · simp only [Script.size, List.length_drop]
          omega

theorem Reach.size {s s' : Script} (h : Reach s s') : Script.size s' ≤ Script.size s := by
  induction h with
  | refl => exact Nat.le_refl _
  | step h _ ih =>
    rename_i r r1 r' k p _
    have h' : Run.ret (Script.read r k) = .ret (r1, p) := h
    injection h' with h'
    have := (Script.read_size r k).1
    rw [h'] at this
    dsimp only at this
    omega

theorem Script.read_total (s : Script) (k : Nat) : Script.total (s.read k).1 ≤ Script.total s := by
  induction s with
  | nil => simp [Script.read]
  | cons e s ih =>
    cases e with
    | pending => simp [Script.read, Script.total]
    | err e => simp [Script.read, Script.total]
    | data bs =>
      simp only [Script.read]
      split
      · simp only [Script.total]; omega
      · split
        · simp only [Script.total]; omega
        · simp only [Script.total, List.length_drop]; omega

theorem Reach.total {s s' : Script} (h : Reach s s') : Script.total s' ≤ Script.total s := by
  induction h with
  | refl => exact Nat.le_refl _
  | step h _ ih =>
    rename_i r r1 r' k p _
    have h' : Run.ret (Script.read r k) = .ret (r1, p) := h
    injection h' with h'
    have := Script.read_total r k
    rw [h'] at this
    dsimp only at this
    omega

theorem Script.bytes_total (s : Script) : (Script.bytes s).length ≤ Script.total s := by
  induction s with
  | nil => simp [Script.bytes]
  | cons e s ih => cases e <;> simp [Script.bytes, Script.total] <;> omega

theorem Progress.size {s s' : Script} (h : Progress s s') : Script.size s' < Script.size s := by
  obtain ⟨r1, k, p, h1, h0, h2, h3⟩ := h
  have h' : Run.ret (Script.read s k) = .ret (r1, p) := h1
  injection h' with h'
  have := (Script.read_size s k).2 h0
  rw [h'] at this
  have := this h2
  dsimp only at this
  have := h3.size
  omega

end

end Tophat
