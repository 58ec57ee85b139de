import Verif.Spec.Shared
import Verif.Proofs.Pipelined
/-! A body that is read by a task of its own. -/

set_option linter.unusedSectionVars false
set_option synthInstance.maxSize 1000

namespace Tophat
open Spec

section
variable {ρ : Type} [AsyncRead ρ]

theorem DecFut.mapIo_self (f : DecFut ρ) : (f.mapIo fun _ => f.io) = f := by cases f <;> rfl

/-- The body is in the buffer of the task: what is left of it is `left`. -/
inductive HeldBody (left : Bytes) : ρ → ReqBody ρ → Prop
  | mk {io : ρ} {y z : Bytes} {l : Nat} : l ≤ y.length → y.take l = left → HeldBody left io (.fixed ⟨⟨io, y ++ z⟩, l⟩)

theorem HeldBody.mapIo {left : Bytes} {io io' : ρ} {b : ReqBody ρ} (h : HeldBody left io b) : HeldBody left io' (b.mapIo fun _ => io') := by
  cases h with
  | mk h1 h2 => exact .mk h1 h2

theorem HeldBody.io {left : Bytes} {io : ρ} {b : ReqBody ρ} (h : HeldBody left io b) : b.io = io := by cases h; rfl

theorem HeldBody.read {left : Bytes} {io : ρ} {b : ReqBody ρ} (h : HeldBody left io b) (k : Nat) :
    ∃ b', pollRead b k = .ret (b', .data (left.take k)) ∧ HeldBody (left.drop k) io b' := by
  cases h with
  | mk h1 h2 =>
    rename_i y z l
    subst h2
    refine ⟨.fixed ⟨⟨io, y.drop (min k l) ++ z⟩, l - min k l⟩, ?_, ?_⟩
    · rw [read_in io y z h1 k, List.take_take]
    · refine .mk (by simp; omega) ?_
      rcases Nat.le_total k l with h | h
      · rw [Nat.min_eq_left h, List.drop_take]
      · rw [Nat.min_eq_right h, List.drop_of_length_le (l := y.take l) (by simp; omega)]
        simp

theorem HeldBody.runAfter {f : Bool} (a : After f) : ∀ {left : Bytes} {io : ρ} {b b' : ReqBody ρ} {ev : List Event} {g : Option Glitch}, HeldBody left io b → runAfter a b = .ret (b', ev, g) →
    ∃ left', HeldBody left' io b' ∧ received ((bodyReads ev).map (·.2)) ++ left' = left := by
  induction a with
  | read k next ih =>
    intro left io b b' ev g hb h
    simp only [Tophat.runAfter] at h
    obtain ⟨b1, h1, h2⟩ := hb.read k
    rw [h1] at h
    simp only [Run.ret_bind] at h
    obtain ⟨⟨b2, ev2, g2⟩, h3, h4⟩ := Run.bind_eq_ret.1 h
    simp only [Run.ret.injEq, Prod.mk.injEq] at h4
    obtain ⟨rfl, rfl, rfl⟩ := h4
    obtain ⟨left', k1, k2⟩ := ih _ h2 h3
    exact ⟨left', k1, by simp [bodyReads, received, k2]⟩
  | ok =>
    intro left io b b' ev g hb h
    simp only [Tophat.runAfter, Run.ret.injEq, Prod.mk.injEq] at h
    obtain ⟨rfl, rfl, rfl⟩ := h
    exact ⟨left, hb, rfl⟩
  | glitch =>
    intro left io b b' ev g hb h
    simp only [Tophat.runAfter, Run.ret.injEq, Prod.mk.injEq] at h
    obtain ⟨rfl, rfl, rfl⟩ := h
    exact ⟨left, hb, rfl⟩

variable {σ : Type} [AsyncBufRead σ]

theorem HeldBody.runProg {env : Env} {fuel n : Nat} (a : Prog σ) : ∀ {left : Bytes} {io : ρ} {b b' : ReqBody ρ} {w w' : Writer} {ev : List Event} {g : Option Glitch}, HeldBody left io b →
    runProg env fuel n a b w = .ret (b', w', ev, g) → ∃ left', HeldBody left' io b' ∧ received ((bodyReads ev).map (·.2)) ++ left' = left := by
  induction a with
  | read k next ih =>
    intro left io b b' w w' ev g hb h
    simp only [Tophat.runProg] at h
    obtain ⟨b1, h1, h2⟩ := hb.read k
    rw [h1] at h
    simp only [Run.ret_bind] at h
    obtain ⟨⟨b2, w2, ev2, g2⟩, h3, h4⟩ := Run.bind_eq_ret.1 h
    simp only [Run.ret.injEq, Prod.mk.injEq] at h4
    obtain ⟨rfl, rfl, rfl, rfl⟩ := h4
    obtain ⟨left', k1, k2⟩ := ih _ h2 h3
    exact ⟨left', k1, by simp [bodyReads, received, k2]⟩
  | send resp onOk onErr =>
    intro left io b b' w w' ev g hb h
    simp only [Tophat.runProg] at h
    obtain ⟨⟨w1, r⟩, h1, h2⟩ := Run.bind_eq_ret.1 h
    dsimp only at h2
    cases r with
    | running => cases h2
    | err e =>
      obtain ⟨⟨b2, ev2, g2⟩, h3, h4⟩ := Run.bind_eq_ret.1 h2
      simp only [Run.ret.injEq, Prod.mk.injEq] at h4
      obtain ⟨rfl, rfl, rfl, rfl⟩ := h4
      exact HeldBody.runAfter _ (ev := ev2) hb h3
    | ok amt =>
      obtain ⟨⟨b2, ev2, g2⟩, h3, h4⟩ := Run.bind_eq_ret.1 h2
      simp only [Run.ret.injEq, Prod.mk.injEq] at h4
      obtain ⟨rfl, rfl, rfl, rfl⟩ := h4
      exact HeldBody.runAfter _ (ev := ev2) hb h3
  | sendFor steps resp onOk onErr onDrop =>
    intro left io b b' w w' ev g hb h
    simp only [Tophat.runProg] at h
    obtain ⟨⟨w1, r⟩, h1, h2⟩ := Run.bind_eq_ret.1 h
    dsimp only at h2
    cases r with
    | running =>
      obtain ⟨⟨b2, ev2, g2⟩, h3, h4⟩ := Run.bind_eq_ret.1 h2
      simp only [Run.ret.injEq, Prod.mk.injEq] at h4
      obtain ⟨rfl, rfl, rfl, rfl⟩ := h4
      exact HeldBody.runAfter _ (ev := ev2) hb h3
    | err e =>
      obtain ⟨⟨b2, ev2, g2⟩, h3, h4⟩ := Run.bind_eq_ret.1 h2
      simp only [Run.ret.injEq, Prod.mk.injEq] at h4
      obtain ⟨rfl, rfl, rfl, rfl⟩ := h4
      exact HeldBody.runAfter _ (ev := ev2) hb h3
    | ok amt =>
      obtain ⟨⟨b2, ev2, g2⟩, h3, h4⟩ := Run.bind_eq_ret.1 h2
      simp only [Run.ret.injEq, Prod.mk.injEq] at h4
      obtain ⟨rfl, rfl, rfl, rfl⟩ := h4
      exact HeldBody.runAfter _ (ev := ev2) hb h3
  | glitch =>
    intro left io b b' w w' ev g hb h
    simp only [Tophat.runProg, Run.ret.injEq, Prod.mk.injEq] at h
    obtain ⟨rfl, rfl, rfl, rfl⟩ := h
    exact ⟨left, hb, rfl⟩

/-! ## The task beside the server -/

/-- The state with the task, and that of the server alone. -/
structure Beside (left : Bytes) (s s0 : Shared ρ) : Prop where
  fut : s.fut = s0.fut
  wr : s.wr = s0.wr
  iter : s.iter = s0.iter
  over : s.over = s0.over
  held : HeldBody left s.fut.io s.body

theorem Beside.serverStep {env : Env} {opts : ServerOpts} {endpoint : Endpoint σ} {fuel : Nat} {left : Bytes} {s s0 : Shared ρ} (h : Beside left s s0) :
    RunRel (fun a a0 => Beside left a.1 a0.1 ∧ (∃ ev, a.2 = .server ev) ∧ a.2 = a0.2) (s.serverStep env opts endpoint fuel) (s0.serverStep env opts endpoint fuel) := by
  obtain ⟨body, fut, wr, iter, over⟩ := s
  obtain ⟨body0, fut0, wr0, iter0, over0⟩ := s0
  obtain ⟨a, b, c, d, e⟩ := h
  dsimp only at a b c d e
  subst a b c d
  unfold Shared.serverStep
  dsimp only
  cases over with
  | some r => exact ⟨⟨rfl, rfl, rfl, rfl, e⟩, ⟨_, rfl⟩, rfl⟩
  | none =>
    dsimp only
    refine RunRel.bind_same ?_
    rintro ⟨w, p⟩
    cases p with
    | pending f => exact ⟨⟨rfl, rfl, rfl, rfl, e.mapIo⟩, ⟨_, rfl⟩, rfl⟩
    | ready r =>
      cases r with
      | none io => exact ⟨⟨rfl, rfl, rfl, rfl, e.mapIo⟩, ⟨_, rfl⟩, rfl⟩
      | fail f io =>
        dsimp only
        refine RunRel.bind_same ?_
        rintro ⟨w', ev⟩
        cases failError f with
        | some x => exact ⟨⟨rfl, rfl, rfl, rfl, e.mapIo⟩, ⟨_, rfl⟩, rfl⟩
        | none => exact ⟨⟨rfl, rfl, rfl, rfl, e.mapIo⟩, ⟨_, rfl⟩, rfl⟩
      | request req =>
        dsimp only
        refine RunRel.bind_same ?_
        rintro ⟨b1, w1, ev1, g⟩
        dsimp only
        refine RunRel.bind_same ?_
        rintro ⟨w2, ev2⟩
        exact ⟨⟨rfl, rfl, rfl, rfl, e.mapIo⟩, ⟨_, rfl⟩, rfl⟩

theorem Beside.taskStep {left : Bytes} {s s0 : Shared ρ} (h : Beside left s s0) (k : Nat) :
    ∃ s', s.taskStep k = .ret (s', .task k (.data (left.take k))) ∧ Beside (left.drop k) s' s0 := by
  obtain ⟨b', h1, h2⟩ := h.held.read k
  refine ⟨_, by unfold Shared.taskStep; rw [h1]; rfl, ?_⟩
  have : (s.fut.mapIo fun _ => b'.io) = s.fut := by rw [h2.io]; exact s.fut.mapIo_self
  refine ⟨?_, h.wr, h.iter, h.over, ?_⟩
  · dsimp only; rw [this]; exact h.fut
  · dsimp only; rw [this]; exact h2

theorem Beside.run {env : Env} {opts : ServerOpts} {endpoint : Endpoint σ} {fuel : Nat} (ts : List Turn) : ∀ {left : Bytes} {s s0 : Shared ρ}, Beside left s s0 →
    RunRel (fun a a0 => taskReads a.2 = slices left (taskSizes ts) ∧ serverSeen a.2 = serverSeen a0.2 ∧ a.1.over = a0.1.over) (s.run env opts endpoint fuel ts) (s0.run env opts endpoint fuel (serverOnly ts)) := by
  induction ts with
  | nil => intro left s s0 h; exact ⟨rfl, rfl, h.over⟩
  | cons t ts ih =>
    intro left s s0 h
    cases t with
    | task k =>
      obtain ⟨s', h1, h2⟩ := h.taskStep k
      simp only [Shared.run, Shared.step, h1, Run.ret_bind, serverOnly, taskSizes, slices]
      have := ih h2
      generalize s0.run env opts endpoint fuel (serverOnly ts) = y at this
      cases hx : s'.run env opts endpoint fuel ts with
      | panic => rw [hx] at this; cases y <;> first | exact this.elim | trivial
      | diverge => rw [hx] at this; cases y <;> first | exact this.elim | trivial
      | ret a =>
        rw [hx] at this
        cases y with
        | panic => exact this
        | diverge => exact this
        | ret a0 =>
          obtain ⟨g1, g2, g3⟩ := this
          refine ⟨?_, ?_, g3⟩
          · simp only [taskReads, g1]
          · simpa only [serverSeen] using g2
    | server =>
      simp only [Shared.run, Shared.step, serverOnly, taskSizes]
      refine h.serverStep.bind ?_
      rintro ⟨s1, x⟩ ⟨s1', x'⟩ ⟨g1, ⟨ev, g2⟩, g3⟩
      dsimp only at g1 g2 g3
      subst g2
      subst g3
      refine (ih g1).bind ?_
      rintro ⟨s2, xs⟩ ⟨s2', xs'⟩ ⟨k1, k2, k3⟩
      exact ⟨by simpa only [taskReads] using k1, by simp only [serverSeen]; rw [k2], k3⟩

/-! ## The beginning -/

theorem begin_held {env : Env} {opts : ServerOpts} {endpoint : Endpoint σ} {fuel n : Nat} {io : ρ} {h x z : Bytes} {c : Conn ρ} {s : Shared ρ} {ev : List Event}
    (hh : FirstHead h h) (hb : HasBody env.uriOk h x) (h0 : pollRead c.rd bufRdCap = .ret (io, .data (h ++ (x ++ z))))
    (hs : Shared.begin env opts endpoint fuel n c = .ret (some (s, ev))) :
    ∃ head l left, calls ev = [(head, some l)] ∧ (∃ i m t fs, Judged env.uriOk h (.serve i m t fs (some l))) ∧ l ≤ x.length ∧ received ((bodyReads ev).map (·.2)) ++ left = x.take l ∧
      HeldBody left io s.body ∧ s.fut = DecFut.start io ∧ s.over = none ∧ s.iter = n + 1 := by
  have hne : h ≠ [] := by
    rintro rfl
    obtain ⟨q, hq⟩ := hh.2.1
    simp at hq
  unfold Shared.begin at hs
  rw [start_behind h0 (by simp [hne])] at hs
  have ha := awaitDecode_behind (opts := opts) (fuel := fuel) (pool := env.pool n) hh hb fuel (w := c.wr) (clock := c.clock) (FutBehind.head (buf := []) (io := io) (nread := 0) (z := z) (z' := z) rfl hne)
  obtain ⟨⟨w, cl, a⟩, h1, h2⟩ := Run.bind_eq_ret.1 hs
  rw [h1] at ha
  obtain ⟨-, -, ha⟩ := ha
  dsimp only at ha h2
  obtain ⟨a', ha⟩ : ∃ a', AwaitBehind env.uriOk io h x a a' := ⟨a, ha⟩
  cases ha with
  | timedOut => cases h2
  | ready hr =>
    cases hr with
    | fail f => cases h2
    | request hl hj =>
      rename_i head z1 z2 l
      dsimp only at h2
      obtain ⟨⟨body1, w1, ev1, g1⟩, h3, h4⟩ := Run.bind_eq_ret.1 h2
      dsimp only at h4
      obtain ⟨⟨w2, ev2⟩, h5, h6⟩ := Run.bind_eq_ret.1 h4
      simp only [Run.ret.injEq, Option.some.injEq, Prod.mk.injEq] at h6
      obtain ⟨rfl, rfl⟩ := h6
      obtain ⟨left, k1, k2⟩ := HeldBody.runProg _ (HeldBody.mk (io := io) (z := z1) hl rfl) h3
      refine ⟨head, l, left, ?_, hj, hl, ?_, k1, ?_, rfl, rfl⟩
      · rw [calls_append, calls_interimEvent, calls, calls_append, runProg_calls _ _ _ _ _ _ _ h3, answerGlitch_calls h5]; rfl
      · rw [bodyReads_append, bodyReads_interimEvent, bodyReads, bodyReads_append, answerGlitch_reads h5]
        · simpa using k2
        all_goals simp
      · dsimp only; rw [k1.io]

/-! ## The server alone -/

theorem serverSeen_append (a b : List TurnSeen) : serverSeen (a ++ b) = serverSeen a ++ serverSeen b := by
  induction a with
  | nil => rfl
  | cons x a ih => cases x <;> simp [serverSeen, ih]

theorem run_append {env : Env} {opts : ServerOpts} {endpoint : Endpoint σ} {fuel : Nat} (as bs : List Turn) : ∀ {s s1 s2 : Shared ρ} {l1 l2 : List TurnSeen},
    s.run env opts endpoint fuel as = .ret (s1, l1) → s1.run env opts endpoint fuel bs = .ret (s2, l2) → s.run env opts endpoint fuel (as ++ bs) = .ret (s2, l1 ++ l2) := by
  induction as with
  | nil =>
    intro s s1 s2 l1 l2 h1 h2
    simp only [Shared.run, Run.ret.injEq, Prod.mk.injEq] at h1
    obtain ⟨rfl, rfl⟩ := h1
    exact h2
  | cons t as ih =>
    intro s s1 s2 l1 l2 h1 h2
    simp only [Shared.run, List.cons_append] at h1 ⊢
    obtain ⟨⟨s', x⟩, h3, h4⟩ := Run.bind_eq_ret.1 h1
    dsimp only at h4
    obtain ⟨⟨s'', xs⟩, h5, h6⟩ := Run.bind_eq_ret.1 h4
    simp only [Run.ret.injEq, Prod.mk.injEq] at h6
    obtain ⟨rfl, rfl⟩ := h6
    rw [h3]
    simp only [Run.ret_bind]
    rw [ih h5 h2]
    rfl

theorem run_one {env : Env} {opts : ServerOpts} {endpoint : Endpoint σ} {fuel : Nat} {s s1 : Shared ρ} {x : TurnSeen} (h : s.serverStep env opts endpoint fuel = .ret (s1, x)) :
    s.run env opts endpoint fuel [.server] = .ret (s1, [x]) := by
  simp only [Shared.run, Shared.step, h, Run.ret_bind]

theorem Told.refl (w : Writer) : Told w w [] := ⟨.refl _, by simp [written]⟩

theorem acceptStep_res_ne_running {env : Env} {opts : ServerOpts} {endpoint : Endpoint σ} {fuel n : Nat} {c c' : Conn ρ} {ev : List Event} {r : AcceptRes}
    (h : acceptStep env opts endpoint fuel n c = .ret (c', ev, some r)) : r ≠ .running := by
  unfold acceptStep at h
  obtain ⟨⟨w, clock, a⟩, _, h2⟩ := Run.bind_eq_ret.1 h
  cases a with
  | timedOut io =>
    simp only [Run.ret.injEq, Prod.mk.injEq, Option.some.injEq] at h2
    rw [← h2.2.2]; simp
  | ready q =>
    cases q with
    | none io =>
      simp only [Run.ret.injEq, Prod.mk.injEq, Option.some.injEq] at h2
      rw [← h2.2.2]; simp
    | fail f io =>
      obtain ⟨⟨w', ev'⟩, _, h4⟩ := Run.bind_eq_ret.1 h2
      simp only [Run.ret.injEq, Prod.mk.injEq, Option.map_eq_some_iff] at h4
      obtain ⟨_, _, e, _, rfl⟩ := h4
      simp
    | request req =>
      obtain ⟨⟨b1, w1, ev1, g1⟩, _, h4⟩ := Run.bind_eq_ret.1 h2
      obtain ⟨⟨w2, ev2⟩, _, h6⟩ := Run.bind_eq_ret.1 h4
      simp at h6

/-- What the server does in some steps: the same, up to the division of the interim response, as `ev`. -/
structure Does (w w' : Writer) (ev : List Event) (log : List TurnSeen) : Prop where
  told : Told w w' (serverSeen log).flatten
  calls : calls (serverSeen log).flatten = calls ev
  reads : bodyReads (serverSeen log).flatten = bodyReads ev

theorem Does.append {a b c : Writer} {e1 e2 : List Event} {l1 l2 : List TurnSeen} (h : Does a b e1 l1) (k : Does b c e2 l2) : Does a c (e1 ++ e2) (l1 ++ l2) := by
  refine ⟨?_, ?_, ?_⟩
  · rw [serverSeen_append, List.flatten_append]; exact h.told.append k.told
  · rw [serverSeen_append, List.flatten_append, calls_append, calls_append, h.calls, k.calls]
  · rw [serverSeen_append, List.flatten_append, bodyReads_append, bodyReads_append, h.reads, k.reads]

theorem decode_alone {env : Env} {opts : ServerOpts} {endpoint : Endpoint σ} {fuel : Nat} (ht : opts.timeout = false) (m : Nat) : ∀ {s : Shared ρ} {w' : Writer} {clock clock' : List Bool} {a : Await ρ},
    s.over = none → awaitDecode env opts fuel (env.pool s.iter) m s.fut s.wr clock = .ret (w', clock', a) →
    ∃ r j s1 log, a = .ready r ∧ s.run env opts endpoint fuel (List.replicate j .server) = .ret (s1, log) ∧ s1.over = none ∧ s1.iter = s.iter ∧
      s1.fut.poll env.uriOk (env.pool s.iter) fuel s1.wr = .ret (w', .ready r) ∧ Does s.wr s1.wr [] log := by
  induction m with
  | zero => intro s w' clock clock' a _ h; simp [awaitDecode] at h
  | succ m ih =>
    intro s w' clock clock' a ho h
    simp only [awaitDecode, ht, Bool.false_eq_true, if_false] at h
    obtain ⟨⟨w1, p⟩, h1, h2⟩ := Run.bind_eq_ret.1 h
    cases p with
    | ready r =>
      simp only [Run.ret.injEq, Prod.mk.injEq] at h2
      obtain ⟨rfl, rfl, rfl⟩ := h2
      exact ⟨r, 0, s, [], rfl, rfl, ho, rfl, h1, ⟨Told.refl _, rfl, rfl⟩⟩
    | pending f =>
      dsimp only at h2
      have hstep : s.serverStep env opts endpoint fuel = .ret ({ s with body := s.body.mapIo fun _ => f.io, fut := f, wr := w1 }, .server (interimEvent s.wr w1)) := by
        unfold Shared.serverStep
        rw [ho]
        dsimp only
        rw [h1]; rfl
      obtain ⟨r, j, s1, log, e1, e2, e3, e4, e5, e6⟩ := ih (s := { s with body := s.body.mapIo fun _ => f.io, fut := f, wr := w1 }) ho h2
      refine ⟨r, j + 1, s1, .server (interimEvent s.wr w1) :: log, e1, ?_, e3, e4, e5, ?_⟩
      · have := run_append [.server] (List.replicate j .server) (run_one hstep) e2
        exact this
      · have h6 : Does s.wr w1 [] [.server (interimEvent s.wr w1)] := by
          refine ⟨?_, ?_, ?_⟩
          · simpa [serverSeen] using interimEvent_told (decFut_poll_grew h1)
          · simpa [serverSeen, calls] using calls_interimEvent s.wr w1
          · simpa [serverSeen, bodyReads] using bodyReads_interimEvent s.wr w1
        exact h6.append e6

/-- An iteration. -/
theorem step_alone {env : Env} {opts : ServerOpts} {endpoint : Endpoint σ} {fuel : Nat} (ht : opts.timeout = false) {s : Shared ρ} {c c' : Conn ρ} {ev : List Event} {res : Option AcceptRes}
    (ho : s.over = none) (hf : s.fut = DecFut.start c.rd) (hw : s.wr = c.wr) (h : acceptStep env opts endpoint fuel s.iter c = .ret (c', ev, res)) :
    ∃ j s1 log, s.run env opts endpoint fuel (List.replicate j .server) = .ret (s1, log) ∧ s1.over = res ∧ s1.wr = c'.wr ∧ (res = none → s1.fut = DecFut.start c'.rd ∧ s1.iter = s.iter + 1) ∧
      Does c.wr c'.wr ev log := by
  have htold := acceptStep_told h
  unfold acceptStep at h
  obtain ⟨⟨w, clock, a⟩, h1, h2⟩ := Run.bind_eq_ret.1 h
  rw [← hf, ← hw] at h1
  obtain ⟨r, j, s1, log, rfl, e2, e3, e4, e5, e6⟩ := decode_alone (endpoint := endpoint) ht fuel ho h1
  have hcat : ∀ {s2 : Shared ρ} {e : List Event}, s1.serverStep env opts endpoint fuel = .ret (s2, .server e) →
      s.run env opts endpoint fuel (List.replicate (j + 1) .server) = .ret (s2, log ++ [.server e]) := by
    intro s2 e h
    have := run_append (List.replicate j .server) [.server] e2 (run_one h)
    rw [List.replicate_succ']
    exact this
  -- the last step shows the same, except for the interim response
  have hdoes : ∀ {ev' : List Event} {w' : Writer}, Told w w' ev' → w' = c'.wr → calls ev = calls ev' → bodyReads ev = bodyReads ev' → Does c.wr c'.wr ev (log ++ [.server (interimEvent s1.wr w ++ ev')]) := by
    intro ev' w' k1 k2 k3 k4
    subst k2
    have h7 : Does s1.wr c'.wr ev' [.server (interimEvent s1.wr w ++ ev')] := by
      refine ⟨?_, ?_, ?_⟩
      · simpa [serverSeen] using (interimEvent_told (decFut_poll_grew e5)).append k1
      · simp [serverSeen, calls_append, calls_interimEvent]
      · simp [serverSeen, bodyReads_append, bodyReads_interimEvent]
    have := e6.append h7
    rw [hw] at this
    refine ⟨this.told, ?_, ?_⟩
    · rw [this.calls, k3]; rfl
    · rw [this.reads, k4]; rfl
  cases r with
  | none io =>
    simp only [Run.ret.injEq, Prod.mk.injEq] at h2
    obtain ⟨rfl, rfl, rfl⟩ := h2
    have hstep : s1.serverStep env opts endpoint fuel = .ret (s1.stop io w (interimEvent s1.wr w) .ok) := by
      unfold Shared.serverStep
      rw [e3, e4, e5]; rfl
    refine ⟨j + 1, _, _, hcat hstep, rfl, rfl, by simp, ?_⟩
    have := hdoes (ev' := []) (Told.refl _) rfl (calls_interimEvent _ _) (bodyReads_interimEvent _ _)
    rw [List.append_nil] at this
    exact this
  | fail f io =>
    dsimp only at h2
    obtain ⟨⟨w2, ev2⟩, h3, h4⟩ := Run.bind_eq_ret.1 h2
    simp only [Run.ret.injEq, Prod.mk.injEq] at h4
    obtain ⟨rfl, rfl, rfl⟩ := h4
    have hd := hdoes (ev' := ev2) (answerFail_told h3) rfl (by rw [calls_append, calls_interimEvent]; rfl) (by rw [bodyReads_append, bodyReads_interimEvent]; rfl)
    cases hfe : failError f with
    | some e =>
      have hstep : s1.serverStep env opts endpoint fuel = .ret (s1.stop io w2 (interimEvent s1.wr w ++ ev2) (.err e)) := by
        unfold Shared.serverStep
        rw [e3, e4, e5]
        simp only [Run.ret_bind, h3, hfe]
      exact ⟨j + 1, _, _, hcat hstep, rfl, rfl, by simp, hd⟩
    | none =>
      have hstep : s1.serverStep env opts endpoint fuel = .ret (s1.next io w2 (interimEvent s1.wr w ++ ev2)) := by
        unfold Shared.serverStep
        rw [e3, e4, e5]
        simp only [Run.ret_bind, h3, hfe]
      refine ⟨j + 1, _, _, hcat hstep, ?_, rfl, ?_, hd⟩
      · exact e3
      · exact fun _ => ⟨rfl, by show s1.iter + 1 = _; rw [e4]⟩
  | request req =>
    dsimp only at h2
    obtain ⟨⟨b1, w1, ev1, g⟩, h3, h4⟩ := Run.bind_eq_ret.1 h2
    dsimp only at h4
    obtain ⟨⟨w2, ev2⟩, h5, h6⟩ := Run.bind_eq_ret.1 h4
    simp only [Run.ret.injEq, Prod.mk.injEq] at h6
    obtain ⟨rfl, rfl, rfl⟩ := h6
    have hstep : s1.serverStep env opts endpoint fuel = .ret (s1.next b1.io w2 (interimEvent s1.wr w ++ .call req.head req.length :: (ev1 ++ ev2))) := by
      unfold Shared.serverStep
      rw [e3, e4, e5]
      simp only [Run.ret_bind]
      rw [h3]
      simp only [Run.ret_bind]
      rw [h5]; rfl
    have htl : Told w w2 (.call req.head req.length :: (ev1 ++ ev2)) := by
      have := (runProg_told _ _ _ _ _ _ _ h3).append (answerGlitch_told h5)
      exact ⟨this.1, this.2⟩
    refine ⟨j + 1, _, _, hcat hstep, e3, rfl, fun _ => ⟨rfl, by show s1.iter + 1 = _; rw [e4]⟩, hdoes htl rfl ?_ ?_⟩
    · rw [calls_append, calls_interimEvent]; rfl
    · rw [bodyReads_append, bodyReads_interimEvent]; rfl

/-- The loop. -/
theorem loop_alone {env : Env} {opts : ServerOpts} {endpoint : Endpoint σ} {fuel : Nat} (ht : opts.timeout = false) (it : Nat) : ∀ {s : Shared ρ} {c c' : Conn ρ} {ev : List Event} {res : AcceptRes},
    s.over = none → s.fut = DecFut.start c.rd → s.wr = c.wr → acceptGo env opts endpoint fuel it s.iter c = .ret (c', ev, res) →
    ∃ j s1 log, s.run env opts endpoint fuel (List.replicate j .server) = .ret (s1, log) ∧ s1.over = (if res = .running then none else some res) ∧ Does c.wr c'.wr ev log := by
  induction it with
  | zero =>
    intro s c c' ev res ho hf hw h
    simp only [acceptGo, Run.ret.injEq, Prod.mk.injEq] at h
    obtain ⟨rfl, rfl, rfl⟩ := h
    exact ⟨0, s, [], rfl, by simpa using ho, ⟨Told.refl _, rfl, rfl⟩⟩
  | succ it ih =>
    intro s c c' ev res ho hf hw h
    simp only [acceptGo] at h
    obtain ⟨⟨c1, ev1, r1⟩, h1, h2⟩ := Run.bind_eq_ret.1 h
    obtain ⟨j, s1, log, e1, e2, e3, e4, e5⟩ := step_alone ht ho hf hw h1
    cases r1 with
    | some r =>
      simp only [Run.ret.injEq, Prod.mk.injEq] at h2
      obtain ⟨rfl, rfl, rfl⟩ := h2
      refine ⟨j, s1, log, e1, ?_, e5⟩
      rw [e2, if_neg]
      exact acceptStep_res_ne_running h1
    | none =>
      dsimp only at h2
      obtain ⟨⟨c2, ev2, r2⟩, h3, h4⟩ := Run.bind_eq_ret.1 h2
      simp only [Run.ret.injEq, Prod.mk.injEq] at h4
      obtain ⟨rfl, rfl, rfl⟩ := h4
      obtain ⟨k1, k2⟩ := e4 rfl
      obtain ⟨j', s2, log', g1, g2, g3⟩ := ih (s := s1) e2 k1 e3 (by rw [k2]; exact h3)
      refine ⟨j + j', s2, log ++ log', ?_, g2, e5.append g3⟩
      rw [List.replicate_add]
      exact run_append _ _ e1 g1

end

end Tophat
