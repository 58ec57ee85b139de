import Verif.Proofs.Judge
import Verif.Props.Copy
/-! One iteration of the accept loop. -/

set_option linter.unusedSectionVars false

namespace Tophat
open Spec

/-! ## Sending a response whose body is in memory -/

/-- The bytes of a response from memory. -/
def wireOf (resp : InnerResponse Cursor) (now : Bytes) : Bytes := headOf resp now ++ resp.body.left

/-- A response with a body in memory whose length is declared correctly. -/
structure InMemory (resp : InnerResponse Cursor) : Prop where
  wf : resp.headers.WF
  length : resp.length = some resp.body.left.length
  limit : 8192 + resp.body.left.length < usizeLimit

/-- What `send` does with such a response. -/
inductive SentOk (w : Writer) (wire : Bytes) : Writer → Prop
  | mk {w' sent used} : w'.got = w.got ++ sent → sent <+: wire → w.script = used ++ w'.script → (w.Reliable → sent = wire) →
      SentOk w wire w'

/-- The bound on the number of steps. -/
def sendBound (resp : InnerResponse Cursor) (now : Bytes) (w : Writer) : Nat :=
  2 * (wireOf resp now).length + w.script.length

theorem sendFully_memory {env : Env} (hx : HexLenOk env.hexLen) {resp : InnerResponse Cursor} (hr : InMemory resp) (fuel n : Nat) (w : Writer) :
    (sendFully env fuel n resp w = .diverge ∧ fuel ≤ sendBound resp (env.now n) w) ∨
    ∃ w' r, sendFully env fuel n resp w = .ret (w', r) ∧ SentOk w (wireOf resp (env.now n)) w' ∧ r ≠ .running ∧
      (∀ a, r = .ok a → w'.got = w.got ++ wireOf resp (env.now n)) ∧ (w.Reliable → ∃ a, r = .ok a) := by
  have hl := hr.length
  unfold sendFully
  rcases sendResponse_spec (now := env.now n) hx hr.wf (by intro k hk; rw [hl] at hk; injection hk with hk; subst hk; exact hr.limit) fuel w with
    ⟨_, _, h3⟩ | ⟨w', r, sent, used, h1, h2, h3, ⟨msg, h4, h4'⟩, h5⟩
  · rw [hl] at h3
    have : (rem resp.body).length = resp.body.left.length := rfl
    dsimp only at h3
    omega
  · rw [h1]
    simp only [Run.ret_bind]
    rw [hl] at h4 h5
    have hb : (rem resp.body).take resp.body.left.length = resp.body.left := List.take_length
    have hmsg : msg = wireOf resp (env.now n) := by
      unfold IsResponse at h4
      rw [h4, hb]; rfl
    rw [hmsg] at h4'
    have hrel : w.Reliable → ∃ a, r = .ok a ∨ r = .running := by
      intro hw
      cases r with
      | running => exact ⟨0, .inr rfl⟩
      | ok a => exact ⟨a, .inl rfl⟩
      | err x =>
        exfalso
        rcases h5 with h5 | ⟨pre, h5, _⟩ | ⟨_, pre, h5, _⟩
        · have := h5.1.1; cases this
        · exact (hw (.err x) (by rw [h3, h5]; simp)).2 x rfl
        · exact (hw (.accept 0) (by rw [h3, h5]; simp)).1 rfl
    have hokb : ∀ a, r = .ok a → sent = wireOf resp (env.now n) := by
      rintro a rfl
      have := h5.1.1
      unfold IsResponse at this
      rw [this, hb]; rfl
    by_cases hrun : r = .running
    · left
      rw [if_pos hrun]
      refine ⟨rfl, ?_⟩
      subst hrun
      have := h5.1
      dsimp only at this
      unfold sendBound wireOf
      rw [List.length_append]
      have hm : meas resp.body = 0 := rfl
      omega
    · right
      rw [if_neg hrun]
      refine ⟨w', r, rfl, ⟨h2, h4', h3, ?_⟩, hrun, ?_, ?_⟩
      · intro hw
        obtain ⟨a, h | h⟩ := hrel hw
        · exact hokb a h
        · exact absurd h hrun
      · intro a ha; rw [h2, hokb a ha]
      · intro hw
        obtain ⟨a, h | h⟩ := hrel hw
        · exact ⟨a, h⟩
        · exact absurd h hrun

theorem plain_memory (st : StatusCode) : InMemory (plainResponse st) :=
  ⟨HeaderMap.wf_nil, rfl, by show 8192 + 0 < usizeLimit; decide⟩

/-- The bytes of the empty error responses. -/
def errorWire (st : StatusCode) (now : Bytes) : Bytes := responseHead .http11 st [] (some 0) now

theorem wireOf_plain (st : StatusCode) (now : Bytes) : wireOf (plainResponse st) now = errorWire st now := by
  simp [wireOf, errorWire, plainResponse]

theorem answerFail_spec {env : Env} (hx : HexLenOk env.hexLen) {f : DecodeFail} {st : StatusCode} (hf : failResponse f = some (plainResponse st)) (fuel n : Nat) (w : Writer) :
    (answerFail env fuel n f w = .diverge ∧ fuel ≤ sendBound (plainResponse st) (env.now n) w) ∨
    ∃ w', answerFail env fuel n f w = .ret (w', [wroteSince w w']) ∧ SentOk w (errorWire st (env.now n)) w' := by
  unfold answerFail
  rw [hf]
  dsimp only
  rcases sendFully_memory hx (plain_memory st) fuel n w with ⟨h1, h2⟩ | ⟨w', r, h1, h2, _⟩
  · left; rw [h1]; exact ⟨rfl, h2⟩
  · right; rw [h1]; rw [wireOf_plain] at h2; exact ⟨w', rfl, h2⟩

/-! ## One iteration -/

section
variable {ρ : Type} [AsyncRead ρ] [LawfulRead ρ] {σ : Type} [AsyncBufRead σ]

/-- The event of an interim response. -/
def interimEvents (i : Bool) : List Event := if i then [.wrote expectResponse] else []

theorem interimEvent_whole {w w' : Writer} {i : Bool} (h : w'.got = w.got ++ interimOf i) : interimEvent w w' = interimEvents i := by
  unfold interimEvent interimEvents interimOf at *
  cases i with
  | true =>
    have : w'.got ≠ w.got := by
      rw [h]; simp [expectResponse, ascii]
    rw [if_neg this]
    simp [wroteSince, h]
  | false => simp at h; simp [h]

/-- What one iteration of the accept loop may do. -/
inductive StepOk (env : Env) (opts : ServerOpts) (endpoint : Endpoint σ) (fuel n : Nat) (c : Conn ρ) : Conn ρ → List Event → Option AcceptRes → Prop
  /-- The peer closed the connection: `accept` returns `Ok`. -/
  | closed {io clock'} : NoHead (rem c.rd) → fin c.rd = none → rem io = [] → fin io = none →
      StepOk env opts endpoint fuel n c ⟨io, c.wr, clock'⟩ [] (some .ok)
  /-- The timeout fired: `accept` returns `Ok`. What has been written is part of an interim response. -/
  | timedOut {c' ticks x used} : opts.timeout = true → c.clock = ticks ++ true :: c'.clock → (∀ t ∈ ticks, t = false) →
      x <+: expectResponse → c'.wr.got = c.wr.got ++ x → c.wr.script = used ++ c'.wr.script →
      (x ≠ [] → ∃ h, FirstHead (rem c.rd) h) →
      StepOk env opts endpoint fuel n c c' (interimEvent c.wr c'.wr) (some .ok)
  /-- Reading failed before the end of a head: the loop goes on. -/
  | lost {io clock' x} : NoHead (rem c.rd) → fin c.rd = some x → StepOk env opts endpoint fuel n c ⟨io, c.wr, clock'⟩ [] none
  /-- Writing the interim response failed: the loop goes on. -/
  | cut {h v c' x y used} {r : BufRd ρ} : FirstHead (rem c.rd) h → Judged env.uriOk h v →
      ((∃ st, v = .refuse true st) ∨ ∃ m t fs len, v = .serve true m t fs len) → ¬ c.wr.Reliable →
      expectResponse = x ++ y → c'.wr.got = c.wr.got ++ x → c.wr.script = used ++ c'.wr.script →
      rem c.rd = h ++ rem r → fin r = fin c.rd → c'.rd = r.inner →
      StepOk env opts endpoint fuel n c c' (interimEvent c.wr c'.wr) none
  /-- The request is refused: the loop goes on. -/
  | refused {h i st c' used} {r : BufRd ρ} {w1 : Writer} : FirstHead (rem c.rd) h → Judged env.uriOk h (.refuse i st) →
      w1.got = c.wr.got ++ interimOf i → c.wr.script = used ++ w1.script →
      SentOk w1 (errorWire st (env.now n)) c'.wr → rem c.rd = h ++ rem r → fin r = fin c.rd → c'.rd = r.inner →
      StepOk env opts endpoint fuel n c c' (interimEvents i ++ [wroteSince w1 c'.wr]) none
  /-- An unknown transfer encoding: `accept` returns `Err`. -/
  | gaveUp {h c'} : FirstHead (rem c.rd) h → Judged env.uriOk h .giveUp →
      SentOk c.wr (errorWire 501 (env.now n)) c'.wr →
      StepOk env opts endpoint fuel n c c' [wroteSince c.wr c'.wr] (some (.err .connectionClosedUnsupportedTransferEncoding))
  /-- The request is handed to the endpoint. -/
  | served {h i m t fs len hm used body body' w1 w2 w3 ev1 g ev2 clock'} : FirstHead (rem c.rd) h → Judged env.uriOk h (.serve i m t fs len) →
      MapOf hm fs → (∃ p, parseHead h = .ok p ∧ p.acc.headers = hm) → w1.got = c.wr.got ++ interimOf i → c.wr.script = used ++ w1.script →
      BodyAt (env.pool n) ((rem c.rd).drop h.length) (fin c.rd) (meas c.rd + c.wr.script.length) len body →
      runProg env fuel n (endpoint ⟨m, t, hm⟩ len) body w1 = .ret (body', w2, ev1, g) →
      answerGlitch env opts fuel n g w2 = .ret (w3, ev2) →
      StepOk env opts endpoint fuel n c ⟨body'.io, w3, clock'⟩ (interimEvents i ++ .call ⟨m, t, hm⟩ len :: (ev1 ++ ev2)) none

theorem acceptStep_spec {env : Env} (hx : HexLenOk env.hexLen) {opts : ServerOpts} {endpoint : Endpoint σ} {fuel n : Nat} {c c' : Conn ρ} {ev : List Event}
    {res : Option AcceptRes} (h : acceptStep env opts endpoint fuel n c = .ret (c', ev, res)) :
    StepOk env opts endpoint fuel n c c' ev res := by
  unfold acceptStep at h
  rcases awaitDecode_spec (env := env) (opts := opts) (pool := env.pool n) fuel fuel c.clock (decInv_start c.rd c.wr) with
    ⟨k1, _⟩ | ⟨w, clock, a, k1, k2⟩
  · rw [k1] at h; cases h
  · rw [k1] at h
    simp only [Run.ret_bind] at h
    cases k2 with
    | timedOut a b cc d f =>
      rename_i f ticks m'
      simp only [Run.ret.injEq, Prod.mk.injEq] at h
      obtain ⟨rfl, rfl, rfl⟩ := h
      cases f with
      | head _ _ _ _ e =>
        subst e
        exact .timedOut (x := []) (used := []) a b cc (List.nil_prefix) (by simp) rfl (by simp)
      | interim a1 a2 a3 a4 a5 a6 a7 a8 =>
        rename_i r p hd x todo used
        refine .timedOut (x := x) (used := used) a b cc ?_ a7 a8 (fun _ => ⟨hd, a1⟩)
        rcases parseHead_spec env.uriOk hd with ⟨f', h1, _⟩ | ⟨p', fs, h1, _, _, h4⟩
        · rw [a2] at h1; cases h1
        · rw [a2] at h1; injection h1 with h1; subst h1
          rw [interimBytes_eq h4] at a6
          split at a6
          · exact ⟨todo, a6.symm⟩
          · have := List.append_eq_nil_iff.1 a6.symm; rw [this.1]; exact List.nil_prefix
    | ready a b cc d =>
      rename_i res ticks
      cases a.decided with
      | none b1 b2 b3 b4 b5 b6 =>
        simp only [Run.ret.injEq, Prod.mk.injEq] at h
        obtain ⟨rfl, rfl, rfl⟩ := h
        subst b3
        have : interimEvent c.wr c.wr = [] := by simp [interimEvent]
        rw [this]
        exact .closed b1 b2 b4 (by rw [b5, b2])
      | lost b1 b2 b3 =>
        subst b3
        have : interimEvent c.wr c.wr = [] := by simp [interimEvent]
        simp only [answerFail, failResponse, Run.ret_bind, failError, Option.map_none, Run.ret.injEq, Prod.mk.injEq, this, List.append_nil] at h
        obtain ⟨rfl, rfl, rfl⟩ := h
        exact .lost b1 b2
      | cut b1 b2 b3 b4 b5 b6 b7 b8 b9 b10 =>
        simp only [answerFail, failResponse, Run.ret_bind, failError, Option.map_none, Run.ret.injEq, Prod.mk.injEq, List.append_nil] at h
        obtain ⟨rfl, rfl, rfl⟩ := h
        exact .cut b1 b2 b3 b7 b4 b5 b6 b8 b9 rfl
      | refuse b1 b2 b3 b4 b5 b6 b7 b8 b9 =>
        dsimp only at h
        rcases answerFail_spec hx b3 fuel n w with ⟨g1, _⟩ | ⟨w', g1, g2⟩
        · rw [g1] at h; cases h
        · rw [g1] at h
          simp only [Run.ret_bind, b4, Option.map_none, Run.ret.injEq, Prod.mk.injEq] at h
          obtain ⟨rfl, rfl, rfl⟩ := h
          rw [interimEvent_whole b5]
          exact .refused b1 b2 b5 b6 g2 b7 b8 rfl
      | giveUp b1 b2 b3 b4 b5 b6 =>
        dsimp only at h
        subst b3
        have hf : failResponse .httpUnsupportedTransferEncoding = some (plainResponse 501) := rfl
        have : interimEvent c.wr c.wr = [] := by simp [interimEvent]
        rcases answerFail_spec hx hf fuel n c.wr with ⟨g1, _⟩ | ⟨w', g1, g2⟩
        · rw [g1] at h; cases h
        · rw [g1] at h
          simp only [Run.ret_bind, this, failError, Option.map_some, Run.ret.injEq, Prod.mk.injEq, List.nil_append] at h
          obtain ⟨rfl, rfl, rfl⟩ := h
          exact .gaveUp b1 b2 g2
      | serve b1 b2 b3 b3' b4 b5 b6 =>
        rename_i hd i m' t fs len hm used body
        dsimp only at h
        obtain ⟨⟨body', w2, ev1, g⟩, g1, g2⟩ := Run.bind_eq_ret.1 h
        dsimp only at g2
        obtain ⟨⟨w3, ev2⟩, g3, g4⟩ := Run.bind_eq_ret.1 g2
        simp only [Run.ret.injEq, Prod.mk.injEq] at g4
        obtain ⟨rfl, rfl, rfl⟩ := g4
        rw [interimEvent_whole b4]
        exact .served b1 b2 b3 b3' b4 b5 b6 g1 g3

end

end Tophat

/-! ## An iteration that does not call the endpoint returns -/

namespace Tophat
open Spec

theorem Spec.Judged.status {uriOk : Bytes → Bool} {h : Bytes} {i : Bool} {st : Nat} (a : Judged uriOk h (.refuse i st)) : st = 400 ∨ st = 505 := by
  generalize hv : Verdict.refuse i st = v at a
  cases a <;> simp at hv
  all_goals first
    | exact .inl hv.2
    | exact .inr hv.2

section
variable {ρ : Type} [AsyncRead ρ] [LawfulRead ρ] {σ : Type} [AsyncBufRead σ]

/-- Enough steps for one iteration that does not call the endpoint. -/
def stepBound (env : Env) (n : Nat) (c : Conn ρ) : Nat :=
  (rem c.rd).length + meas c.rd + 2 * c.wr.script.length + 3 + 2 * (errorWire 400 (env.now n)).length +
    2 * (errorWire 501 (env.now n)).length + 2 * (errorWire 505 (env.now n)).length

theorem acceptStep_returns {env : Env} (hx : HexLenOk env.hexLen) {opts : ServerOpts} {endpoint : Endpoint σ} {fuel n : Nat} {c : Conn ρ}
    (hs : ∀ h i m t fs len, FirstHead (rem c.rd) h → ¬ Judged env.uriOk h (.serve i m t fs len))
    (hf : stepBound env n c ≤ fuel) : ∃ c' ev res, acceptStep env opts endpoint fuel n c = .ret (c', ev, res) := by
  unfold stepBound at hf
  unfold acceptStep
  rcases awaitDecode_spec (env := env) (opts := opts) (pool := env.pool n) fuel fuel c.clock (decInv_start c.rd c.wr) with
    ⟨_, k2⟩ | ⟨w, clock, a, k1, k2⟩
  · omega
  · rw [k1]
    simp only [Run.ret_bind]
    have hb : ∀ st, (st = 400 ∨ st = 501 ∨ st = 505) → w.script.length ≤ c.wr.script.length → ¬ fuel ≤ sendBound (plainResponse st) (env.now n) w := by
      intro st hst hw
      unfold sendBound
      rw [wireOf_plain]
      rcases hst with rfl | rfl | rfl <;> omega
    cases k2 with
    | timedOut => exact ⟨_, _, _, rfl⟩
    | ready a b cc d =>
      cases a.decided with
      | none => exact ⟨_, _, _, rfl⟩
      | lost => exact ⟨_, _, _, rfl⟩
      | cut => exact ⟨_, _, _, rfl⟩
      | refuse b1 b2 b3 b4 b5 b6 =>
        dsimp only
        rcases answerFail_spec hx b3 fuel n w with ⟨_, g1⟩ | ⟨w', g1, g2⟩
        · exact absurd g1 (hb _ (by rcases b2.status with h | h <;> simp [h]) (by rw [b6]; simp))
        · rw [g1]; exact ⟨_, _, _, rfl⟩
      | giveUp b1 b2 b3 =>
        dsimp only
        subst b3
        have hf : failResponse .httpUnsupportedTransferEncoding = some (plainResponse 501) := rfl
        rcases answerFail_spec hx hf fuel n c.wr with ⟨_, g1⟩ | ⟨w', g1, g2⟩
        · exact absurd g1 (hb _ (by simp) (Nat.le_refl _))
        · rw [g1]; exact ⟨_, _, _, rfl⟩
      | serve b1 b2 => exact absurd b2 (hs _ _ _ _ _ _ b1)

theorem NoTimeout.not_fired {opts : ServerOpts} {c : Conn ρ} (h : NoTimeout opts c) {ticks l : List Bool} (h1 : opts.timeout = true)
    (h2 : c.clock = ticks ++ true :: l) : False := by
  rcases h with h | h
  · rw [h1] at h; cases h
  · have := h true (by rw [h2]; simp); cases this

theorem SentOk.whole {w w' : Writer} {x : Bytes} (h : SentOk w x w') (hr : w.Reliable) : w'.got = w.got ++ x ∧ w'.Reliable := by
  obtain ⟨a, _, b, c⟩ := h
  exact ⟨by rw [a, c hr], hr.suffix b⟩

theorem SentOk.wrote {w w' : Writer} {x : Bytes} (h : SentOk w x w') : ∃ y, y <+: x ∧ wroteSince w w' = .wrote y ∧ w'.got = w.got ++ y := by
  obtain ⟨a, b, _, _⟩ := h
  exact ⟨_, b, by simp [wroteSince, a], a⟩

/-- A refused request, with a transport and a timer that do not interfere. -/
theorem refused_inv {env : Env} {opts : ServerOpts} {endpoint : Endpoint σ} {fuel n : Nat} {c c' : Conn ρ} {ev : List Event}
    {res : Option AcceptRes} (hs : StepOk env opts endpoint fuel n c c' ev res) {h : Bytes} {i : Bool} {st : Nat}
    (hh : FirstHead (rem c.rd) h) (hj : Judged env.uriOk h (.refuse i st)) (hr : c.wr.Reliable) (ht : NoTimeout opts c) :
    res = none ∧ ev = interimEvents i ++ [.wrote (errorWire st (env.now n))] ∧
      c'.wr.got = c.wr.got ++ (interimOf i ++ errorWire st (env.now n)) := by
  cases hs with
  | closed a => exact absurd a hh.not_noHead
  | timedOut a b => exact (ht.not_fired a b).elim
  | lost a => exact absurd a hh.not_noHead
  | cut _ _ _ a => exact absurd hr a
  | refused a b d e f =>
    have := a.unique hh; subst this
    have := b.unique hj
    injection this with e1 e2
    subst e1 e2
    have hr1 := hr.suffix e
    obtain ⟨g1, g2⟩ := f.whole hr1
    refine ⟨rfl, ?_, by rw [g1, d]; simp⟩
    simp [wroteSince, g1]
  | gaveUp a b => have := a.unique hh; subst this; have := b.unique hj; cases this
  | served a b => have := a.unique hh; subst this; have := b.unique hj; cases this

/-- Whatever the transport and the timer do, a request that is not to be served does not reach the endpoint. -/
theorem not_served {env : Env} {opts : ServerOpts} {endpoint : Endpoint σ} {fuel n : Nat} {c c' : Conn ρ} {ev : List Event}
    {res : Option AcceptRes} (hs : StepOk env opts endpoint fuel n c c' ev res) {h : Bytes} {v : Verdict}
    (hh : FirstHead (rem c.rd) h) (hj : Judged env.uriOk h v) (hv : ∀ i m t fs len, v ≠ .serve i m t fs len)
    (head : ReqHead) (len : Option Nat) : Event.call head len ∉ ev := by
  have hi : ∀ w w' : Writer, Event.call head len ∉ interimEvent w w' := by
    intro w w'; unfold interimEvent; split <;> simp [wroteSince]
  have hi2 : ∀ i, Event.call head len ∉ interimEvents i := by
    intro i; unfold interimEvents; split <;> simp
  cases hs with
  | closed => simp
  | timedOut => exact hi _ _
  | lost => simp
  | cut => exact hi _ _
  | refused => simp [hi2, wroteSince]
  | gaveUp => simp [wroteSince]
  | served a b => have := a.unique hh; subst this; exact absurd (b.unique hj).symm (hv _ _ _ _ _)

/-- An unknown transfer encoding. -/
theorem gaveUp_inv {env : Env} {opts : ServerOpts} {endpoint : Endpoint σ} {fuel n : Nat} {c c' : Conn ρ} {ev : List Event}
    {res : Option AcceptRes} (hs : StepOk env opts endpoint fuel n c c' ev res) {h : Bytes}
    (hh : FirstHead (rem c.rd) h) (hj : Judged env.uriOk h .giveUp) (ht : NoTimeout opts c) :
    res = some (.err .connectionClosedUnsupportedTransferEncoding) ∧
      ∃ x, ev = [.wrote x] ∧ x <+: errorWire 501 (env.now n) ∧ c'.wr.got = c.wr.got ++ x ∧
        (c.wr.Reliable → x = errorWire 501 (env.now n)) := by
  cases hs with
  | closed a => exact absurd a hh.not_noHead
  | timedOut a b => exact (ht.not_fired a b).elim
  | lost a => exact absurd a hh.not_noHead
  | cut a b d =>
    have := a.unique hh; subst this
    have := b.unique hj
    subst this
    rcases d with ⟨_, h⟩ | ⟨_, _, _, _, h⟩ <;> cases h
  | refused a b => have := a.unique hh; subst this; have := b.unique hj; cases this
  | gaveUp a b d =>
    refine ⟨rfl, ?_⟩
    obtain ⟨y, h1, h2, h3⟩ := d.wrote
    refine ⟨y, by rw [h2], h1, h3, ?_⟩
    intro hr
    have := (d.whole hr).1
    rw [h3] at this
    exact List.append_cancel_left this
  | served a b => have := a.unique hh; subst this; have := b.unique hj; cases this

end

end Tophat
