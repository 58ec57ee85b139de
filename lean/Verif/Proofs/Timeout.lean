import Verif.Proofs.KeepAlive
/-! When the timeout matters. -/

set_option linter.unusedSectionVars false
set_option synthInstance.maxSize 1000

namespace Tophat
open Spec

section
variable {ρ : Type} [AsyncRead ρ] [LawfulRead ρ]

/-- The timer is not asked, or says no as often as it can be asked. -/
def Unfired (opts : ServerOpts) (clock : List Bool) (m : Nat) : Prop := opts.timeout = false ∨ ∀ t ∈ clock.take m, t = false

theorem awaitDecode_unfired {env : Env} {o1 o2 : ServerOpts} {fuel : Nat} {pool : Pool} {s : Bytes} {e : Option IoErr} {w0 : Writer} (n : Nat) :
    ∀ {m : Nat} {f : DecFut ρ} {w : Writer} {c1 c2 : List Bool}, DecInv s e m w0 w f → Unfired o1 c1 m → Unfired o2 c2 m →
    ∀ w' a, (∃ k, awaitDecode env o1 fuel pool n f w c1 = .ret (w', k, a)) → ∃ k, awaitDecode env o2 fuel pool n f w c2 = .ret (w', k, a) := by
  induction n with
  | zero => intro m f w c1 c2 hi h1 h2 w' a h; simp [awaitDecode] at h
  | succ n ih =>
    intro m f w c1 c2 hi u1 u2 w' a ⟨k, h⟩
    simp only [awaitDecode] at h ⊢
    rcases poll_spec (uriOk := env.uriOk) (pool := pool) fuel hi with ⟨k1, k2⟩ | ⟨w1, d, k1, k2⟩
    · rw [k1] at h; cases h
    · rw [k1] at h ⊢
      simp only [Run.ret_bind] at h ⊢
      cases d with
      | ready r =>
        simp only [Run.ret.injEq, Prod.mk.injEq] at h
        obtain ⟨rfl, _, rfl⟩ := h
        exact ⟨c2, rfl⟩
      | pending f' =>
        obtain ⟨m', hm, hi'⟩ := k2
        dsimp only at h ⊢
        have tail : ∀ {t : Bool} {c : List Bool}, (∀ x ∈ (t :: c).take m, x = false) → t = false ∧ ∀ x ∈ c.take m', x = false := by
          intro t c hc
          obtain ⟨j, rfl⟩ : ∃ j, m = j + 1 := ⟨m - 1, by omega⟩
          rw [List.take_succ_cons] at hc
          refine ⟨hc t List.mem_cons_self, fun x hx => hc x (List.mem_cons_of_mem _ ?_)⟩
          exact (List.take_subset_take_left c (by omega)) hx
        -- the left run
        have left : ∃ c1' k', Unfired o1 c1' m' ∧ awaitDecode env o1 fuel pool n f' w1 c1' = .ret (w', k', a) := by
          split at h
          · rename_i ht
            have u1' : ∀ t ∈ c1.take m, t = false := by
              rcases u1 with u | u
              · rw [ht] at u; cases u
              · exact u
            split at h
            · rename_i ck
              have := (tail u1').1; cases this
            · rename_i t ck _
              exact ⟨ck, k, .inr (tail u1').2, h⟩
            · exact ⟨[], k, .inr (by simp), h⟩
          · rename_i ht
            exact ⟨c1, k, .inl (by simpa using ht), h⟩
        obtain ⟨c1', k', v1, v2⟩ := left
        split
        · rename_i ht
          have u2' : ∀ t ∈ c2.take m, t = false := by
            rcases u2 with u | u
            · rw [ht] at u; cases u
            · exact u
          split
          · have := (tail u2').1; cases this
          · exact ih hi' v1 (.inr (tail u2').2) _ _ ⟨k', v2⟩
          · exact ih hi' v1 (.inr (by simp)) _ _ ⟨k', v2⟩
        · rename_i ht
          exact ih hi' v1 (.inl (by simpa using ht)) _ _ ⟨k', v2⟩

variable {σ : Type} [AsyncBufRead σ]

theorem acceptStep_unfired {env : Env} {o1 o2 : ServerOpts} (ho : o1.verboseGlitch = o2.verboseGlitch) {endpoint : Endpoint σ} {fuel n : Nat} {rd rd' : ρ} {w w' : Writer}
    {c1 c2 k : List Bool} {ev : List Event} {res : Option AcceptRes} (u1 : Unfired o1 c1 (meas rd + w.script.length)) (u2 : Unfired o2 c2 (meas rd + w.script.length))
    (h : acceptStep env o1 endpoint fuel n ⟨rd, w, c1⟩ = .ret (⟨rd', w', k⟩, ev, res)) :
    ∃ k', acceptStep env o2 endpoint fuel n ⟨rd, w, c2⟩ = .ret (⟨rd', w', k'⟩, ev, res) := by
  unfold acceptStep at h ⊢
  obtain ⟨⟨w1, ck, a⟩, h1, h2⟩ := Run.bind_eq_ret.1 h
  obtain ⟨ck', h1'⟩ := awaitDecode_unfired fuel (decInv_start rd w) u1 u2 w1 a ⟨ck, h1⟩
  rw [h1']
  simp only [Run.ret_bind]
  cases a with
  | timedOut io =>
    simp only [Run.ret.injEq, Prod.mk.injEq, Conn.mk.injEq] at h2
    obtain ⟨⟨rfl, rfl, rfl⟩, rfl, rfl⟩ := h2
    exact ⟨_, rfl⟩
  | ready r =>
    cases r with
    | none io =>
      simp only [Run.ret.injEq, Prod.mk.injEq, Conn.mk.injEq] at h2
      obtain ⟨⟨rfl, rfl, rfl⟩, rfl, rfl⟩ := h2
      exact ⟨_, rfl⟩
    | fail f io =>
      dsimp only at h2 ⊢
      obtain ⟨⟨w2, ev2⟩, h3, h4⟩ := Run.bind_eq_ret.1 h2
      simp only [Run.ret.injEq, Prod.mk.injEq, Conn.mk.injEq] at h4
      obtain ⟨⟨rfl, rfl, rfl⟩, rfl, rfl⟩ := h4
      rw [h3]
      exact ⟨_, rfl⟩
    | request req =>
      dsimp only at h2 ⊢
      obtain ⟨⟨b, w2, ev2, g⟩, h3, h4⟩ := Run.bind_eq_ret.1 h2
      dsimp only at h4
      obtain ⟨⟨w3, ev3⟩, h5, h6⟩ := Run.bind_eq_ret.1 h4
      simp only [Run.ret.injEq, Prod.mk.injEq, Conn.mk.injEq] at h6
      obtain ⟨⟨rfl, rfl, rfl⟩, rfl, rfl⟩ := h6
      have h5' : answerGlitch env o2 fuel n g w2 = .ret (w3, ev3) := by
        rw [← h5]; unfold answerGlitch; rw [ho]
      rw [h3]
      simp only [Run.ret_bind]
      rw [h5']
      exact ⟨_, rfl⟩

end

/-! ## It fires while the head is incomplete -/

theorem Script.read_wait (g : Script) (h : Script.ending g = none) (rest : Script) (k : Nat) (hk : 0 < k) :
    (∃ g', Script.read (g ++ .pending :: rest) k = (g' ++ .pending :: rest, .pending) ∧ Script.ending g' = none ∧ Script.pendings g' + 1 = Script.pendings g ∧
      Script.bytes g' = Script.bytes g) ∨
    (Script.read (g ++ .pending :: rest) k = (rest, .pending) ∧ Script.pendings g = 0) ∨
    ∃ g' bs, Script.read (g ++ .pending :: rest) k = (g' ++ .pending :: rest, .data bs) ∧ bs ≠ [] ∧ Script.ending g' = none ∧ Script.pendings g' = Script.pendings g ∧
      Script.bytes g = bs ++ Script.bytes g' := by
  induction g with
  | nil => exact .inr (.inl ⟨rfl, rfl⟩)
  | cons e g ih =>
    cases e with
    | pending => exact .inl ⟨g, rfl, h, rfl, rfl⟩
    | err e => simp [ending] at h
    | data bs =>
      have h' : Script.ending g = none := h
      by_cases hbs : bs = []
      · subst hbs
        have e2 : Script.read ((.data [] :: g) ++ .pending :: rest) k = Script.read (g ++ .pending :: rest) k := by simp [read]
        rw [e2]
        exact ih h'
      · by_cases hl : bs.length ≤ k
        · exact .inr (.inr ⟨g, bs, by simp [read, hbs, hl], hbs, h', rfl, rfl⟩)
        · refine .inr (.inr ⟨.data (bs.drop k) :: g, bs.take k, by simp [read, hbs, hl], ?_, h', rfl, by simp [bytes, ← List.append_assoc]⟩)
          intro h0
          have := congrArg List.length h0
          simp at this
          rcases this with h1 | h1
          · omega
          · exact hbs h1

/-- `decode` waits for more of an incomplete head; `j` pauses before the last one. -/
def Waits (rest : Script) (j : Nat) (buf : Bytes) (r : BufRd Script) : Prop :=
  ∃ g, r.inner = g ++ .pending :: rest ∧ Script.ending g = none ∧ Script.pendings g = j ∧ NoHead (buf ++ (r.buf ++ Script.bytes g))

theorem NoHead.pre {a b : Bytes} (h : NoHead (a ++ b)) : NoHead a := fun p hp => h p (hp.trans (List.prefix_append _ _))

theorem headGo_waits {rest : Script} (fuel : Nat) : ∀ {j nread : Nat} {buf : Bytes} {r : BufRd Script} {hp : HeadPoll Script}, Waits rest j buf r →
    headGo fuel r buf nread = .ret hp →
    ∃ r' buf' nread', hp = .pending r' buf' nread' ∧ ((j = 0 ∧ r'.inner = rest) ∨ ∃ j', j = j' + 1 ∧ Waits rest j' buf' r') := by
  induction fuel with
  | zero => intro j nread buf r hp _ h; simp [headGo] at h
  | succ fuel ih =>
    intro j nread buf r hp hw h
    simp only [headGo] at h
    obtain ⟨⟨r1, p⟩, h1, h2⟩ := Run.bind_eq_ret.1 h
    obtain ⟨g, a, b, c, d⟩ := hw
    -- what filling the buffer gives
    have hfill : (p = .pending ∧ ((j = 0 ∧ r1.inner = rest) ∨ ∃ j', j = j' + 1 ∧ Waits rest j' buf r1)) ∨
        ∃ bs, p = .data bs ∧ bs ≠ [] ∧ r1.buf = bs ∧ ∃ g', r1.inner = g' ++ .pending :: rest ∧ Script.ending g' = none ∧ Script.pendings g' = j ∧
          r.buf ++ Script.bytes g = bs ++ Script.bytes g' := by
      have h1' : r.fill = .ret (r1, p) := h1
      unfold BufRd.fill at h1'
      split at h1'
      · rename_i hb
        obtain ⟨⟨i, q⟩, h3, h4⟩ := Run.bind_eq_ret.1 h1'
        have h3' : Script.read r.inner bufRdCap = (i, q) := by injection h3
        rw [a] at h3'
        simp only [Run.ret.injEq] at h4
        rcases Script.read_wait g b rest bufRdCap (by decide) with ⟨g', e1, e2, e3, e4⟩ | ⟨e1, e2⟩ | ⟨g', bs, e1, e2, e3, e4, e5⟩
        · rw [e1] at h3'
          injection h3' with f1 f2
          subst f1 f2
          simp only [BufRd.filled, Prod.mk.injEq] at h4
          obtain ⟨rfl, rfl⟩ := h4
          refine .inl ⟨rfl, .inr ⟨Script.pendings g', by omega, g', rfl, e2, rfl, ?_⟩⟩
          rw [hb] at d
          show NoHead (buf ++ ([] ++ Script.bytes g'))
          rw [e4]; exact d
        · rw [e1] at h3'
          injection h3' with f1 f2
          subst f1 f2
          simp only [BufRd.filled, Prod.mk.injEq] at h4
          obtain ⟨rfl, rfl⟩ := h4
          exact .inl ⟨rfl, .inl ⟨by omega, rfl⟩⟩
        · rw [e1] at h3'
          injection h3' with f1 f2
          subst f1 f2
          simp only [BufRd.filled, Prod.mk.injEq] at h4
          obtain ⟨rfl, rfl⟩ := h4
          exact .inr ⟨bs, rfl, e2, rfl, g', rfl, e3, by omega, by rw [hb, e5]; rfl⟩
      · rename_i hb
        simp only [Run.ret.injEq, Prod.mk.injEq] at h1'
        obtain ⟨rfl, rfl⟩ := h1'
        exact .inr ⟨r.buf, rfl, hb, rfl, g, a, b, c, rfl⟩
    rcases hfill with ⟨rfl, hf⟩ | ⟨bs, rfl, f1, f2, g', f3, f4, f5, f6⟩
    · simp only [Run.ret.injEq] at h2
      subst h2
      exact ⟨r1, buf, nread, rfl, hf⟩
    · rw [f6] at d
      have next : ∀ line tl, bs = line ++ tl → Waits rest j (buf ++ line) (consume r1 line.length) := by
        intro line tl hl
        refine ⟨g', f3, f4, f5, ?_⟩
        have : (consume r1 line.length).buf = tl := by
          show r1.buf.drop line.length = tl
          rw [f2, hl]; simp
        rw [this]
        rw [hl] at d
        simpa using d
      dsimp only at h2
      split at h2
      · rename_i line hl
        obtain ⟨q, tl, g1, g2, g3⟩ := lineOf_some hl
        rw [if_neg] at h2
        · exact ih (next line tl g1) h2
        · rw [endsHead_iff]
          refine d _ ⟨tl ++ Script.bytes g', ?_⟩
          rw [g1]; simp
      · rw [if_neg f1] at h2
        exact ih (next bs [] (by simp)) h2

theorem awaitDecode_fires {env : Env} {opts : ServerOpts} (ho : opts.timeout = true) {fuel : Nat} {pool : Pool} {rest : Script} {ck : List Bool} (n : Nat) :
    ∀ {j nread : Nat} {buf : Bytes} {r : BufRd Script} {w w' : Writer} {clock' : List Bool} {a : Await Script}, Waits rest j buf r →
    awaitDecode env opts fuel pool n (.head r buf nread) w (List.replicate j false ++ true :: ck) = .ret (w', clock', a) →
    w' = w ∧ clock' = ck ∧ a = .timedOut rest := by
  induction n with
  | zero => intro j nread buf r w w' clock' a _ h; simp [awaitDecode] at h
  | succ n ih =>
    intro j nread buf r w w' clock' a hw h
    simp only [awaitDecode] at h
    obtain ⟨⟨w1, p⟩, h1, h2⟩ := Run.bind_eq_ret.1 h
    simp only [DecFut.poll] at h1
    obtain ⟨hp, h3, h4⟩ := Run.bind_eq_ret.1 h1
    obtain ⟨r', buf', nread', rfl, hj⟩ := headGo_waits fuel hw h3
    simp only [Run.ret.injEq, Prod.mk.injEq] at h4
    obtain ⟨rfl, rfl⟩ := h4
    dsimp only at h2
    rw [if_pos ho] at h2
    rcases hj with ⟨rfl, hr⟩ | ⟨j', rfl, hw'⟩
    · simp only [List.replicate_zero, List.nil_append, Run.ret.injEq, Prod.mk.injEq] at h2
      obtain ⟨rfl, rfl, rfl⟩ := h2
      exact ⟨rfl, rfl, by show Await.timedOut r'.inner = _; rw [hr]⟩
    · simp only [List.replicate_succ, List.cons_append] at h2
      exact ih hw' h2

section
variable {σ : Type} [AsyncBufRead σ]

theorem acceptStep_fires {env : Env} {opts : ServerOpts} (ho : opts.timeout = true) {endpoint : Endpoint σ} {n : Nat} {g rest : Script} {w : Writer} {ck : List Bool}
    (hg : Script.ending g = none) (hn : NoHead (Script.bytes g)) :
    ∃ N, ∀ fuel ≥ N, acceptStep env opts endpoint fuel n ⟨g ++ .pending :: rest, w, List.replicate (Script.pendings g) false ++ true :: ck⟩ =
      .ret (⟨rest, w, ck⟩, [], some .ok) := by
  refine ⟨(rem (g ++ .pending :: rest)).length + 2 + (meas (g ++ .pending :: rest) + w.script.length + 1), fun fuel hf => ?_⟩
  unfold acceptStep
  rcases awaitDecode_spec (env := env) (opts := opts) (pool := env.pool n) fuel fuel (List.replicate (Script.pendings g) false ++ true :: ck)
      (decInv_start (g ++ .pending :: rest) w) with ⟨_, k2⟩ | ⟨w', clock', a, k1, k2⟩
  · omega
  · dsimp only
    rw [k1]
    have hw : Waits rest (Script.pendings g) [] (BufRd.new (g ++ .pending :: rest)) := ⟨g, rfl, hg, rfl, hn⟩
    obtain ⟨rfl, rfl, rfl⟩ := awaitDecode_fires ho fuel hw k1
    simp [interimEvent]

end

/-! ## It does not matter once the head is there -/

theorem writeAllGo_free (fuel : Nat) : ∀ {w w' : Writer} {todo t : Bytes}, w.script = [] → writeAllGo fuel w todo = .ret (w', .pending t) → False := by
  induction fuel with
  | zero => intro w w' todo t _ h; simp [writeAllGo] at h
  | succ fuel ih =>
    intro w w' todo t hw h
    simp only [writeAllGo] at h
    split at h
    · simp at h
    · have : w.write todo = ({ w with got := w.got ++ todo }, .ready todo.length) := by
        unfold Writer.write; rw [hw]
      rw [this] at h
      dsimp only at h
      split at h
      · simp at h
      · exact ih (w := { w with got := w.got ++ todo }) hw h

theorem pollInterim_free {uriOk : Bytes → Bool} {pool : Pool} {r : BufRd Script} {p : Parsed} {todo : Bytes} {w w' : Writer} {f : DecFut Script}
    (hw : w.script = []) (h : pollInterim uriOk pool r p todo w = .ret (w', .pending f)) : False := by
  unfold pollInterim writeAll at h
  obtain ⟨⟨w1, x⟩, h1, h2⟩ := Run.bind_eq_ret.1 h
  cases x with
  | pending t => exact writeAllGo_free _ hw h1
  | err e => simp at h2
  | done => simp at h2

theorem awaitDecode_intime {env : Env} {o1 o2 : ServerOpts} {fuel : Nat} {pool : Pool} {rest : Script} {h body : Bytes} (hh : FirstHead h h) {w : Writer} (hw : w.script = []) (n : Nat) :
    ∀ {m : Nat} {f : DecFut Script} {c1 c2 : List Bool}, FutAl rest m h body f → Unfired o1 c1 m → Unfired o2 c2 m →
    ∀ w' a, (∃ k, awaitDecode env o1 fuel pool n f w c1 = .ret (w', k, a)) → ∃ k, awaitDecode env o2 fuel pool n f w c2 = .ret (w', k, a) := by
  induction n with
  | zero => intro m f c1 c2 hi h1 h2 w' a h; simp [awaitDecode] at h
  | succ n ih =>
    intro m f c1 c2 hi u1 u2 w' a ⟨k, hk⟩
    simp only [awaitDecode] at hk ⊢
    obtain ⟨⟨w1, d⟩, k1, k2⟩ := Run.bind_eq_ret.1 hk
    rw [k1]
    simp only [Run.ret_bind] at k2 ⊢
    cases d with
    | ready r =>
      simp only [Run.ret.injEq, Prod.mk.injEq] at k2
      obtain ⟨rfl, _, rfl⟩ := k2
      exact ⟨c2, rfl⟩
    | pending f' =>
      have key : w1 = w ∧ 0 < m ∧ FutAl rest (m - 1) h body f' := by
        cases f with
        | interim r p todo =>
          simp only [DecFut.poll] at k1
          exact (pollInterim_free hw k1).elim
        | head r buf nread =>
          simp only [DecFut.poll] at k1
          obtain ⟨hp, h3, h4⟩ := Run.bind_eq_ret.1 k1
          obtain ⟨y, a1, a2, a3⟩ := hi
          rcases headGo_al hh fuel a1 a2 a3 h3 with ⟨r', buf', n', y', rfl, b2, b3, b4, b5⟩ | ⟨r', rfl, b2⟩
          · simp only [Run.ret.injEq, Prod.mk.injEq, DecPoll.pending.injEq] at h4
            rw [← h4.2]
            exact ⟨h4.1.symm, b4, y', b2, b3, b5⟩
          · dsimp only at h4
            split at h4
            · simp at h4
            · exact (pollInterim_free hw h4).elim
      obtain ⟨rfl, hm, hi'⟩ := key
      dsimp only at k2 ⊢
      have tail : ∀ {t : Bool} {c : List Bool}, (∀ x ∈ (t :: c).take m, x = false) → t = false ∧ ∀ x ∈ c.take (m - 1), x = false := by
        intro t c hc
        obtain ⟨j, rfl⟩ : ∃ j, m = j + 1 := ⟨m - 1, by omega⟩
        rw [List.take_succ_cons] at hc
        exact ⟨hc t List.mem_cons_self, fun x hx => hc x (List.mem_cons_of_mem _ hx)⟩
      have left : ∃ c1' k', Unfired o1 c1' (m - 1) ∧ awaitDecode env o1 fuel pool n f' w1 c1' = .ret (w', k', a) := by
        split at k2
        · rename_i ht
          have u1' : ∀ t ∈ c1.take m, t = false := by
            rcases u1 with u | u
            · rw [ht] at u; cases u
            · exact u
          split at k2
          · have := (tail u1').1; cases this
          · exact ⟨_, k, .inr (tail u1').2, k2⟩
          · exact ⟨[], k, .inr (by simp), k2⟩
        · rename_i ht
          exact ⟨c1, k, .inl (by simpa using ht), k2⟩
      obtain ⟨c1', k', v1, v2⟩ := left
      split
      · rename_i ht
        have u2' : ∀ t ∈ c2.take m, t = false := by
          rcases u2 with u | u
          · rw [ht] at u; cases u
          · exact u
        split
        · have := (tail u2').1; cases this
        · exact ih hi' v1 (.inr (tail u2').2) _ _ ⟨k', v2⟩
        · exact ih hi' v1 (.inr (by simp)) _ _ ⟨k', v2⟩
      · rename_i ht
        exact ih hi' v1 (.inl (by simpa using ht)) _ _ ⟨k', v2⟩

section
variable {σ : Type} [AsyncBufRead σ]

/-- The head of the request lies in the first part `g` of what the connection does. -/
theorem acceptStep_intime {env : Env} {o1 o2 : ServerOpts} (ho : o1.verboseGlitch = o2.verboseGlitch) {endpoint : Endpoint σ} {fuel n : Nat} {g rest rd' : Script} {w w' : Writer}
    {c1 c2 k : List Bool} {ev : List Event} {res : Option AcceptRes} {h : Bytes} (hg : Script.ending g = none) (hh : FirstHead (Script.bytes g) h) (hw : w.script = [])
    (u1 : Unfired o1 c1 (Script.pendings g)) (u2 : Unfired o2 c2 (Script.pendings g))
    (hs : acceptStep env o1 endpoint fuel n ⟨g ++ rest, w, c1⟩ = .ret (⟨rd', w', k⟩, ev, res)) :
    ∃ k', acceptStep env o2 endpoint fuel n ⟨g ++ rest, w, c2⟩ = .ret (⟨rd', w', k'⟩, ev, res) := by
  unfold acceptStep at hs ⊢
  obtain ⟨⟨w1, ck, a⟩, h1, h2⟩ := Run.bind_eq_ret.1 hs
  obtain ⟨body, hb⟩ := hh.1
  have hne : h ≠ [] := by
    obtain ⟨q, hq⟩ := hh.2.1
    rw [hq]; simp
  have hf : FutAl rest (Script.pendings g) h body (DecFut.start (g ++ rest)) :=
    ⟨h, rfl, hne, g, rfl, hg, Nat.le_refl _, by rw [hb]; rfl⟩
  have hself : FirstHead h h := ⟨List.prefix_refl _, hh.2.1, hh.2.2⟩
  obtain ⟨ck', h1'⟩ := awaitDecode_intime hself hw fuel hf u1 u2 w1 a ⟨ck, h1⟩
  rw [h1']
  simp only [Run.ret_bind]
  cases a with
  | timedOut io =>
    simp only [Run.ret.injEq, Prod.mk.injEq, Conn.mk.injEq] at h2
    obtain ⟨⟨rfl, rfl, rfl⟩, rfl, rfl⟩ := h2
    exact ⟨_, rfl⟩
  | ready r =>
    cases r with
    | none io =>
      simp only [Run.ret.injEq, Prod.mk.injEq, Conn.mk.injEq] at h2
      obtain ⟨⟨rfl, rfl, rfl⟩, rfl, rfl⟩ := h2
      exact ⟨_, rfl⟩
    | fail f io =>
      dsimp only at h2 ⊢
      obtain ⟨⟨w2, ev2⟩, h3, h4⟩ := Run.bind_eq_ret.1 h2
      simp only [Run.ret.injEq, Prod.mk.injEq, Conn.mk.injEq] at h4
      obtain ⟨⟨rfl, rfl, rfl⟩, rfl, rfl⟩ := h4
      rw [h3]
      exact ⟨_, rfl⟩
    | request req =>
      dsimp only at h2 ⊢
      obtain ⟨⟨b, w2, ev2, g⟩, h3, h4⟩ := Run.bind_eq_ret.1 h2
      dsimp only at h4
      obtain ⟨⟨w3, ev3⟩, h5, h6⟩ := Run.bind_eq_ret.1 h4
      simp only [Run.ret.injEq, Prod.mk.injEq, Conn.mk.injEq] at h6
      obtain ⟨⟨rfl, rfl, rfl⟩, rfl, rfl⟩ := h6
      have h5' : answerGlitch env o2 fuel n g w2 = .ret (w3, ev3) := by
        rw [← h5]; unfold answerGlitch; rw [ho]
      rw [h3]
      simp only [Run.ret_bind]
      rw [h5']
      exact ⟨_, rfl⟩

end

end Tophat
