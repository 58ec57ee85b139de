import Verif.Proofs.Thru
/-! The accept loop over readers that behave alike until the end of the stream. -/

set_option linter.unusedSectionVars false

namespace Tophat
open Spec

section
variable {ρ ρ' : Type}

/-- The same with another reader inside. -/
def HeadPoll.on (f : ρ → ρ') : HeadPoll ρ → HeadPoll ρ'
  | .pending r buf n => .pending (r.on f) buf n
  | .lost r e => .lost (r.on f) e
  | .none r => .none (r.on f)
  | .head r buf => .head (r.on f) buf
@[inherit_doc HeadPoll.on] def DecFut.on (f : ρ → ρ') : DecFut ρ → DecFut ρ'
  | .head r buf n => .head (r.on f) buf n
  | .interim r p todo => .interim (r.on f) p todo
@[inherit_doc HeadPoll.on] def DecRes.on (f : ρ → ρ') : DecRes ρ → DecRes ρ'
  | .none io => .none (f io)
  | .fail e io => .fail e (f io)
  | .request r => .request ⟨r.head, r.body.on f, r.length⟩
@[inherit_doc HeadPoll.on] def DecPoll.on (f : ρ → ρ') : DecPoll ρ → DecPoll ρ'
  | .pending x => .pending (x.on f)
  | .ready r => .ready (r.on f)
@[inherit_doc HeadPoll.on] def Await.on (f : ρ → ρ') : Await ρ → Await ρ'
  | .timedOut io => .timedOut (f io)
  | .ready r => .ready (r.on f)
@[inherit_doc HeadPoll.on] def Conn.on (f : ρ → ρ') (c : Conn ρ) : Conn ρ' := ⟨f c.rd, c.wr, c.clock⟩

theorem DecFut.on_io (f : ρ → ρ') (x : DecFut ρ) : (x.on f).io = f x.io := by cases x <;> rfl
theorem ReqBody.on_io (f : ρ → ρ') (x : ReqBody ρ) : (x.on f).io = f x.io := by cases x <;> rfl

theorem finishDecode_on (f : ρ → ρ') (uriOk : Bytes → Bool) (pool : Pool) (r : BufRd ρ) (p : Parsed) :
    finishDecode uriOk pool (r.on f) p = (finishDecode uriOk pool r p).on f := by
  unfold finishDecode
  dsimp only
  split
  · split
    · split <;> rfl
    · rfl
  · rfl

end

section
variable {ρ ρ' : Type} [AsyncRead ρ] [LawfulRead ρ] [AsyncRead ρ'] {f : ρ → ρ'}

theorem pollInterim_on (uriOk : Bytes → Bool) (pool : Pool) {r : BufRd ρ} {p : Parsed} {todo : Bytes} {w w' : Writer} {x : DecPoll ρ}
    (h : pollInterim uriOk pool r p todo w = .ret (w', x)) : pollInterim uriOk pool (r.on f) p todo w = .ret (w', x.on f) := by
  unfold pollInterim at h ⊢
  obtain ⟨⟨w1, y⟩, h1, h2⟩ := Run.bind_eq_ret.1 h
  rw [h1]
  simp only [Run.ret_bind]
  cases y with
  | pending t => simp only [Run.ret.injEq, Prod.mk.injEq] at h2; obtain ⟨rfl, rfl⟩ := h2; rfl
  | err e => simp only [Run.ret.injEq, Prod.mk.injEq] at h2; obtain ⟨rfl, rfl⟩ := h2; rfl
  | done =>
    simp only [Run.ret.injEq, Prod.mk.injEq] at h2
    obtain ⟨rfl, rfl⟩ := h2
    rw [finishDecode_on]; rfl

/-- Reading a head that comes before the end of the stream. -/
theorem headGo_thru (hf : Thru f) {hd : Bytes} (fuel : Nat) : ∀ {r : BufRd ρ} {buf : Bytes} {nread : Nat} {x : HeadPoll ρ},
    headGo fuel r buf nread = .ret x → NoHead buf → FirstHead (buf ++ rem r) hd → headGo fuel (r.on f) buf nread = .ret (x.on f) := by
  induction fuel with
  | zero => intro r buf nread x h; cases h
  | succ fuel ih =>
    intro r buf nread x h hb hh
    obtain ⟨r', p, hp, ho⟩ := LawfulBufRead.fill_ok r
    simp only [headGo] at h ⊢
    rw [hp] at h
    simp only [Run.ret_bind] at h
    have hne : p ≠ .data [] := by
      rintro rfl
      cases ho with
      | data a b c d e =>
        rw [(e rfl).1, List.append_nil] at hh
        exact hh.not_noHead hb
    have hp' : pollFill (r.on f) = .ret (r'.on f, p) := BufRd.fill_thru hf hp hne
    rw [hp']
    simp only [Run.ret_bind]
    cases ho with
    | pending a b c => simp only [Run.ret.injEq] at h; subst h; rfl
    | err a b => simp only [Run.ret.injEq] at h; subst h; rfl
    | data a b c d e g =>
      rename_i bs
      have hbs : bs ≠ [] := fun h => hne (by rw [h])
      dsimp only at h ⊢
      cases hl : lineOf bs with
      | some line =>
        rw [hl] at h
        dsimp only at h ⊢
        obtain ⟨q, rest, h1, h2, h3⟩ := lineOf_some hl
        have hle : line.length ≤ bs.length := by rw [h1]; simp
        obtain ⟨g1, g2, g3⟩ := g _ hle
        have hrem : rem r = line ++ rem (consume r' line.length) := by
          obtain ⟨z, hz⟩ := d
          rw [g1, ← hz, h1]; simp
        split at h
        · rename_i hend
          rw [if_pos hend]
          simp only [Run.ret.injEq] at h; subst h; rfl
        · rename_i hend
          rw [if_neg hend]
          rw [endsHead_iff] at hend
          have hnb : NoHead (buf ++ line) := by rw [h2] at hend ⊢; exact NoHead.line h3 hb hend
          exact ih h hnb (by rw [List.append_assoc, ← hrem]; exact hh)
      | none =>
        rw [hl] at h
        dsimp only at h ⊢
        rw [if_neg hbs] at h ⊢
        have hno := lineOf_none hl
        obtain ⟨g1, g2, g3⟩ := g _ (Nat.le_refl _)
        have hrem : rem r = bs ++ rem (consume r' bs.length) := by
          obtain ⟨z, hz⟩ := d
          rw [g1, ← hz]; simp
        exact ih h (hb.append hno) (by rw [List.append_assoc, ← hrem]; exact hh)

/-- The head has not been read yet, but comes. -/
def DecFut.Coming (hd : Bytes) : DecFut ρ → Prop
  | .head r buf _ => NoHead buf ∧ FirstHead (buf ++ rem r) hd
  | .interim _ _ _ => True

theorem DecFut.poll_thru (hf : Thru f) {hd : Bytes} {uriOk : Bytes → Bool} {pool : Pool} {fuel : Nat} {x : DecFut ρ} {w w' : Writer} {y : DecPoll ρ}
    (h : x.poll uriOk pool fuel w = .ret (w', y)) (hx : x.Coming hd) :
    (x.on f).poll uriOk pool fuel w = .ret (w', y.on f) ∧ ∀ x', y = .pending x' → x'.Coming hd := by
  cases x with
  | interim r p todo =>
    refine ⟨pollInterim_on uriOk pool h, ?_⟩
    rintro x' rfl
    simp only [DecFut.poll, pollInterim] at h
    obtain ⟨⟨w1, z⟩, h1, h2⟩ := Run.bind_eq_ret.1 h
    cases z with
    | pending t => simp only [Run.ret.injEq, Prod.mk.injEq, DecPoll.pending.injEq] at h2; rw [← h2.2]; trivial
    | err e => simp at h2
    | done => simp at h2
  | head r buf nread =>
    obtain ⟨hb, hh⟩ := hx
    simp only [DecFut.poll] at h
    obtain ⟨z, h1, h2⟩ := Run.bind_eq_ret.1 h
    have h1' := headGo_thru hf fuel h1 hb hh
    simp only [DecFut.on, DecFut.poll]
    rw [h1']
    simp only [Run.ret_bind]
    rcases headGo_spec fuel r buf nread hb with ⟨k1, _⟩ | ⟨z', k1, k2⟩
    · rw [k1] at h1; cases h1
    rw [k1] at h1
    injection h1 with h1; subst h1
    cases z' with
    | pending r' buf' n' =>
      simp only [Run.ret.injEq, Prod.mk.injEq] at h2
      obtain ⟨rfl, rfl⟩ := h2
      refine ⟨rfl, ?_⟩
      intro x' hx'
      injection hx' with hx'; subst hx'
      cases k2 with
      | pending a b c d => exact ⟨a, by rw [b]; exact hh⟩
    | lost r' e =>
      simp only [Run.ret.injEq, Prod.mk.injEq] at h2
      obtain ⟨rfl, rfl⟩ := h2
      exact ⟨rfl, by simp⟩
    | none r' =>
      simp only [Run.ret.injEq, Prod.mk.injEq] at h2
      obtain ⟨rfl, rfl⟩ := h2
      exact ⟨rfl, by simp⟩
    | head r' buf' =>
      simp only [HeadPoll.on]
      dsimp only at h2
      cases hp : parseHead buf' with
      | fail e =>
        rw [hp] at h2
        simp only [Run.ret.injEq, Prod.mk.injEq] at h2
        obtain ⟨rfl, rfl⟩ := h2
        exact ⟨rfl, by simp⟩
      | ok p =>
        rw [hp] at h2
        refine ⟨pollInterim_on uriOk pool h2, ?_⟩
        rintro x' rfl
        simp only [pollInterim] at h2
        obtain ⟨⟨w1, z⟩, h3, h4⟩ := Run.bind_eq_ret.1 h2
        cases z with
        | pending t => simp only [Run.ret.injEq, Prod.mk.injEq, DecPoll.pending.injEq] at h4; rw [← h4.2]; trivial
        | err e => simp at h4
        | done => simp at h4

theorem awaitDecode_thru (hf : Thru f) {hd : Bytes} {env : Env} {opts : ServerOpts} {pool : Pool} {fuel : Nat} (n : Nat) :
    ∀ {x : DecFut ρ} {w w' : Writer} {ck ck' : List Bool} {a : Await ρ}, awaitDecode env opts fuel pool n x w ck = .ret (w', ck', a) → x.Coming hd →
    awaitDecode env opts fuel pool n (x.on f) w ck = .ret (w', ck', a.on f) := by
  induction n with
  | zero => intro x w w' ck ck' a h; cases h
  | succ n ih =>
    intro x w w' ck ck' a h hx
    simp only [awaitDecode] at h ⊢
    obtain ⟨⟨w1, p⟩, h1, h2⟩ := Run.bind_eq_ret.1 h
    obtain ⟨g1, g2⟩ := DecFut.poll_thru hf h1 hx
    rw [g1]
    simp only [Run.ret_bind]
    cases p with
    | ready r =>
      simp only [Run.ret.injEq, Prod.mk.injEq] at h2
      obtain ⟨rfl, rfl, rfl⟩ := h2
      rfl
    | pending x' =>
      have hx' := g2 x' rfl
      simp only [DecPoll.on]
      dsimp only at h2
      split at h2
      · rename_i ho
        rw [if_pos ho]
        cases ck with
        | nil => exact ih h2 hx'
        | cons t ck =>
          cases t with
          | true =>
            simp only [Run.ret.injEq, Prod.mk.injEq] at h2
            obtain ⟨rfl, rfl, rfl⟩ := h2
            simp only [DecFut.on_io]; rfl
          | false => exact ih h2 hx'
      · rename_i ho
        rw [if_neg ho]
        exact ih h2 hx'

end

/-! ## The endpoint -/

section
variable {ρ ρ' : Type} [AsyncRead ρ] [AsyncRead ρ'] {f : ρ → ρ'} {σ : Type} [AsyncBufRead σ]

/-- `I b rs`: the body `b` and its image behave alike for the reads `rs` to come. -/
def Alike (f : ρ → ρ') (I : ReqBody ρ → List (Nat × RPoll) → Prop) : Prop :=
  ∀ b k p rs b', I b ((k, p) :: rs) → pollRead b k = .ret (b', p) → pollRead (b.on f) k = .ret (b'.on f, p) ∧ I b' rs

theorem runAfter_thru {I : ReqBody ρ → List (Nat × RPoll) → Prop} (hI : Alike f I) {t : Bool} (a : After t) :
    ∀ {b b' : ReqBody ρ} {ev : List Event} {g : Option Glitch}, runAfter a b = .ret (b', ev, g) → I b (bodyReads ev) →
    runAfter a (b.on f) = .ret (b'.on f, ev, g) := by
  induction a with
  | read k next ih =>
    intro b b' ev g h hi
    simp only [runAfter] at h ⊢
    obtain ⟨⟨b1, p⟩, h1, h2⟩ := Run.bind_eq_ret.1 h
    dsimp only at h2
    obtain ⟨⟨b2, ev2, g2⟩, h3, h4⟩ := Run.bind_eq_ret.1 h2
    simp only [Run.ret.injEq, Prod.mk.injEq] at h4
    obtain ⟨rfl, rfl, rfl⟩ := h4
    obtain ⟨i1, i2⟩ := hI _ _ _ _ _ hi h1
    rw [i1]
    simp only [Run.ret_bind]
    rw [ih p h3 i2]
    rfl
  | ok =>
    intro b b' ev g h _
    simp only [runAfter, Run.ret.injEq, Prod.mk.injEq] at h ⊢
    obtain ⟨rfl, rfl, rfl⟩ := h
    exact ⟨rfl, rfl, rfl⟩
  | glitch =>
    intro b b' ev g h _
    simp only [runAfter, Run.ret.injEq, Prod.mk.injEq] at h ⊢
    obtain ⟨rfl, rfl, rfl⟩ := h
    exact ⟨rfl, rfl, rfl⟩

theorem runProg_thru {I : ReqBody ρ → List (Nat × RPoll) → Prop} (hI : Alike f I) {env : Env} {fuel n : Nat} (a : Prog σ) :
    ∀ {b b' : ReqBody ρ} {w w' : Writer} {ev : List Event} {g : Option Glitch}, runProg env fuel n a b w = .ret (b', w', ev, g) → I b (bodyReads ev) →
    runProg env fuel n a (b.on f) w = .ret (b'.on f, w', ev, g) := by
  induction a with
  | read k next ih =>
    intro b b' w w' ev g h hi
    simp only [runProg] at h ⊢
    obtain ⟨⟨b1, p⟩, h1, h2⟩ := Run.bind_eq_ret.1 h
    dsimp only at h2
    obtain ⟨⟨b2, w2, ev2, g2⟩, h3, h4⟩ := Run.bind_eq_ret.1 h2
    simp only [Run.ret.injEq, Prod.mk.injEq] at h4
    obtain ⟨rfl, rfl, rfl, rfl⟩ := h4
    obtain ⟨i1, i2⟩ := hI _ _ _ _ _ hi h1
    rw [i1]
    simp only [Run.ret_bind]
    rw [ih p h3 i2]
    rfl
  | send resp onOk onErr =>
    intro b b' w w' ev g h hi
    simp only [runProg] at h ⊢
    obtain ⟨⟨w1, r⟩, h1, h2⟩ := Run.bind_eq_ret.1 h
    rw [h1]
    simp only [Run.ret_bind]
    dsimp only at h2
    cases r with
    | running => cases h2
    | err e =>
      dsimp only at h2 ⊢
      obtain ⟨⟨b2, ev2, g2⟩, h3, h4⟩ := Run.bind_eq_ret.1 h2
      simp only [Run.ret.injEq, Prod.mk.injEq] at h4
      obtain ⟨rfl, rfl, rfl, rfl⟩ := h4
      rw [runAfter_thru hI _ h3 hi]
      rfl
    | ok amt =>
      dsimp only at h2 ⊢
      obtain ⟨⟨b2, ev2, g2⟩, h3, h4⟩ := Run.bind_eq_ret.1 h2
      simp only [Run.ret.injEq, Prod.mk.injEq] at h4
      obtain ⟨rfl, rfl, rfl, rfl⟩ := h4
      rw [runAfter_thru hI _ h3 hi]
      rfl
  | sendFor steps resp onOk onErr onDrop =>
    intro b b' w w' ev g h hi
    simp only [runProg] at h ⊢
    obtain ⟨⟨w1, r⟩, h1, h2⟩ := Run.bind_eq_ret.1 h
    rw [h1]
    simp only [Run.ret_bind]
    dsimp only at h2
    cases r with
    | running =>
      dsimp only at h2 ⊢
      obtain ⟨⟨b2, ev2, g2⟩, h3, h4⟩ := Run.bind_eq_ret.1 h2
      simp only [Run.ret.injEq, Prod.mk.injEq] at h4
      obtain ⟨rfl, rfl, rfl, rfl⟩ := h4
      rw [runAfter_thru hI _ h3 hi]
      rfl
    | err e =>
      dsimp only at h2 ⊢
      obtain ⟨⟨b2, ev2, g2⟩, h3, h4⟩ := Run.bind_eq_ret.1 h2
      simp only [Run.ret.injEq, Prod.mk.injEq] at h4
      obtain ⟨rfl, rfl, rfl, rfl⟩ := h4
      rw [runAfter_thru hI _ h3 hi]
      rfl
    | ok amt =>
      dsimp only at h2 ⊢
      obtain ⟨⟨b2, ev2, g2⟩, h3, h4⟩ := Run.bind_eq_ret.1 h2
      simp only [Run.ret.injEq, Prod.mk.injEq] at h4
      obtain ⟨rfl, rfl, rfl, rfl⟩ := h4
      rw [runAfter_thru hI _ h3 hi]
      rfl
  | glitch =>
    intro b b' w w' ev g h hi
    simp only [runProg, Run.ret.injEq, Prod.mk.injEq] at h ⊢
    obtain ⟨rfl, rfl, rfl, rfl⟩ := h
    exact ⟨rfl, rfl, rfl, rfl⟩

end

section
variable {ρ ρ' : Type} [AsyncRead ρ] [LawfulRead ρ] [AsyncRead ρ'] {f : ρ → ρ'} {σ : Type} [AsyncBufRead σ]

theorem decFut_start_on (f : ρ → ρ') (r : ρ) : (DecFut.start r).on f = DecFut.start (f r) := rfl

/-- An iteration of the accept loop, if the head comes before the end of the stream and the body does not come upon it. -/
theorem acceptStep_thru (hf : Thru f) {I : ReqBody ρ → List (Nat × RPoll) → Prop} (hI : Alike f I) {env : Env} {opts : ServerOpts} {endpoint : Endpoint σ} {fuel n : Nat}
    {c c' : Conn ρ} {ev : List Event} {res : Option AcceptRes} {hd : Bytes} (hh : FirstHead (rem c.rd) hd)
    (h : acceptStep env opts endpoint fuel n c = .ret (c', ev, res))
    (hb : ∀ head len body, .call head len ∈ ev → BodyAt (env.pool n) ((rem c.rd).drop hd.length) (fin c.rd) (meas c.rd + c.wr.script.length) len body → I body (bodyReads ev)) :
    acceptStep env opts endpoint fuel n (c.on f) = .ret (c'.on f, ev, res) := by
  unfold acceptStep at h ⊢
  obtain ⟨⟨w, ck, a⟩, h1, h2⟩ := Run.bind_eq_ret.1 h
  have hstart : (DecFut.start c.rd).Coming hd := by
    refine ⟨noHead_nil, ?_⟩
    show FirstHead ([] ++ ([] ++ rem c.rd)) hd
    exact hh
  have h1' := awaitDecode_thru hf fuel h1 hstart
  rw [decFut_start_on] at h1'
  show (awaitDecode env opts fuel (env.pool n) fuel (DecFut.start (f c.rd)) c.wr c.clock >>= _) = _
  rw [h1']
  simp only [Run.ret_bind]
  rcases awaitDecode_spec (env := env) (opts := opts) (pool := env.pool n) fuel fuel c.clock (decInv_start c.rd c.wr) with
    ⟨k1, _⟩ | ⟨w2, ck2, a2, k1, k2⟩
  · rw [k1] at h1; cases h1
  rw [k1] at h1
  injection h1 with h1; injection h1 with e1 h1; injection h1 with e2 e3
  subst e1 e2 e3
  cases a2 with
  | timedOut io =>
    simp only [Run.ret.injEq, Prod.mk.injEq] at h2
    obtain ⟨rfl, rfl, rfl⟩ := h2
    rfl
  | ready r =>
    cases r with
    | none io =>
      simp only [Run.ret.injEq, Prod.mk.injEq] at h2
      obtain ⟨rfl, rfl, rfl⟩ := h2
      rfl
    | fail e io =>
      dsimp only [Await.on, DecRes.on] at h2 ⊢
      obtain ⟨⟨w3, ev3⟩, h3, h4⟩ := Run.bind_eq_ret.1 h2
      simp only [Run.ret.injEq, Prod.mk.injEq] at h4
      obtain ⟨rfl, rfl, rfl⟩ := h4
      rw [h3]
      rfl
    | request req =>
      dsimp only [Await.on, DecRes.on] at h2 ⊢
      obtain ⟨⟨b1, w3, ev1, g⟩, h3, h4⟩ := Run.bind_eq_ret.1 h2
      dsimp only at h4
      obtain ⟨⟨w4, ev2⟩, h5, h6⟩ := Run.bind_eq_ret.1 h4
      simp only [Run.ret.injEq, Prod.mk.injEq] at h6
      obtain ⟨rfl, rfl, rfl⟩ := h6
      cases k2 with
      | ready x y z u =>
        have := x.decided
        cases this with
        | serve b1' b2' b3' b4' b5' b6' b7' =>
          have e := b1'.unique hh; subst e
          have hi := hb _ _ _ (List.mem_append_right _ (List.mem_cons_self ..)) b7'
          have hr : ∀ hd' len', bodyReads (interimEvent c.wr w2 ++ Event.call hd' len' :: (ev1 ++ ev2)) = bodyReads ev1 := by
            intro hd' len'
            rw [bodyReads_append, bodyReads_interimEvent]
            simp only [List.nil_append, bodyReads]
            rw [bodyReads_append, answerGlitch_reads h5, List.append_nil]
          rw [hr] at hi
          rw [runProg_thru hI _ h3 hi]
          simp only [Run.ret_bind]
          rw [h5]
          simp only [Run.ret_bind, ReqBody.on_io]
          rfl

end

end Tophat
