import Verif.Proofs.Isolation
import Verif.Proofs.KeepAlive
/-! Bytes that have come in one packet with a request, behind its body. -/

set_option linter.unusedSectionVars false
set_option synthInstance.maxSize 1000

namespace Tophat
open Spec

section
variable {ρ : Type} [AsyncRead ρ]

/-! ## The head -/

theorem fill_in (io : ρ) {x : Bytes} (hx : x ≠ []) : pollFill (⟨io, x⟩ : BufRd ρ) = .ret (⟨io, x⟩, .data x) := by
  simp [pollFill, BufRd.fill, hx]

/-- The first read takes the packet into the buffer. -/
theorem headGo_first {io io1 : ρ} {p : Bytes} (h : pollRead io bufRdCap = .ret (io1, .data p)) (hp : p ≠ []) (fuel : Nat) :
    headGo fuel (⟨io, []⟩ : BufRd ρ) [] 0 = headGo fuel (⟨io1, p⟩ : BufRd ρ) [] 0 := by
  cases fuel with
  | zero => rfl
  | succ fuel =>
    have : pollFill (⟨io, []⟩ : BufRd ρ) = .ret (⟨io1, p⟩, .data p) := by
      simp [pollFill, BufRd.fill, h, BufRd.filled]
    simp only [headGo, this, fill_in io1 hp]

/-- A head that is in the buffer is found there, whatever is behind it. -/
theorem headGo_in {h : Bytes} (hh : FirstHead h h) (io : ρ) (fuel : Nat) : ∀ {nread : Nat} {buf y : Bytes}, h = buf ++ y → y ≠ [] →
    (∀ z, headGo fuel (⟨io, y ++ z⟩ : BufRd ρ) buf nread = .diverge) ∨
    (∀ z, headGo fuel (⟨io, y ++ z⟩ : BufRd ρ) buf nread = .ret (.head ⟨io, z⟩ h)) := by
  induction fuel with
  | zero => intro nread buf y _ _; exact .inl fun _ => rfl
  | succ fuel ih =>
    intro nread buf y hy hne
    have hylf : (10 : UInt8) ∈ y := by
      obtain ⟨q, hq⟩ := hh.2.1
      have h3 : y.getLast? = some 10 := by
        have h4 : (buf ++ y).getLast? = some 10 := by rw [← hy, hq]; simp
        rw [List.getLast?_append] at h4
        cases hq : y.getLast? with
        | none => rw [List.getLast?_eq_none_iff] at hq; exact absurd hq hne
        | some v => rw [hq] at h4; simpa using h4
      exact List.mem_of_getLast? h3
    obtain ⟨line, t, rfl, hline⟩ : ∃ line t, y = line ++ t ∧ ∀ z, lineOf (line ++ t ++ z) = some line := by
      have : ∀ y : Bytes, (10 : UInt8) ∈ y → ∃ line t, y = line ++ t ∧ ∀ z, lineOf (line ++ t ++ z) = some line := by
        intro y
        induction y with
        | nil => simp
        | cons b y ih =>
          intro hm
          by_cases hb : b = 10
          · exact ⟨[b], y, rfl, fun z => by simp [lineOf, hb]⟩
          · obtain ⟨line, t, rfl, hl⟩ := ih (by simpa [Ne.symm hb] using hm)
            refine ⟨b :: line, t, rfl, fun z => ?_⟩
            have := hl z
            simp only [List.cons_append, lineOf, if_neg hb]
            rw [this]; rfl
      exact this y hylf
    have hstep : ∀ z, headGo (fuel + 1) (⟨io, line ++ t ++ z⟩ : BufRd ρ) buf nread =
        if endsHead (buf ++ line) then .ret (.head ⟨io, t ++ z⟩ (buf ++ line)) else headGo fuel (⟨io, t ++ z⟩ : BufRd ρ) (buf ++ line) 0 := by
      intro z
      have hcons : consume (⟨io, line ++ t ++ z⟩ : BufRd ρ) line.length = ⟨io, t ++ z⟩ := by
        show (⟨io, (line ++ t ++ z).drop line.length⟩ : BufRd ρ) = _
        rw [List.append_assoc, List.drop_left]
      simp only [headGo, fill_in io (x := line ++ t ++ z) (by simp_all), Run.ret_bind, hline z, hcons]
    simp only [hstep]
    by_cases hE : endsHead (buf ++ line) = true
    · simp only [hE, if_true]
      have hE' := (endsHead_iff _).1 hE
      have : buf ++ line = h := hh.2.2 _ ⟨t, by rw [hy]; simp⟩ hE'
      have ht0 : t = [] := by
        have h5 := congrArg List.length this
        have h6 := congrArg List.length hy
        simp at h5 h6
        exact List.length_eq_zero_iff.1 (by omega)
      subst ht0
      right
      intro z
      rw [this]; rfl
    · simp only [hE, if_false, Bool.false_eq_true]
      have htne : t ≠ [] := by
        rintro rfl
        apply hE
        rw [endsHead_iff]
        rw [List.append_nil] at hy
        rw [← hy]
        exact hh.2.1
      exact ih (by rw [hy]; simp) htne

/-! ## The body -/

/-- A body of declared length that is in the buffer is read from there, whatever is behind it. -/
theorem read_in (io : ρ) (x z : Bytes) {l : Nat} (hl : l ≤ x.length) (k : Nat) :
    pollRead (ReqBody.fixed ⟨⟨io, x ++ z⟩, l⟩) k = .ret (.fixed ⟨⟨io, x.drop (min k l) ++ z⟩, l - min k l⟩, .data (x.take (min k l))) := by
  show (Take.read (⟨⟨io, x ++ z⟩, l⟩ : Take (BufRd ρ)) k >>= ReqBody.ofFixed) = _
  by_cases h0 : l = 0
  · subst h0
    simp [Take.read, ReqBody.ofFixed]
  · have hne : x ++ z ≠ [] := by
      intro h
      have := congrArg List.length h
      simp at this
      simp [this.1] at hl
      exact h0 hl
    have hm : min k l ≤ x.length := by omega
    have : pollRead (⟨io, x ++ z⟩ : BufRd ρ) (min k l) = .ret (⟨io, x.drop (min k l) ++ z⟩, .data (x.take (min k l))) := by
      show BufRd.read _ _ = _
      simp only [BufRd.read, BufRd.fill, hne, false_and, if_false, Run.ret_bind, BufRd.copyOut, BufRd.drop]
      rw [List.drop_append_of_le_length hm, List.take_append_of_le_length hm]
    simp only [Take.read, if_neg h0, this, Run.ret_bind, Take.counted, ReqBody.ofFixed, List.length_take, Nat.min_eq_left hm]

/-- Two bodies that differ in what is behind them. -/
inductive Behind (io : ρ) : ReqBody ρ → ReqBody ρ → Prop
  | mk {x z z' : Bytes} {l : Nat} : l ≤ x.length → Behind io (.fixed ⟨⟨io, x ++ z⟩, l⟩) (.fixed ⟨⟨io, x ++ z'⟩, l⟩)

theorem Behind.io {io : ρ} {b b' : ReqBody ρ} (h : Behind io b b') : b.io = io ∧ b'.io = io := by
  cases h; exact ⟨rfl, rfl⟩

theorem Behind.read {io : ρ} {b b' : ReqBody ρ} (h : Behind io b b') (k : Nat) :
    RunRel (fun a a' => Behind io a.1 a'.1 ∧ a.2 = a'.2) (pollRead b k) (pollRead b' k) := by
  cases h with
  | mk hl =>
    rw [read_in io _ _ hl, read_in io _ _ hl]
    exact ⟨.mk (by simp; omega), rfl⟩

theorem Behind.runAfter {io : ρ} {f : Bool} (a : After f) : ∀ {b b' : ReqBody ρ}, Behind io b b' →
    RunRel (fun a a' => Behind io a.1 a'.1 ∧ a.2 = a'.2) (runAfter a b) (runAfter a b') := by
  induction a with
  | read k next ih =>
    intro b b' h
    simp only [Tophat.runAfter]
    refine (h.read k).bind ?_
    rintro ⟨b1, p⟩ ⟨b1', p'⟩ ⟨h1, rfl⟩
    refine (ih p h1).bind ?_
    rintro ⟨b2, x⟩ ⟨b2', x'⟩ ⟨h2, rfl⟩
    exact ⟨h2, rfl⟩
  | ok => intro b b' h; exact ⟨h, rfl⟩
  | glitch g => intro b b' h; exact ⟨h, rfl⟩

variable {σ : Type} [AsyncBufRead σ]

theorem Behind.runProg {env : Env} {fuel n : Nat} {io : ρ} (a : Prog σ) : ∀ {b b' : ReqBody ρ} {w : Writer}, Behind io b b' →
    RunRel (fun a a' => Behind io a.1 a'.1 ∧ a.2 = a'.2) (runProg env fuel n a b w) (runProg env fuel n a b' w) := by
  induction a with
  | read k next ih =>
    intro b b' w h
    simp only [Tophat.runProg]
    refine (h.read k).bind ?_
    rintro ⟨b1, p⟩ ⟨b1', p'⟩ ⟨h1, rfl⟩
    refine (ih p h1).bind ?_
    rintro ⟨b2, x⟩ ⟨b2', x'⟩ ⟨h2, rfl⟩
    exact ⟨h2, rfl⟩
  | send resp onOk onErr =>
    intro b b' w h
    simp only [Tophat.runProg]
    refine RunRel.bind_same ?_
    rintro ⟨w', r⟩
    cases r with
    | running => trivial
    | err e =>
      refine (Behind.runAfter (onErr e) h).bind ?_
      rintro ⟨b2, x⟩ ⟨b2', x'⟩ ⟨h2, rfl⟩
      exact ⟨h2, rfl⟩
    | ok amt =>
      refine (Behind.runAfter (onOk amt) h).bind ?_
      rintro ⟨b2, x⟩ ⟨b2', x'⟩ ⟨h2, rfl⟩
      exact ⟨h2, rfl⟩
  | sendFor steps resp onOk onErr onDrop =>
    intro b b' w h
    simp only [Tophat.runProg]
    refine RunRel.bind_same ?_
    rintro ⟨w', r⟩
    cases r with
    | running =>
      refine (Behind.runAfter onDrop h).bind ?_
      rintro ⟨b2, x⟩ ⟨b2', x'⟩ ⟨h2, rfl⟩
      exact ⟨h2, rfl⟩
    | err e =>
      refine (Behind.runAfter (onErr e) h).bind ?_
      rintro ⟨b2, x⟩ ⟨b2', x'⟩ ⟨h2, rfl⟩
      exact ⟨h2, rfl⟩
    | ok amt =>
      refine (Behind.runAfter (onOk amt) h).bind ?_
      rintro ⟨b2, x⟩ ⟨b2', x'⟩ ⟨h2, rfl⟩
      exact ⟨h2, rfl⟩
  | glitch g => intro b b' w h; exact ⟨h, rfl⟩

/-! ## decode -/

/-- Two futures that differ in what is behind the body. -/
inductive FutBehind (io : ρ) (h x : Bytes) : DecFut ρ → DecFut ρ → Prop
  | head {buf y : Bytes} {nread : Nat} {z z' : Bytes} : h = buf ++ y → y ≠ [] → FutBehind io h x (.head ⟨io, y ++ (x ++ z)⟩ buf nread) (.head ⟨io, y ++ (x ++ z')⟩ buf nread)
  | interim {p : Parsed} {todo z z' : Bytes} : parseHead h = .ok p → FutBehind io h x (.interim ⟨io, x ++ z⟩ p todo) (.interim ⟨io, x ++ z'⟩ p todo)

/-- Two results of `decode` that differ in what is behind the body. -/
inductive ResBehind (uriOk : Bytes → Bool) (io : ρ) (h x : Bytes) : DecRes ρ → DecRes ρ → Prop
  | fail (f : DecodeFail) : ResBehind uriOk io h x (.fail f io) (.fail f io)
  | request {head : ReqHead} {z z' : Bytes} {l : Nat} : l ≤ x.length → (∃ i m t fs, Judged uriOk h (.serve i m t fs (some l))) →
      ResBehind uriOk io h x (.request ⟨head, .fixed ⟨⟨io, x ++ z⟩, l⟩, some l⟩) (.request ⟨head, .fixed ⟨⟨io, x ++ z'⟩, l⟩, some l⟩)

inductive PollBehind (uriOk : Bytes → Bool) (io : ρ) (h x : Bytes) : DecPoll ρ → DecPoll ρ → Prop
  | pending {f f' : DecFut ρ} : FutBehind io h x f f' → PollBehind uriOk io h x (.pending f) (.pending f')
  | ready {r r' : DecRes ρ} : ResBehind uriOk io h x r r' → PollBehind uriOk io h x (.ready r) (.ready r')

/-- If the head asks for a request to be served, its body is of a declared length and `x` contains it. -/
def HasBody (uriOk : Bytes → Bool) (h x : Bytes) : Prop :=
  ∀ i m t fs len, Judged uriOk h (.serve i m t fs len) → ∃ k, len = some k ∧ k ≤ x.length

theorem finishDecode_behind {uriOk : Bytes → Bool} {pool : Pool} {io : ρ} {h x z z' : Bytes} {p : Parsed} (hb : HasBody uriOk h x) (hp : parseHead h = .ok p) :
    ResBehind uriOk io h x (finishDecode uriOk pool ⟨io, x ++ z⟩ p) (finishDecode uriOk pool ⟨io, x ++ z'⟩ p) := by
  rcases parseHead_spec uriOk h with ⟨f', h1, h2, h3⟩ | ⟨p', fs, h1, h2, h3, h4⟩
  · rw [hp] at h1; cases h1
  rw [hp] at h1; injection h1 with h1; subst h1
  have hj : ∀ r : BufRd ρ, ∀ req, finishDecode uriOk pool r p = .request req → ∃ k, req.length = some k ∧ k ≤ x.length ∧ ∃ i m t fs, Judged uriOk h (.serve i m t fs (some k)) := by
    intro r req hr
    rcases finishDecode_spec uriOk pool r h2 h3 h4 with ⟨fl, k1, _⟩ | ⟨len, body, k1, k2, _⟩
    · rw [hr] at k1; cases k1
    · rw [hr] at k1; injection k1 with k1
      rw [k1]
      obtain ⟨k, rfl, hk⟩ := hb _ _ _ _ _ k2
      exact ⟨k, rfl, hk, _, _, _, _, k2⟩
  have a := hj ⟨io, x ++ z⟩
  unfold finishDecode at a ⊢
  split
  · rename_i hh
    dsimp only at a ⊢
    split
    · rename_i hu
      split
      · rename_i hc
        simp only [hh, hu, hc, if_true] at a
        obtain ⟨k, e, _⟩ := a _ rfl
        cases e
      · rename_i hc
        simp only [hh, hu, hc, if_true, if_false, Bool.false_eq_true] at a
        obtain ⟨k, e, hk, hj⟩ := a _ rfl
        injection e with e
        subst e
        exact .request hk hj
    · exact .fail _
  · exact .fail _

theorem pollInterim_behind {uriOk : Bytes → Bool} {pool : Pool} {io : ρ} {h x z z' : Bytes} {p : Parsed} (hb : HasBody uriOk h x) (hp : parseHead h = .ok p) (todo : Bytes) (w : Writer) :
    RunRel (fun a a' => a.1 = a'.1 ∧ PollBehind uriOk io h x a.2 a'.2) (pollInterim uriOk pool ⟨io, x ++ z⟩ p todo w) (pollInterim uriOk pool ⟨io, x ++ z'⟩ p todo w) := by
  unfold pollInterim
  refine RunRel.bind_same ?_
  rintro ⟨w', r⟩
  cases r with
  | pending todo => exact ⟨rfl, .pending (.interim hp)⟩
  | err e => exact ⟨rfl, .ready (.fail _)⟩
  | done => exact ⟨rfl, .ready (finishDecode_behind hb hp)⟩

theorem FutBehind.poll {uriOk : Bytes → Bool} {pool : Pool} {fuel : Nat} {io : ρ} {h x : Bytes} (hh : FirstHead h h) (hb : HasBody uriOk h x) {f f' : DecFut ρ} (hf : FutBehind io h x f f') (w : Writer) :
    RunRel (fun a a' => a.1 = a'.1 ∧ PollBehind uriOk io h x a.2 a'.2) (f.poll uriOk pool fuel w) (f'.poll uriOk pool fuel w) := by
  cases hf with
  | interim hp => exact pollInterim_behind hb hp _ _
  | head hy hne =>
    simp only [DecFut.poll]
    rcases headGo_in hh io fuel hy hne with hd | hd
    · rw [hd, hd]; trivial
    · rw [hd, hd]
      simp only [Run.ret_bind]
      cases hp : parseHead h with
      | fail f => exact ⟨rfl, .ready (.fail _)⟩
      | ok p => exact pollInterim_behind hb hp _ _

inductive AwaitBehind (uriOk : Bytes → Bool) (io : ρ) (h x : Bytes) : Await ρ → Await ρ → Prop
  | ready {r r' : DecRes ρ} : ResBehind uriOk io h x r r' → AwaitBehind uriOk io h x (.ready r) (.ready r')
  | timedOut : AwaitBehind uriOk io h x (.timedOut io) (.timedOut io)

theorem FutBehind.io {io : ρ} {h x : Bytes} {f f' : DecFut ρ} (hf : FutBehind io h x f f') : f.io = io ∧ f'.io = io := by
  cases hf <;> exact ⟨rfl, rfl⟩

theorem awaitDecode_behind {env : Env} {opts : ServerOpts} {fuel : Nat} {pool : Pool} {io : ρ} {h x : Bytes} (hh : FirstHead h h) (hb : HasBody env.uriOk h x) (n : Nat) :
    ∀ {f f' : DecFut ρ} {w : Writer} {clock : List Bool}, FutBehind io h x f f' →
    RunRel (fun a a' => a.1 = a'.1 ∧ a.2.1 = a'.2.1 ∧ AwaitBehind env.uriOk io h x a.2.2 a'.2.2) (awaitDecode env opts fuel pool n f w clock) (awaitDecode env opts fuel pool n f' w clock) := by
  induction n with
  | zero => intro f f' w clock _; trivial
  | succ n ih =>
    intro f f' w clock hf
    simp only [awaitDecode]
    refine (hf.poll hh hb w).bind ?_
    rintro ⟨w1, p⟩ ⟨w1', p'⟩ ⟨h1, h2⟩
    dsimp only at h1 h2
    subst h1
    cases h2 with
    | ready hr => exact ⟨rfl, rfl, .ready hr⟩
    | pending hf1 =>
      dsimp only
      split
      · split
        · refine ⟨rfl, rfl, ?_⟩
          dsimp only
          rw [hf1.io.1, hf1.io.2]; exact .timedOut
        · exact ih hf1
        · exact ih hf1
      · exact ih hf1

theorem start_behind {env : Env} {opts : ServerOpts} {fuel : Nat} {pool : Pool} {io0 io : ρ} {p : Bytes} (h : pollRead io0 bufRdCap = .ret (io, .data p)) (hp : p ≠ []) (n : Nat) (w : Writer) (clock : List Bool) :
    awaitDecode env opts fuel pool n (DecFut.start io0) w clock = awaitDecode env opts fuel pool n (.head ⟨io, p⟩ [] 0) w clock := by
  cases n with
  | zero => rfl
  | succ n => simp only [awaitDecode, DecFut.start, DecFut.poll, BufRd.new, headGo_first h hp]

/-- One iteration of the loop: what is behind the body makes no difference, and is gone afterwards. -/
theorem acceptStep_behind {env : Env} {opts : ServerOpts} {endpoint : Endpoint σ} {fuel n : Nat} {io0 io0' io : ρ} {h x z z' : Bytes} {w : Writer} {clock : List Bool}
    (hh : FirstHead h h) (hb : HasBody env.uriOk h x) (h0 : pollRead io0 bufRdCap = .ret (io, .data (h ++ (x ++ z)))) (h0' : pollRead io0' bufRdCap = .ret (io, .data (h ++ (x ++ z')))) :
    RunRel (fun a a' => a = a' ∧ a.1.rd = io) (acceptStep env opts endpoint fuel n ⟨io0, w, clock⟩) (acceptStep env opts endpoint fuel n ⟨io0', w, clock⟩) := by
  have hne : h ≠ [] := by
    rintro rfl
    obtain ⟨q, hq⟩ := hh.2.1
    simp at hq
  unfold acceptStep
  dsimp only
  rw [start_behind h0 (by simp [hne]), start_behind h0' (by simp [hne])]
  refine (awaitDecode_behind hh hb fuel (FutBehind.head (buf := []) rfl hne)).bind ?_
  rintro ⟨w1, c1, a⟩ ⟨w1', c1', a'⟩ ⟨e1, e2, e3⟩
  dsimp only at e1 e2 e3
  subst e1 e2
  cases e3 with
  | timedOut => exact ⟨rfl, rfl⟩
  | ready hr =>
    cases hr with
    | fail f => exact RunRel.bind_same fun _ => ⟨rfl, rfl⟩
    | request hl _ =>
      dsimp only
      refine (Behind.runProg _ (.mk hl)).bind ?_
      rintro ⟨b2, x2⟩ ⟨b2', x2'⟩ ⟨g1, g2⟩
      dsimp only at g1 g2
      subst g2
      obtain ⟨w2, ev1, g⟩ := x2
      dsimp only
      refine RunRel.bind_same ?_
      rintro ⟨w3, ev2⟩
      refine ⟨?_, ?_⟩
      · dsimp only
        rw [g1.io.1, g1.io.2]
      · exact g1.io.1

theorem RunRel.eq_of {α : Type} {R : α → α → Prop} {x y : Run α} (h : RunRel R x y) (hR : ∀ a b, R a b → a = b) : x = y := by
  cases x <;> cases y <;> first | exact h.elim | rfl | (rw [hR _ _ h])

theorem acceptGo_behind {env : Env} {opts : ServerOpts} {endpoint : Endpoint σ} {fuel n it : Nat} {io0 io0' io : ρ} {h x z z' : Bytes} {w : Writer} {clock : List Bool}
    (hh : FirstHead h h) (hb : HasBody env.uriOk h x) (h0 : pollRead io0 bufRdCap = .ret (io, .data (h ++ (x ++ z)))) (h0' : pollRead io0' bufRdCap = .ret (io, .data (h ++ (x ++ z')))) :
    acceptGo env opts endpoint fuel (it + 1) n ⟨io0, w, clock⟩ = acceptGo env opts endpoint fuel (it + 1) n ⟨io0', w, clock⟩ := by
  simp only [acceptGo]
  rw [(acceptStep_behind hh hb h0 h0').eq_of fun _ _ h => h.1]

theorem acceptStep_taken {env : Env} {opts : ServerOpts} {endpoint : Endpoint σ} {fuel n : Nat} {io : ρ} {h x z : Bytes} {c c' : Conn ρ} {ev : List Event} {res : Option AcceptRes}
    (hh : FirstHead h h) (hb : HasBody env.uriOk h x) (h0 : pollRead c.rd bufRdCap = .ret (io, .data (h ++ (x ++ z))))
    (hs : acceptStep env opts endpoint fuel n c = .ret (c', ev, res)) : c'.rd = io := by
  have := acceptStep_behind (w := c.wr) (clock := c.clock) (opts := opts) (endpoint := endpoint) (fuel := fuel) (n := n) hh hb h0 h0
  have hc : (⟨c.rd, c.wr, c.clock⟩ : Conn ρ) = c := rfl
  rw [hc, hs] at this
  exact this.2

end

/-- The first read of a packet of at most 8192 bytes. -/
theorem script_packet {p : Bytes} (hp : p ≠ []) (hl : p.length ≤ 8192) (rest : Script) : pollRead (.data p :: rest : Script) bufRdCap = .ret (rest, .data p) := by
  show Run.ret (Script.read _ _) = _
  simp [Script.read, hp, bufRdCap, hl]

section
variable {σ : Type} [AsyncBufRead σ]

/-- One packet, and then the connection is closed: the endpoint is called at most once. -/
theorem acceptGo_once {env : Env} (hx : HexLenOk env.hexLen) {opts : ServerOpts} {endpoint : Endpoint σ} {fuel n it : Nat} {h x z : Bytes} {w : Writer} {clock : List Bool} {c' : Conn Script} {ev : List Event} {res : AcceptRes}
    (hh : FirstHead h h) (hb : HasBody env.uriOk h x) (hl : (h ++ (x ++ z)).length ≤ 8192)
    (hs : acceptGo env opts endpoint fuel it n ⟨[.data (h ++ (x ++ z))], w, clock⟩ = .ret (c', ev, res)) : (calls ev).length ≤ 1 := by
  have hne : h ≠ [] := by
    rintro rfl
    obtain ⟨q, hq⟩ := hh.2.1
    simp at hq
  have quiet : ∀ it n (c c' : Conn Script) ev res, c.rd = [] → acceptGo env opts endpoint fuel it n c = .ret (c', ev, res) → calls ev = [] := by
    intro it
    cases it with
    | zero =>
      intro n c c' ev res _ hs
      simp only [acceptGo, Run.ret.injEq, Prod.mk.injEq] at hs
      rw [← hs.2.1]; rfl
    | succ it =>
      intro n c c' ev res hc hs
      simp only [acceptGo] at hs
      obtain ⟨⟨c1, ev1, r1⟩, h1, h2⟩ := Run.bind_eq_ret.1 hs
      have ho := acceptStep_spec hx h1
      have hrem : rem c.rd = [] := by rw [hc]; rfl
      have hfin : fin c.rd = none := by rw [hc]; rfl
      have nofirst : ∀ {h}, ¬ FirstHead (rem c.rd) h := by
        intro h hf
        obtain ⟨q, hq⟩ := hf.2.1
        have := hf.1
        rw [hrem, List.prefix_nil] at this
        rw [this] at hq
        simp at hq
      cases ho with
      | closed =>
        simp only [Run.ret.injEq, Prod.mk.injEq] at h2
        rw [← h2.2.1]; rfl
      | timedOut =>
        simp only [Run.ret.injEq, Prod.mk.injEq] at h2
        rw [← h2.2.1]; exact calls_interimEvent _ _
      | lost _ b => rw [hfin] at b; cases b
      | cut a => exact absurd a nofirst
      | refused a => exact absurd a nofirst
      | gaveUp a => exact absurd a nofirst
      | served a => exact absurd a nofirst
  cases it with
  | zero =>
    simp only [acceptGo, Run.ret.injEq, Prod.mk.injEq] at hs
    rw [← hs.2.1]; simp [calls]
  | succ it =>
    simp only [acceptGo] at hs
    obtain ⟨⟨c1, ev1, r1⟩, h1, h2⟩ := Run.bind_eq_ret.1 hs
    have hrd := acceptStep_taken hh hb (script_packet (by simp [hne]) hl []) h1
    have h1c : (calls ev1).length ≤ 1 := by
      rcases calls_inv (acceptStep_spec hx h1) with g | ⟨_, _, _, _, _, g, _⟩
      · rw [g]; simp
      · rw [g]; simp
    cases r1 with
    | some r =>
      simp only [Run.ret.injEq, Prod.mk.injEq] at h2
      rw [← h2.2.1]; exact h1c
    | none =>
      dsimp only at h2
      obtain ⟨⟨c2, ev2, r2⟩, h3, h4⟩ := Run.bind_eq_ret.1 h2
      simp only [Run.ret.injEq, Prod.mk.injEq] at h4
      rw [← h4.2.1, calls_append, quiet _ _ _ _ _ _ hrd h3]
      simpa using h1c

end

/-- For examples: the only length a head can be served with. -/
theorem declared_length {uriOk : Bytes → Bool} {h r m0 t0 v : Bytes} {v0 n : Nat} {fs0 : List (Bytes × Bytes)} (hp : Httparse.parseRequest 16 h = .ok r ⟨m0, t0, v0, fs0⟩)
    (h1 : (valuesOf (ascii "transfer-encoding") fs0).getLast? = none) (h2 : (valuesOf (ascii "content-length") fs0).getLast? = some v) (h3 : parseUsize v = some n) :
    ∀ i m t fs len, Judged uriOk h (.serve i m t fs len) → len = some n := by
  intro i m t fs len hj
  cases hj with
  | serve a b c d e f =>
    obtain ⟨r, k1⟩ := (hasHead_iff _ _ _ _ _).1 a
    rw [hp] at k1
    injection k1 with k1 k3
    injection k3 with k3 k4 k5 k6
    subst k6
    unfold BodyLength at f
    rw [h1] at f
    simp only [BodyLength.Plain] at f
    rw [h2] at f
    obtain ⟨n', h8, rfl⟩ := f
    rw [(parseUsize_some _ _).2 h8] at h3
    exact h3

end Tophat
