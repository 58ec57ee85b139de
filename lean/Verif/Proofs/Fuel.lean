import Verif.Model.Accept
import Verif.Proofs.Basic
/-! More fuel does not change a result. -/

set_option linter.unusedSectionVars false

namespace Tophat

/-- `a` has run out of fuel, or is `b`. -/
def Run.Le {α : Type} (a b : Run α) : Prop := a = .diverge ∨ a = b

theorem Run.Le.rfl {α : Type} {a : Run α} : a.Le a := .inr (Eq.refl _)

theorem Run.Le.trans {α : Type} {a b c : Run α} (h : a.Le b) (k : b.Le c) : a.Le c := by
  rcases h with h | h
  · exact .inl h
  · subst h; exact k

theorem Run.Le.bind {α β : Type} {a b : Run α} {f g : α → Run β} (h : a.Le b) (k : ∀ x, (f x).Le (g x)) : (a >>= f).Le (b >>= g) := by
  rcases h with h | h
  · subst h; exact .inl (Eq.refl _)
  · subst h
    cases a with
    | ret x => exact k x
    | panic => exact .inr (Eq.refl _)
    | diverge => exact .inr (Eq.refl _)

theorem Run.Le.ret {α : Type} {a b : Run α} {x : α} (h : a.Le b) (k : a = .ret x) : b = .ret x := by
  rcases h with h | h
  · rw [h] at k; cases k
  · rw [← h]; exact k

section
variable {ρ : Type} [AsyncRead ρ]

theorem headGo_mono (f : Nat) : ∀ (g : Nat), f ≤ g → ∀ (r : BufRd ρ) (buf : Bytes) (nread : Nat), (headGo f r buf nread).Le (headGo g r buf nread) := by
  induction f with
  | zero => intro g _ r buf nread; exact .inl rfl
  | succ f ih =>
    intro g hg r buf nread
    obtain ⟨g, rfl⟩ : ∃ g', g = g' + 1 := ⟨g - 1, by omega⟩
    have hg' : f ≤ g := by omega
    simp only [headGo]
    refine Run.Le.rfl.bind fun x => ?_
    obtain ⟨r, p⟩ := x
    cases p with
    | pending => exact .rfl
    | err e => exact .rfl
    | data bs =>
      dsimp only
      split
      · split
        · exact .rfl
        · exact ih g hg' _ _ _
      · split
        · split
          · exact .rfl
          · split
            · exact .rfl
            · exact ih g hg' _ _ _
        · exact ih g hg' _ _ _

theorem decFut_poll_mono {uriOk : Bytes → Bool} {pool : Pool} {f g : Nat} (hg : f ≤ g) (d : DecFut ρ) (w : Writer) :
    (d.poll uriOk pool f w).Le (d.poll uriOk pool g w) := by
  cases d with
  | interim r p todo => exact .rfl
  | head r buf nread =>
    simp only [DecFut.poll]
    refine (headGo_mono f g hg _ _ _).bind fun x => .rfl

theorem awaitDecode_mono {env : Env} {opts : ServerOpts} {f g : Nat} (hg : f ≤ g) {pool : Pool} (n : Nat) : ∀ (m : Nat), n ≤ m → ∀ (d : DecFut ρ) (w : Writer) (clock : List Bool),
    (awaitDecode env opts f pool n d w clock).Le (awaitDecode env opts g pool m d w clock) := by
  induction n with
  | zero => intro m _ d w clock; exact .inl rfl
  | succ n ih =>
    intro m hm d w clock
    obtain ⟨m, rfl⟩ : ∃ m', m = m' + 1 := ⟨m - 1, by omega⟩
    have hm' : n ≤ m := by omega
    simp only [awaitDecode]
    refine (decFut_poll_mono hg _ _).bind fun x => ?_
    obtain ⟨w, p⟩ := x
    cases p with
    | ready r => exact .rfl
    | pending d =>
      dsimp only
      split
      · split
        · exact .rfl
        · exact ih m hm' _ _ _
        · exact ih m hm' _ _ _
      · exact ih m hm' _ _ _

end

/-- `io::copy` to its end. -/
def copyFull {ε : Type} (poll : ε → Bytes → Run (ε × Bytes × EPoll)) (fuel : Nat) (s : CopyState ε) : Run (CopyState ε × CopyRes) := do
  let (s, r) ← copyGo poll fuel s
  if r = .running then .diverge else .ret (s, r)

theorem copyFull_mono {ε : Type} {poll : ε → Bytes → Run (ε × Bytes × EPoll)} (f : Nat) : ∀ (g : Nat), f ≤ g → ∀ (s : CopyState ε),
    (copyFull poll f s).Le (copyFull poll g s) := by
  induction f with
  | zero => intro g _ s; exact .inl rfl
  | succ f ih =>
    intro g hg s
    obtain ⟨g, rfl⟩ : ∃ g', g = g' + 1 := ⟨g - 1, by omega⟩
    have hg' : f ≤ g := by omega
    have ih := ih g hg'
    unfold copyFull at ih ⊢
    simp only [copyGo]
    split
    · cases hp : poll s.enc s.buf with
      | panic => exact .rfl
      | diverge => exact .rfl
      | ret x =>
        obtain ⟨enc, buf, r⟩ := x
        simp only [Run.ret_bind]
        cases r with
        | pending => exact ih _
        | err e => exact .rfl
        | ready n =>
          dsimp only
          split
          · split
            · exact ih _
            · exact .rfl
            · exact .rfl
          · exact ih _
    · cases hp : slice s.buf s.pos s.cap with
      | panic => exact .rfl
      | diverge => exact .rfl
      | ret data =>
        simp only [Run.ret_bind]
        split
        · exact ih _
        · exact .rfl
        · split
          · exact .rfl
          · exact ih _

section
variable {ρ : Type} [AsyncRead ρ] {σ : Type} [AsyncBufRead σ]

theorem sendFully_eq (env : Env) (fuel n : Nat) (resp : InnerResponse σ) (w : Writer) : sendFully env fuel n resp w =
    (copyFull (Encoder.poll env.hexLen (env.now n)) fuel (CopyState.init (Encoder.encode resp) w) >>= fun x => .ret (x.1.writer, x.2)) := by
  unfold sendFully sendResponse copyFull
  cases h : copyGo (Encoder.poll env.hexLen (env.now n)) fuel (CopyState.init (Encoder.encode resp) w) with
  | panic => rfl
  | diverge => rfl
  | ret x =>
    obtain ⟨s, r⟩ := x
    simp only [Run.ret_bind]
    split
    · rfl
    · rfl

theorem sendFully_mono {env : Env} {f g n : Nat} (hg : f ≤ g) (resp : InnerResponse σ) (w : Writer) :
    (sendFully env f n resp w).Le (sendFully env g n resp w) := by
  rw [sendFully_eq, sendFully_eq]
  exact (copyFull_mono f g hg _).bind fun _ => .rfl

theorem runProg_mono {env : Env} {f g n : Nat} (hg : f ≤ g) (a : Prog σ) : ∀ (body : ReqBody ρ) (w : Writer),
    (runProg env f n a body w).Le (runProg env g n a body w) := by
  induction a with
  | read k next ih =>
    intro body w
    simp only [runProg]
    exact Run.Le.rfl.bind fun x => (ih _ _ _).bind fun _ => .rfl
  | send resp onOk onErr =>
    intro body w
    simp only [runProg]
    exact (sendFully_mono hg _ _).bind fun _ => .rfl
  | sendFor => intro body w; exact .rfl
  | glitch => intro body w; exact .rfl

theorem answerGlitch_mono {env : Env} {opts : ServerOpts} {f g n : Nat} (hg : f ≤ g) (x : Option Glitch) (w : Writer) :
    (answerGlitch env opts f n x w).Le (answerGlitch env opts g n x w) := by
  unfold answerGlitch
  cases x with
  | none => exact .rfl
  | some x => exact (sendFully_mono hg _ _).bind fun _ => .rfl

theorem answerFail_mono {env : Env} {f g n : Nat} (hg : f ≤ g) (x : DecodeFail) (w : Writer) :
    (answerFail env f n x w).Le (answerFail env g n x w) := by
  unfold answerFail
  cases failResponse x with
  | none => exact .rfl
  | some x => exact (sendFully_mono hg _ _).bind fun _ => .rfl

/-- More fuel does not change the result of an iteration of the accept loop. -/
theorem acceptStep_mono {env : Env} {opts : ServerOpts} {endpoint : Endpoint σ} {f g n : Nat} (hg : f ≤ g) (c : Conn ρ) :
    (acceptStep env opts endpoint f n c).Le (acceptStep env opts endpoint g n c) := by
  unfold acceptStep
  refine (awaitDecode_mono hg f g hg _ _ _).bind fun x => ?_
  obtain ⟨w, clock, a⟩ := x
  cases a with
  | timedOut io => exact .rfl
  | ready r =>
    cases r with
    | none => exact .rfl
    | fail x io => exact (answerFail_mono hg _ _).bind fun _ => .rfl
    | request req =>
      exact (runProg_mono hg _ _ _).bind fun _ => (answerGlitch_mono hg _ _).bind fun _ => .rfl

/-- More fuel does not change the course of a connection. -/
theorem acceptGo_mono {env : Env} {opts : ServerOpts} {endpoint : Endpoint σ} {f g : Nat} (hg : f ≤ g) (it : Nat) : ∀ (n : Nat) (c : Conn ρ),
    (acceptGo env opts endpoint f it n c).Le (acceptGo env opts endpoint g it n c) := by
  induction it with
  | zero => intro n c; exact .rfl
  | succ it ih =>
    intro n c
    simp only [acceptGo]
    refine (acceptStep_mono hg c).bind fun x => ?_
    obtain ⟨c, ev, r⟩ := x
    cases r with
    | some r => exact .rfl
    | none => exact (ih _ _).bind fun _ => .rfl

end

end Tophat
