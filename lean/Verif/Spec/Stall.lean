import Verif.Model.Reader
/-!
# Readers that fall silent

`Stall.talk r n` behaves as the reader `r`, which may be any, until `r` would report the end of its data.  Then the peer says nothing for `n` polls, and only
then comes the end.  Used to say that something happens *before* more data arrives.
-/

namespace Tophat

/-- A reader that talks and then is silent for a while. -/
inductive Stall (ρ : Type)
  | talk (r : ρ) (n : Nat)
  | hush (k : Nat)

namespace Stall
variable {ρ : Type}

/-- Silence of `k` polls. -/
def silence : Nat → Run (Stall ρ × RPoll)
  | 0 => .ret (.hush 0, .data [])
  | k + 1 => .ret (.hush k, .pending)

/-- `poll_read` with a buffer of length `k`. -/
def read [AsyncRead ρ] : Stall ρ → Nat → Run (Stall ρ × RPoll)
  | .talk r n, k => do
    let (r, p) ← pollRead r k
    if p = .data [] ∧ 0 < k then silence n else .ret (.talk r n, p)
  | .hush j, _ => silence j

/-- `poll_fill_buf`. -/
def fill [AsyncBufRead ρ] : Stall ρ → Run (Stall ρ × RPoll)
  | .talk r n => do
    let (r, p) ← pollFill r
    if p = .data [] then silence n else .ret (.talk r n, p)
  | .hush j => silence j

/-- `consume`. -/
def drop [AsyncBufRead ρ] : Stall ρ → Nat → Stall ρ
  | .talk r n, m => .talk (consume r m) n
  | .hush j, _ => .hush j

end Stall

instance {ρ : Type} [AsyncRead ρ] : AsyncRead (Stall ρ) where
  pollRead := Stall.read

instance {ρ : Type} [AsyncBufRead ρ] : AsyncBufRead (Stall ρ) where
  pollFill := Stall.fill
  consume := Stall.drop

/-- What it delivers, how it ends, and how often it may be `Pending`. -/
def Stall.remS {ρ : Type} [AsyncRead ρ] [LawfulRead ρ] : Stall ρ → Bytes
  | .talk r _ => rem r
  | .hush _ => []
@[inherit_doc Stall.remS] def Stall.finS {ρ : Type} [AsyncRead ρ] [LawfulRead ρ] : Stall ρ → Option IoErr
  | .talk r _ => fin r
  | .hush _ => none
@[inherit_doc Stall.remS] def Stall.measS {ρ : Type} [AsyncRead ρ] [LawfulRead ρ] : Stall ρ → Nat
  | .talk r n => meas r + n
  | .hush k => k

theorem Stall.read_lawful {ρ : Type} [AsyncRead ρ] [LawfulRead ρ] (s : Stall ρ) (k : Nat) :
    ∃ s' p, pollRead s k = .ret (s', p) ∧ ReadOk Stall.remS Stall.finS Stall.measS s k s' p := by
  have hush : ∀ j : Nat, ∀ s : Stall ρ, s.remS = [] → s.finS = none → j ≤ s.measS → ∃ s' p, Stall.silence j = .ret (s', p) ∧ ReadOk Stall.remS Stall.finS Stall.measS s k s' p := by
    intro j s h1 h2 h3
    cases j with
    | zero => exact ⟨_, _, rfl, .data (Nat.zero_le _) h1 h2.symm (Nat.zero_le _) (fun _ _ => ⟨h1, h2⟩)⟩
    | succ j => exact ⟨_, _, rfl, .pending h1.symm h2.symm (show j < s.measS by omega)⟩
  cases s with
  | hush j => exact hush j _ rfl rfl (Nat.le_refl _)
  | talk r n =>
    obtain ⟨r', p, h, ok⟩ := LawfulRead.read_ok r k
    show ∃ s' p, (Stall.talk r n).read k = .ret (s', p) ∧ _
    simp only [Stall.read, h, Run.ret_bind]
    by_cases hp : p = .data [] ∧ 0 < k
    · rw [if_pos hp]
      obtain ⟨rfl, hk⟩ := hp
      cases ok with
      | data a b c d e => 
        obtain ⟨e1, e2⟩ := e hk rfl
        exact hush n _ e1 e2 (by simp [measS])
    · rw [if_neg hp]
      refine ⟨_, _, rfl, ?_⟩
      cases ok with
      | pending a b c => exact .pending a b (by simp [measS]; omega)
      | err a b => exact .err a b
      | data a b c d e => exact .data a b c (by simp [measS]; omega) e

instance {ρ : Type} [AsyncRead ρ] [LawfulRead ρ] : LawfulRead (Stall ρ) where
  rem := Stall.remS
  fin := Stall.finS
  meas := Stall.measS
  read_ok := Stall.read_lawful

theorem Stall.fill_lawful {ρ : Type} [AsyncBufRead ρ] [LawfulBufRead ρ] (s : Stall ρ) :
    ∃ s' p, pollFill s = .ret (s', p) ∧ FillOk Stall.remS Stall.finS Stall.measS consume s s' p := by
  have hush : ∀ j : Nat, ∀ s : Stall ρ, s.remS = [] → s.finS = none → j ≤ s.measS → ∃ s' p, Stall.silence j = .ret (s', p) ∧ FillOk Stall.remS Stall.finS Stall.measS consume s s' p := by
    intro j s h1 h2 h3
    cases j with
    | zero =>
      refine ⟨_, _, rfl, .data h1.symm h2.symm (Nat.zero_le _) List.nil_prefix (fun _ => ⟨h1, h2⟩) fun n hn => ⟨?_, h2.symm, Nat.zero_le _⟩⟩
      rw [h1, List.drop_nil]; rfl
    | succ j => exact ⟨_, _, rfl, .pending h1.symm h2.symm (show j < s.measS by omega)⟩
  cases s with
  | hush j => exact hush j _ rfl rfl (Nat.le_refl _)
  | talk r n =>
    obtain ⟨r', p, h, ok⟩ := LawfulBufRead.fill_ok r
    show ∃ s' p, (Stall.talk r n).fill = .ret (s', p) ∧ _
    simp only [Stall.fill, h, Run.ret_bind]
    by_cases hp : p = .data []
    · rw [if_pos hp]
      subst hp
      cases ok with
      | data a b c d e f =>
        obtain ⟨e1, e2⟩ := e rfl
        exact hush n _ e1 e2 (by simp [measS])
    · rw [if_neg hp]
      refine ⟨_, _, rfl, ?_⟩
      cases ok with
      | pending a b c => exact .pending a b (by simp [measS]; omega)
      | err a b => exact .err a b
      | data a b c d e f => exact .data a b (by simp [measS]; omega) d e fun n hn => ⟨(f n hn).1, (f n hn).2.1, by have := (f n hn).2.2; simp [consume, drop, measS]; exact this⟩

instance {ρ : Type} [AsyncBufRead ρ] [LawfulBufRead ρ] : LawfulBufRead (Stall ρ) where
  fill_ok := Stall.fill_lawful

end Tophat
