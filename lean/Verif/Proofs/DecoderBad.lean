import Verif.Proofs.BodyGrammar
/-! A malformed body that fits into the buffer makes the decoder fail. -/

namespace Tophat
open Tophat.Spec Tophat.Httparse

namespace Httparse

/-- A parser that wants more input can be satisfied. -/
def Extends {α : Type} (p : Bytes → PRes α) : Prop := ∀ w, p w = .part → ∃ y a, p (w ++ y) = .ok [] a

theorem expectLf_extends {α : Type} (e : PErr) (a : α) : Extends (expectLf e a) := by
  intro w h
  cases w with
  | nil => exact ⟨[10], a, by simp [expectLf]⟩
  | cons c r => simp only [expectLf] at h; split at h <;> cases h

theorem chunkSizeGo_extends (bs : Bytes) : ∀ (size count : Nat) (i e : Bool), chunkSizeGo size count i e bs = .part →
    ∃ y a, chunkSizeGo size count i e (bs ++ y) = .ok [] a := by
  induction bs with
  | nil =>
    intro size count i e _
    refine ⟨[13, 10], size, ?_⟩
    have : (if i = true then digitVal 13 else none) = none := by split <;> decide
    simp [chunkSizeGo, this, expectLf]
  | cons b r ih =>
    intro size count i e h
    simp only [chunkSizeGo, List.cons_append] at h ⊢
    split at h
    · split at h
      · cases h
      · rename_i v hv hc
        simp only [if_neg hc]; exact ih _ _ _ _ h
    · rename_i hv
      split at h
      · obtain ⟨y, a, hy⟩ := expectLf_extends _ _ _ h
        rename_i hb
        exact ⟨y, a, by rw [if_pos hb]; exact hy⟩
      · rename_i hb
        simp only [if_neg hb]
        split at h
        · rename_i h1; simp only [if_pos h1]; exact ih _ _ _ _ h
        · rename_i h1
          simp only [if_neg h1]
          split at h
          · rename_i h2; simp only [if_pos h2]; exact ih _ _ _ _ h
          · rename_i h2
            simp only [if_neg h2]
            split at h
            · rename_i h3; simp only [if_pos h3]; exact ih _ _ _ _ h
            · rename_i h3
              simp only [if_neg h3]
              split at h
              · rename_i h4; simp only [if_pos h4]; exact ih _ _ _ _ h
              · cases h

theorem Extends.andThen {α β : Type} {p : Bytes → PRes α} {f : Bytes → α → PRes β} (hs : Streaming p) (hp : Extends p)
    (hf : ∀ a, Extends fun bs => f bs a) (h0 : ∀ a, f [] a = .part) : Extends fun bs => (p bs).andThen f := by
  intro w h
  simp only at h ⊢
  cases hw : p w with
  | part =>
    obtain ⟨y, a, hy⟩ := hp w hw
    obtain ⟨z, b, hz⟩ := hf a [] (h0 a)
    refine ⟨y ++ z, b, ?_⟩
    have := (hs.ok hy).2 z
    rw [← List.append_assoc, this]
    simpa [PRes.andThen] using hz
  | err e => rw [hw] at h; cases h
  | ok rest a =>
    rw [hw] at h
    obtain ⟨z, b, hz⟩ := hf a rest h
    refine ⟨z, b, ?_⟩
    rw [(hs.ok hw).2 z]
    simpa [PRes.andThen] using hz

theorem Extends.map {α β : Type} {p : Bytes → PRes α} (g : α → β) (hp : Extends p) :
    Extends fun bs => (p bs).andThen fun r a => .ok r (g a) := by
  intro w h
  simp only at h ⊢
  cases hw : p w with
  | part =>
    obtain ⟨y, a, hy⟩ := hp w hw
    exact ⟨y, g a, by rw [hy]; rfl⟩
  | err e => rw [hw] at h; cases h
  | ok rest a => rw [hw] at h; cases h

theorem takeName_extends (bs : Bytes) : ∀ acc, takeName acc bs = .part → ∃ y a, takeName acc (bs ++ y) = .ok [] a := by
  induction bs with
  | nil => intro acc _; exact ⟨[58], acc, by simp [takeName]⟩
  | cons b r ih =>
    intro acc h
    simp only [takeName, List.cons_append] at h ⊢
    split at h
    · cases h
    · rename_i h1
      simp only [if_neg h1]
      split at h
      · rename_i h2; simp only [if_pos h2]; exact ih _ h
      · cases h

theorem takeValue_extends (bs : Bytes) : ∀ acc, takeValue acc bs = .part → ∃ y a, takeValue acc (bs ++ y) = .ok [] a := by
  induction bs with
  | nil => intro acc _; exact ⟨[10], acc, by simp [takeValue, valueToken, valueEnd]⟩
  | cons b r ih =>
    intro acc h
    simp only [takeValue, List.cons_append] at h ⊢
    split at h
    · rename_i h1; simp only [if_pos h1]; exact ih _ h
    · rename_i h1
      simp only [if_neg h1, valueEnd] at h ⊢
      split at h
      · rename_i h2
        simp only [if_pos h2]
        exact expectLf_extends _ _ _ h
      · split at h <;> cases h

theorem skipBlank_append (bs y : Bytes) : (∃ b r, skipBlank bs = b :: r ∧ skipBlank (bs ++ y) = b :: r ++ y) ∨
    (skipBlank bs = [] ∧ skipBlank (bs ++ y) = skipBlank y) := by
  induction bs with
  | nil => exact .inr ⟨rfl, rfl⟩
  | cons b r ih =>
    simp only [skipBlank, List.cons_append]
    split
    · exact ih
    · exact .inl ⟨b, r, rfl, rfl⟩

theorem blankValue_extends : Extends fun bs => takeValue [] (skipBlank bs) := by
  intro w h
  simp only at h ⊢
  rcases skipBlank_append w [10] with ⟨b, r, h1, _⟩ | ⟨h1, h2⟩
  · rw [h1] at h
    obtain ⟨y, a, hy⟩ := takeValue_extends _ _ h
    refine ⟨y, a, ?_⟩
    rcases skipBlank_append w y with ⟨b', r', h1', h2'⟩ | ⟨h1', _⟩
    · rw [h1] at h1'; simp at h1'; obtain ⟨rfl, rfl⟩ := h1'
      rw [h2']; exact hy
    · rw [h1] at h1'; cases h1'
  · exact ⟨[10], [], by rw [h2]; decide⟩

theorem parseHeader_extends : Extends parseHeader :=
  Extends.andThen (takeName_streaming []) (fun w h => takeName_extends w [] h)
    (fun name => blankValue_extends.map fun v => (name, v)) (fun _ => rfl)

theorem sectionEnd_extends (acc : List (Bytes × Bytes)) {next : Bytes → PRes (List (Bytes × Bytes))} (hn : Extends next) :
    Extends (sectionEnd acc next) := by
  intro w h
  cases w with
  | nil => exact ⟨[10], acc, by simp [sectionEnd]⟩
  | cons b r =>
    simp only [List.cons_append, sectionEnd] at h ⊢
    split at h
    · rename_i h1; simp only [if_pos h1]; exact expectLf_extends _ _ _ h
    · rename_i h1
      simp only [if_neg h1]
      split at h
      · cases h
      · rename_i h2
        simp only [if_neg h2]
        split at h
        · cases h
        · rename_i h3
          simp only [if_neg h3]
          exact hn _ h

theorem headersGo_extends (slots : Nat) : ∀ acc, Extends (headersGo slots acc) := by
  induction slots with
  | zero =>
    intro acc
    have := sectionEnd_extends acc (next := fun _ => .err .tooManyHeaders) (fun w h => by cases h)
    intro w h; simp only [headersGo] at h ⊢; exact this w h
  | succ n ih =>
    intro acc
    have h1 : Extends fun bs => (parseHeader bs).andThen fun rest h => headersGo n (acc ++ [h]) rest :=
      Extends.andThen parseHeader_streaming parseHeader_extends (fun a => ih _) (fun a => by cases n <;> rfl)
    have := sectionEnd_extends acc h1
    intro w h; simp only [headersGo] at h ⊢; exact this w h

/-- Bytes after which no size line can follow any more are rejected. -/
theorem noSizeLine_part {r : Bytes} (h : NoSizeLine r) : parseChunkSize r ≠ .part := by
  intro hp
  obtain ⟨y, n, hy⟩ := chunkSizeGo_extends r 0 0 true false hp
  obtain ⟨l, e, hl⟩ := (parseChunkSize_ok (r ++ y) [] n).1 hy
  exact h y l n hl (by rw [e]; simp)

theorem noTrailer_part {r : Bytes} (h : NoTrailer r) : parseHeaders 16 r ≠ .part := by
  intro hp
  obtain ⟨y, fs, hy⟩ := headersGo_extends 16 [] r hp
  obtain ⟨l, e, hl, hn⟩ := (parseHeaders_ok 16 (r ++ y) [] fs).1 hy
  exact h y l fs hl hn (by rw [e]; simp)

end Httparse

namespace Dec

/-- What may follow the data of a chunk in a malformed stream with the data `p` to come, with a budget of `b` bytes. -/
def AfterData (b : Nat) (r p : Bytes) : Prop :=
  (∃ w, r = 13 :: 10 :: w ∧ BrokenWithin b w p) ∨ (∃ y x, r = y ++ x ∧ y.length = 2 ∧ y ≠ [13, 10] ∧ p = [])

theorem broken_line {b : Nat} {l x p : Bytes} {n : Nat} (hl : SizeLine l n) (h : BrokenWithin b (l ++ x) p) :
    (n = 0 ∧ p = [] ∧ ∃ r y, x = r ++ y ∧ NoTrailer r ∧ l.length + r.length ≤ b) ∨
    (0 < n ∧ ∃ d r p', d.length = n ∧ x = d ++ r ∧ p = d ++ p' ∧ chunkCost l d ≤ b ∧ AfterData (b - chunkCost l d) r p') := by
  generalize hs : l ++ x = s at h
  cases h with
  | size hr _ => exact absurd hs.symm (by
      intro e
      obtain ⟨y, rfl⟩ | ⟨y, hy⟩ : (∃ y, l = _ ++ y) ∨ ∃ y, _ = l ++ y := by
        rcases List.append_eq_append_iff.1 e with ⟨a, h1, _⟩ | ⟨a, h1, _⟩
        · exact .inl ⟨a, h1⟩
        · exact .inr ⟨a, h1⟩
      · exact hr y _ n hl (by simp)
      · exact hr [] l n hl (by rw [hy]; simp))
  | @noCrlf _ l1 d r y h1 h2 h3 h4 h5 =>
    obtain ⟨e1, e2, e3⟩ := line_det hl h1 hs
    have hc : chunkCost l p = chunkCost l1 p := by unfold chunkCost; rw [e3]
    exact .inr ⟨by rw [e1]; exact List.length_pos_iff.2 h2, p, r ++ y, [], e1.symm, e2, by simp, by rw [hc]; exact h5, .inr ⟨r, y, rfl, h3, h4, rfl⟩⟩
  | trailer h1 h2 h3 =>
    obtain ⟨e1, e2, e3⟩ := line_det hl h1 hs
    exact .inl ⟨e1, rfl, _, _, e2, h2, by omega⟩
  | @cons _ l1 d w p' h1 h2 h3 h4 =>
    obtain ⟨e1, e2, e3⟩ := line_det hl h1 hs
    have hc : chunkCost l d = chunkCost l1 d := by unfold chunkCost; rw [e3]
    exact .inr ⟨by rw [e1]; exact List.length_pos_iff.2 h2, d, _, p', e1.symm, e2, rfl, by rw [hc]; exact h3, .inl ⟨w, rfl, by rw [hc]; exact h4⟩⟩

/-- In a malformed stream, a window that cannot be decoded is within the budget, and more is to come. -/
theorem broken_part {b : Nat} {win R p : Bytes} (h : BrokenWithin b (win ++ R) p) (hs : parseChunkSize win = .part) : win.length < b ∧ R ≠ [] := by
  have line : ∀ {l x : Bytes} {n : Nat}, SizeLine l n → l.length ≤ b → win ++ R = l ++ x → win.length < b ∧ R ≠ [] := by
    intro l x n hl hb e
    have := stuck_line hl e hs
    refine ⟨by omega, fun hR => ?_⟩
    have := congrArg List.length e
    rw [hR] at this; simp at this; omega
  generalize he : win ++ R = s at h
  have cost : ∀ {l d : Bytes}, chunkCost l d ≤ b → l.length ≤ b := by intro l d h; unfold chunkCost at h; omega
  cases h with
  | @size _ r x hr hb =>
    have : win.length < r.length := by
      rcases Nat.lt_or_ge win.length r.length with hlt | hge
      · exact hlt
      · exfalso
        obtain ⟨z, rfl⟩ : ∃ z, win = r ++ z := by
          refine ⟨win.drop r.length, ?_⟩
          have h1 : (win ++ R).take r.length = r := by rw [he]; simp
          rw [List.take_append_of_le_length hge] at h1
          conv => lhs; rw [← List.take_append_drop r.length win, h1]
        exact noSizeLine_part (r := r ++ z) (fun y l n hl hp => hr (z ++ y) l n hl (by simpa using hp)) hs
    refine ⟨by omega, fun hR => ?_⟩
    have := congrArg List.length he
    rw [hR] at this; simp at this; omega
  | noCrlf h1 h2 h3 h4 h5 => exact line h1 (cost h5) he
  | trailer h1 h2 h3 => exact line h1 (by omega) he
  | cons h1 h2 h3 h4 => exact line h1 (cost h3) he

theorem noTrailer_stuck {r x win R : Bytes} (h : NoTrailer r) (e : win ++ R = r ++ x) (hs : parseHeaders 16 win = .part) : win.length < r.length := by
  rcases Nat.lt_or_ge win.length r.length with hlt | hge
  · exact hlt
  · exfalso
    obtain ⟨z, rfl⟩ : ∃ z, win = r ++ z := by
      refine ⟨win.drop r.length, ?_⟩
      have h1 : (win ++ R).take r.length = r := by rw [e]; simp
      rw [List.take_append_of_le_length hge] at h1
      conv => lhs; rw [← List.take_append_drop r.length win, h1]
    exact noTrailer_part (r := r ++ z) (fun y l n hl hn hp => h (z ++ y) l n hl hn (by simpa using hp)) hs

/-- Position in a malformed stream whose data is `P`, with enough room for what is needed to see that it is malformed. -/
def BadSt (P : Bytes) (g : G) (D : Bytes) : Prop :=
  match g.st with
  | .init => ∃ b p, BrokenWithin b (g.win ++ g.R) p ∧ D ++ p = P ∧ g.start + b ≤ 4096
  | .chunk cur len => ∃ b d r p, g.win ++ g.R = d ++ r ∧ d ≠ [] ∧ cur + d.length = len ∧ AfterData b r p ∧ D ++ (d ++ p) = P ∧
      (g.win = [] ∧ g.start + 2 + b ≤ 4096 ∨ g.start + d.length + 2 + b ≤ 4096 ∨ g.win ≠ [] ∧ 4096 ≤ g.start + d.length ∧ 2 + b ≤ 4096)
  | .chunkEnd => ∃ b p, AfterData b (g.win ++ g.R) p ∧ D ++ p = P ∧ g.start + 2 + b ≤ 4096
  | .trailer => ∃ r x, g.win ++ g.R = r ++ x ∧ NoTrailer r ∧ D = P ∧ g.start + r.length ≤ 4096
  | _ => False

structure Bad (P : Bytes) (g : G) (D : Bytes) : Prop where
  size : g.size = 4096
  cap : g.cap = 4096
  geo : g.start + g.win.length ≤ 4096
  st : BadSt P g D

theorem Bad.stuck {P : Bytes} {g : G} {D : Bytes} (h : Bad P g D) (hs : Stuck g.st g.win) : g.R ≠ [] ∧ g.start + g.win.length < 4096 := by
  have hst := h.st
  unfold BadSt at hst
  rcases hg : g.st with _ | ⟨c', l⟩ | _ | _ | t | t | _ <;> rw [hg] at hst <;> rw [hg] at hs <;> simp only [Stuck] at hs hst
  · obtain ⟨b, p, h1, _, h3⟩ := hst
    obtain ⟨h4, h5⟩ := broken_part h1 hs
    exact ⟨h5, by omega⟩
  · obtain ⟨b, p, h1, _, h3⟩ := hst
    refine ⟨fun hR => ?_, by omega⟩
    rw [hR, List.append_nil] at h1
    rcases h1 with ⟨w, h1, _⟩ | ⟨y, x, h1, h2, _⟩ <;> rw [h1] at hs <;> simp at hs <;> omega
  · obtain ⟨r, x, h1, h2, h3, h4⟩ := hst
    have := noTrailer_stuck h2 h1 hs
    refine ⟨fun hR => ?_, by omega⟩
    have := congrArg List.length h1
    rw [hR] at this; simp at this; omega

theorem Bad.step {P : Bytes} {g g' : G} {D x : Bytes} (h : Bad P g D) (ht : Trans g x g') : Bad P g' (D ++ x) := by
  have hall := h
  obtain ⟨hsize, hcap, hgeo, hst⟩ := h
  cases ht with
  | grow c h0 h1 h2 h3 =>
    have := (hall.stuck h0).2
    omega
  | refill bs R' h1 h2 h3 h4 =>
    have e : g.win ++ bs ++ R' = g.win ++ g.R := by rw [h2]; simp
    refine ⟨hsize, hcap, by simp only [List.length_append]; omega, ?_⟩
    simp only [List.append_nil]
    unfold BadSt at hst ⊢
    rcases hg : g.st with _ | ⟨c', l⟩ | _ | _ | t | t | _ <;> rw [hg] at hst h1 <;> simp only [Stuck] at h1 <;> simp only [e] at hst ⊢
    · exact hst
    · exact hst
    · exact hst
  | eof h1 h2 =>
    obtain ⟨h3, h4⟩ := hall.stuck h1
    rcases h2 with ⟨h2, _⟩ | h2
    · exact absurd h2 h3
    · omega
  | size l w n h1 h2 h3 =>
    simp only [BadSt, h1] at hst
    obtain ⟨b, p, a1, a2, a3⟩ := hst
    rw [h2, List.append_assoc] at a1
    refine ⟨hsize, hcap, by rw [h2] at hgeo; simp only [List.length_append] at hgeo ⊢; omega, ?_⟩
    rcases broken_line h3 a1 with ⟨rfl, rfl, r, y, hx, hr, hb⟩ | ⟨hn, d, r, p', b1, b2, rfl, b3, b4⟩
    · simp only [BadSt, if_true, List.append_nil]
      exact ⟨r, y, hx, hr, by simpa using a2, by omega⟩
    · simp only [BadSt, if_neg (show ¬ n = 0 by omega), List.append_nil]
      refine ⟨_, d, r, p', b2, by rintro rfl; simp at b1; omega, by omega, b4, a2, ?_⟩
      unfold chunkCost at b3 ⊢
      by_cases hsm : d.length < 4096
      · right; left
        rw [if_pos hsm] at b3 ⊢
        omega
      · rw [if_neg hsm] at b3 ⊢
        by_cases hw : w = []
        · left; exact ⟨hw, by omega⟩
        · right; right; exact ⟨hw, by omega, by omega⟩
  | drain cur len x w h1 h2 h3 h4 =>
    simp only [BadSt, h1] at hst
    obtain ⟨b, d, r, p, a1, a2, a3, a4, a5, a6⟩ := hst
    rw [h2, List.append_assoc] at a1
    obtain ⟨d2, rfl⟩ : ∃ d2, d = x ++ d2 := by
      refine ⟨d.drop x.length, ?_⟩
      have e := congrArg (List.take x.length) a1
      rw [List.take_left, List.take_append_of_le_length (by omega)] at e
      conv => lhs; rw [← List.take_append_drop x.length d, ← e]
    have a1' : w ++ g.R = d2 ++ r := by simpa using a1
    rw [h2] at hgeo
    simp only [List.length_append] at hgeo a3 a6
    have hwin : g.win ≠ [] := by rw [h2]; simp [h3]
    refine ⟨hsize, hcap, by simp only; split <;> omega, ?_⟩
    unfold chunkState
    split
    · have hd2 : d2 = [] := List.length_eq_zero_iff.1 (by omega)
      subst hd2
      simp only [BadSt]
      refine ⟨b, p, by rw [a1']; exact a4, by simpa using a5, ?_⟩
      simp only [List.length_nil] at a6
      by_cases hw : w = []
      · rw [if_pos hw]
        rcases a6 with ⟨h, _⟩ | a6 | ⟨_, _, a6⟩
        · exact absurd h hwin
        · omega
        · omega
      · rw [if_neg hw]
        have : 0 < w.length := List.length_pos_iff.2 hw
        rcases a6 with ⟨h, _⟩ | a6 | ⟨_, a6, _⟩
        · exact absurd h hwin
        · omega
        · omega
    · simp only [BadSt]
      refine ⟨b, d2, r, p, a1', by rintro rfl; simp at a3; omega, by omega, a4, by simpa using a5, ?_⟩
      by_cases hw : w = []
      · left
        rw [if_pos hw]
        refine ⟨hw, ?_⟩
        rcases a6 with ⟨h, _⟩ | a6 | ⟨_, _, a6⟩
        · exact absurd h hwin
        · omega
        · omega
      · rw [if_neg hw]
        rcases a6 with ⟨h, _⟩ | a6 | ⟨_, a6, a7⟩
        · exact absurd h hwin
        · right; left; omega
        · right; right; exact ⟨hw, by omega, by omega⟩
  | direct cur len x R' h1 h2 h3 h4 h5 =>
    simp only [BadSt, h1] at hst
    obtain ⟨b, d, r, p, a1, a2, a3, a4, a5, a6⟩ := hst
    rw [h2, h3, List.nil_append] at a1
    obtain ⟨d2, rfl⟩ : ∃ d2, d = x ++ d2 := by
      refine ⟨d.drop x.length, ?_⟩
      have e := congrArg (List.take x.length) a1
      rw [List.take_left, List.take_append_of_le_length (by omega)] at e
      conv => lhs; rw [← List.take_append_drop x.length d, ← e]
    have a1' : g.win ++ R' = d2 ++ r := by rw [h2]; simpa using a1
    simp only [List.length_append] at a3 a6
    refine ⟨hsize, hcap, hgeo, ?_⟩
    unfold chunkState
    split
    · have hd2 : d2 = [] := List.length_eq_zero_iff.1 (by omega)
      subst hd2
      simp only [BadSt]
      refine ⟨b, p, by rw [a1']; exact a4, by simpa using a5, ?_⟩
      rcases a6 with ⟨_, a6⟩ | a6 | ⟨hw, _⟩
      · exact a6
      · omega
      · exact absurd h2 hw
    · simp only [BadSt]
      refine ⟨b, d2, r, p, a1', by rintro rfl; simp at a3; omega, by omega, a4, by simpa using a5, ?_⟩
      rcases a6 with ⟨hw, a6⟩ | a6 | ⟨hw, _⟩
      · exact .inl ⟨hw, a6⟩
      · right; left; omega
      · exact absurd h2 hw
  | cut cur len h1 h2 h3 h4 =>
    exfalso
    simp only [BadSt, h1] at hst
    obtain ⟨b, d, r, p, a1, a2, _⟩ := hst
    rw [h2, h3] at a1
    simp at a1; exact a2 a1.1
  | chunkEnd w h1 h2 =>
    simp only [BadSt, h1] at hst
    obtain ⟨b, p, a1, a2, a3⟩ := hst
    rw [h2] at a1 hgeo
    simp only [List.length_cons] at hgeo
    refine ⟨hsize, hcap, by simp only; omega, ?_⟩
    simp only [BadSt, List.append_nil]
    rcases a1 with ⟨w', b1, b2⟩ | ⟨y, z, b1, b2, b3, _⟩
    · simp only [List.cons_append, List.cons.injEq, true_and] at b1
      exact ⟨b, p, b1 ▸ b2, a2, by omega⟩
    · exfalso
      have e := congrArg (List.take 2) b1
      rw [show (2 : Nat) = y.length from b2.symm, List.take_left, b2] at e
      simp at e
      exact b3 e.symm
  | trailer l w fs h1 h2 h3 h4 =>
    exfalso
    simp only [BadSt, h1] at hst
    obtain ⟨r, y, a1, a2, _⟩ := hst
    rw [h2, List.append_assoc] at a1
    rcases List.append_eq_append_iff.1 a1 with ⟨a, e1, _⟩ | ⟨a, e1, _⟩
    · exact a2 [] l fs h3 h4 (by rw [e1]; simp)
    · exact a2 a l fs h3 h4 (by rw [e1]; simp)
  | take t h1 => simp only [BadSt, h1] at hst
  | send t h1 => simp only [BadSt, h1] at hst

theorem Bad.steps {P : Bytes} {g g' : G} {D x : Bytes} (h : Bad P g D) (ht : Steps g x g') : Bad P g' (D ++ x) := by
  induction ht with
  | refl => simpa using h
  | tail _ ht ih => rw [← List.append_assoc]; exact ih.step ht

theorem Bad.not_done {P : Bytes} {g : G} {D : Bytes} (h : Bad P g D) : g.st ≠ .done := by
  intro hd
  have := h.st
  simp only [BadSt, hd] at this

/-- The error of a malformed body that fits is the parser's, and all data in front of it has been handed out. -/
theorem Bad.fails {P : Bytes} {g : G} {D : Bytes} {e : IoErr} (h : Bad P g D) (hf : Fails g e) :
    D = P ∧ (e = .chunkSize ∨ e = .invalidData ∨ e = .trailer) := by
  have hst := h.st
  cases hf with
  | transport h1 h2 h3 =>
    exfalso
    rcases h3 with h3 | ⟨h3, c, l, h4⟩
    · exact (h.stuck h3).1 h1
    · simp only [BadSt, h4] at hst
      obtain ⟨b, d, r, p, a1, a2, _⟩ := hst
      rw [h1, h3] at a1; simp at a1; exact a2 a1.1
  | size h1 h2 =>
    refine ⟨?_, .inl rfl⟩
    simp only [BadSt, h1] at hst
    obtain ⟨b, p, a1, a2, _⟩ := hst
    have h3 := parseChunkSize_streaming.err h2 g.R
    have cons : ∀ {l x : Bytes} {n : Nat}, SizeLine l n → g.win ++ g.R = l ++ x → False := by
      intro l x n hl e
      rw [e, (parseChunkSize_ok (l ++ x) x n).2 ⟨l, rfl, hl⟩] at h3
      cases h3
    generalize hs : g.win ++ g.R = s at a1
    cases a1 with
    | size _ _ => simpa using a2
    | noCrlf c1 => exact (cons c1 hs).elim
    | trailer c1 => exact (cons c1 hs).elim
    | cons c1 => exact (cons c1 hs).elim
  | chunkEnd h1 h2 h3 =>
    refine ⟨?_, .inr (.inl rfl)⟩
    simp only [BadSt, h1] at hst
    obtain ⟨b, p, a1, a2, _⟩ := hst
    rcases a1 with ⟨w, b1, _⟩ | ⟨_, _, _, _, _, rfl⟩
    · have : (g.win ++ g.R).take 2 = g.win.take 2 := List.take_append_of_le_length h2
      rw [← this, b1] at h3
      simp at h3
    · simpa using a2
  | trailer h1 h2 =>
    refine ⟨?_, .inr (.inr rfl)⟩
    simp only [BadSt, h1] at hst
    obtain ⟨_, _, _, _, h, _⟩ := hst
    exact h
  | tooLarge h1 h2 => rw [h.cap] at h2; exact absurd h2 (by decide)

end Dec

namespace Spec

theorem BrokenWithin.malformed {b : Nat} {s p : Bytes} (h : BrokenWithin b s p) : Malformed s p := by
  induction h with
  | @size b r x h _ =>
    have : NoSizeLine (r ++ x) := fun y l n hl hp => h (x ++ y) l n hl (by simpa using hp)
    have := Malformed.size .nil this
    simpa using this
  | @noCrlf b l d r x h1 h2 h3 h4 h5 =>
    have := Malformed.noCrlf .nil h1 h2 (r := r ++ x) (by simp; omega) (by rw [← h3, List.take_left]; exact h4)
    simpa using this
  | @trailer b l r x h1 h2 h3 =>
    have : NoTrailer (r ++ x) := fun y l n hl hn hp => h2 (x ++ y) l n hl hn (by simpa using hp)
    have := Malformed.trailer .nil h1 this
    simpa using this
  | @cons b l d w p h1 h2 h3 h4 ih =>
    generalize hs : w = s at ih
    cases ih with
    | @size w' p' r hf hr =>
      subst hs
      have := Malformed.size (Frames.cons h1 h2 hf) hr
      simpa using this
    | noCrlf hf hl hd a b =>
      subst hs
      have := Malformed.noCrlf (Frames.cons h1 h2 hf) hl hd a b
      simpa using this
    | trailer hf hl hr =>
      subst hs
      have := Malformed.trailer (Frames.cons h1 h2 hf) hl hr
      simpa using this

/-- A malformed stream that is short altogether. -/
theorem brokenWithin_of_length {s p : Bytes} (h : Malformed s p) {b : Nat} (hb : s.length ≤ b) : BrokenWithin b s p := by
  have key : ∀ {w q : Bytes}, Frames w q → ∀ {b : Nat} {t p : Bytes}, (∀ b, t.length ≤ b → BrokenWithin b t p) → (w ++ t).length ≤ b →
      BrokenWithin b (w ++ t) (q ++ p) := by
    intro w q hf
    induction hf with
    | nil => intro b t p h hb; exact h b (by simpa using hb)
    | @cons l d w q h1 h2 _ ih =>
      intro b t p h hb
      simp only [List.length_append, List.length_cons] at hb
      have hc : chunkCost l d ≤ l.length + 2 + d.length := by unfold chunkCost; split <;> omega
      have := BrokenWithin.cons (b := b) h1 h2 (by omega) (ih (b := b - chunkCost l d) h (by simp only [List.length_append]; omega))
      simpa using this
  cases h with
  | @size w q r hf hr =>
    have := key hf (t := r) (p := []) (fun b hb => by have := BrokenWithin.size (x := []) hr hb; simpa using this) hb
    simpa using this
  | @noCrlf w q l d r hf hl hd h2 hr =>
    refine key hf (fun b hb => ?_) hb
    simp only [List.length_append] at hb
    have hc : chunkCost l d ≤ l.length + 2 + d.length := by unfold chunkCost; split <;> omega
    have := BrokenWithin.noCrlf (b := b) hl hd (r := r.take 2) (x := r.drop 2) (by simp; omega) hr (by omega)
    simpa using this
  | @trailer w q l r hf hl hr =>
    have := key hf (t := l ++ r) (p := []) (fun b hb => by
      have := BrokenWithin.trailer (x := []) hl hr (by simpa using hb)
      simpa using this) hb
    simpa using this

end Spec
end Tophat
