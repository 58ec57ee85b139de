import Verif.Proofs.DecoderInv
import Verif.Spec.Within
/-! Completeness of the decoder for messages whose framing fits into its buffer. -/

namespace Tophat
open Tophat.Spec Tophat.Httparse

namespace Spec

theorem Within.frames {f b : Nat} {w p : Bytes} (h : Within f b w p) : Frames w p := by
  induction h with
  | nil _ => exact .nil
  | cons h1 h2 _ _ ih => exact .cons h1 h2 ih

theorem SizeLine.length {l : Bytes} {n : Nat} (h : SizeLine l n) : 2 ≤ l.length := by
  obtain ⟨_, _, _, rfl, _⟩ := h; simp; omega

end Spec

namespace Dec

/-- The message being read: its payload, the rest of its last chunk, the bytes behind it. -/
structure Msg where
  P : Bytes
  L : Bytes
  T : Bytes
  X : Bytes
  fs : List (Bytes × Bytes)
  f : Nat
  hL : SizeLine L 0
  hT : FieldSection T fs
  hfs : fs.length ≤ 16
  hf : f = 0 ∨ f = L.length + T.length

/-- What comes after the last data chunk. -/
def Msg.E (m : Msg) : Bytes := m.L ++ (m.T ++ m.X)

def Room (g : G) (n : Nat) : Prop := g.size = 4096 ∧ g.cap = 4096 ∧ g.start + n ≤ 4096

/-- Position in the message, with enough room for what is left of it. -/
def FitSt (m : Msg) (g : G) (D : Bytes) : Prop :=
  match g.st with
  | .init => ∃ b w p, g.win ++ g.R = w ++ m.E ∧ Within m.f b w p ∧ D ++ p = m.P ∧ (w = [] ∧ m.f = 0 ∨ Room g b)
  | .chunk cur len => ∃ b w p d, g.win ++ g.R = d ++ (13 :: 10 :: (w ++ m.E)) ∧ d ≠ [] ∧ cur + d.length = len ∧
      Within m.f b w p ∧ D ++ (d ++ p) = m.P ∧
      (w = [] ∧ m.f = 0 ∨ g.size = 4096 ∧ g.cap = 4096 ∧
        (g.win = [] ∧ g.start + 2 + b ≤ 4096 ∨ g.start + d.length + 2 + b ≤ 4096 ∨
         g.win ≠ [] ∧ 4096 ≤ g.start + d.length ∧ 2 + b ≤ 4096))
  | .chunkEnd => ∃ b w p, g.win ++ g.R = 13 :: 10 :: (w ++ m.E) ∧ Within m.f b w p ∧ D ++ p = m.P ∧
      (w = [] ∧ m.f = 0 ∨ Room g (2 + b))
  | .trailer => D = m.P ∧ g.win ++ g.R = m.T ++ m.X ∧ (m.f = 0 ∨ Room g m.T.length) ∧ g.sent = []
  | .trailerDone h => D = m.P ∧ h = fieldMap m.fs ∧ g.sent = []
  | .trailerSending h => D = m.P ∧ h = fieldMap m.fs ∧ g.sent = []
  | .done => D = m.P ∧ (m.f = 0 ∨ g.sent = [fieldMap m.fs])

structure Fit (m : Msg) (g : G) (D : Bytes) : Prop where
  geo : g.start + g.win.length ≤ g.size
  cap : g.size ≤ g.cap
  sent : g.sent = [] ∨ g.st = .done
  big : g.st = .done ∨ (D = m.P ∧ m.f = 0) ∨ (g.size = 4096 ∧ g.cap = 4096)
  st : FitSt m g D

/-- A size line at the beginning of the remaining bytes is the line the message has there. -/
theorem line_det {l l' x y : Bytes} {n n' : Nat} (h : SizeLine l n) (h' : SizeLine l' n') (e : l ++ x = l' ++ y) :
    n = n' ∧ x = y ∧ l.length = l'.length := by
  have h1 := (parseChunkSize_ok (l ++ x) x n).2 ⟨l, rfl, h⟩
  have h2 := (parseChunkSize_ok (l ++ x) y n').2 ⟨l', e, h'⟩
  rw [h1] at h2
  injection h2 with e1 e2
  subst e1
  refine ⟨e2, rfl, ?_⟩
  have := congrArg List.length e
  simp at this; omega

theorem section_det {l l' x y : Bytes} {fs fs' : List (Bytes × Bytes)} (h : FieldSection l fs) (h' : FieldSection l' fs')
    (hn : fs.length ≤ 16) (hn' : fs'.length ≤ 16) (e : l ++ x = l' ++ y) : fs = fs' ∧ x = y := by
  have h1 := (parseHeaders_ok 16 (l ++ x) x fs).2 ⟨l, rfl, h, hn⟩
  have h2 := (parseHeaders_ok 16 (l ++ x) y fs').2 ⟨l', e, h', hn'⟩
  rw [h1] at h2
  injection h2 with e1 e2
  exact ⟨e2, e1⟩

/-- A window that cannot be decoded is shorter than the line it starts with. -/
theorem stuck_line {l x win R : Bytes} {n : Nat} (h : SizeLine l n) (e : win ++ R = l ++ x)
    (hs : parseChunkSize win = .part) : win.length < l.length := by
  rcases Nat.lt_or_ge win.length l.length with hlt | hge
  · exact hlt
  · have : win = l ++ win.drop l.length := by
      have h1 : (win ++ R).take l.length = l := by rw [e]; simp
      rw [List.take_append_of_le_length hge] at h1
      conv => lhs; rw [← List.take_append_drop l.length win, h1]
    rw [(parseChunkSize_ok win _ n).2 ⟨l, this, h⟩] at hs
    cases hs

theorem stuck_section {l x win R : Bytes} {fs : List (Bytes × Bytes)} (h : FieldSection l fs) (hn : fs.length ≤ 16)
    (e : win ++ R = l ++ x) (hs : parseHeaders 16 win = .part) : win.length < l.length := by
  rcases Nat.lt_or_ge win.length l.length with hlt | hge
  · exact hlt
  · have : win = l ++ win.drop l.length := by
      have h1 : (win ++ R).take l.length = l := by rw [e]; simp
      rw [List.take_append_of_le_length hge] at h1
      conv => lhs; rw [← List.take_append_drop l.length win, h1]
    rw [(parseHeaders_ok 16 win _ fs).2 ⟨l, this, h, hn⟩] at hs
    cases hs

/-- The first line of what is left in state `init`, and that it is within the budget. -/
theorem within_line {m : Msg} {b : Nat} {w p : Bytes} (h : Within m.f b w p) (hr : ¬ (w = [] ∧ m.f = 0)) :
    ∃ l n x, SizeLine l n ∧ w ++ m.E = l ++ x ∧ l.length ≤ b ∧ x ≠ [] := by
  cases h with
  | nil hb =>
    refine ⟨m.L, 0, m.T ++ m.X, m.hL, rfl, ?_, ?_⟩
    · rcases m.hf with h | h
      · exact absurd ⟨rfl, h⟩ hr
      · omega
    · have := section_pos m.hT 0
      intro h; simp at h; rw [h.1] at this; simp at this
  | @cons _ l d w p h1 h2 h3 h4 => exact ⟨l, _, d ++ (13 :: 10 :: (w ++ m.E)), h1, by simp, h3, by simp [h2]⟩

theorem within_nil {f b : Nat} {p : Bytes} (h : Within f b [] p) : p = [] := by
  generalize hw : ([] : Bytes) = w at h
  cases h with
  | nil _ => rfl
  | cons => simp at hw

theorem chunk_lt {D d p P : Bytes} (hd : d ≠ []) (h : D ++ (d ++ p) = P) : D ≠ P := by
  rintro rfl; simp at h; exact hd h.1

/-- In a fitting state that is stuck, the window ends before the end of the buffer and more bytes are
to come - unless the payload is complete. -/
theorem fit_stuck {m : Msg} {g : G} {D : Bytes} (h : Fit m g D) (hs : Stuck g.st g.win) (hd : g.st ≠ .done) :
    (D = m.P ∧ m.f = 0 ∧ g.sent = []) ∨ (g.size = 4096 ∧ g.cap = 4096 ∧ g.start + g.win.length < 4096 ∧ g.R ≠ []) := by
  obtain ⟨hgeo, hcap, hsent, hbig, hst⟩ := h
  have hsent' : g.sent = [] := hsent.resolve_right hd
  unfold FitSt at hst
  rcases hg : g.st with _ | ⟨c, l⟩ | _ | _ | t | t | _ <;> rw [hg] at hst hs <;> simp only [Stuck] at hs
  · obtain ⟨b, w, p, h1, h2, h3, h4⟩ := hst
    by_cases hw : w = [] ∧ m.f = 0
    · left
      obtain ⟨rfl, hf⟩ := hw
      exact ⟨by simpa [within_nil h2] using h3, hf, hsent'⟩
    · right
      have hroom := h4.resolve_left hw
      obtain ⟨l, n, x, hl, he, hlb, hx⟩ := within_line h2 hw
      rw [he] at h1
      have := stuck_line hl h1 hs
      refine ⟨hroom.1, hroom.2.1, by have := hroom.2.2; omega, ?_⟩
      intro hR
      have := congrArg List.length h1
      rw [hR] at this; simp at this; omega
  · obtain ⟨b, w, p, h1, h2, h3, h4⟩ := hst
    by_cases hw : w = [] ∧ m.f = 0
    · left
      obtain ⟨rfl, hf⟩ := hw
      exact ⟨by simpa [within_nil h2] using h3, hf, hsent'⟩
    · right
      have hroom := h4.resolve_left hw
      refine ⟨hroom.1, hroom.2.1, by have := hroom.2.2; omega, ?_⟩
      intro hR
      have := congrArg List.length h1
      rw [hR] at this; simp at this; omega
  · obtain ⟨h1, h2, h3, h4⟩ := hst
    rcases h3 with h3 | h3
    · exact .inl ⟨h1, h3, h4⟩
    · right
      have := stuck_section m.hT m.hfs h2 hs
      refine ⟨h3.1, h3.2.1, by have := h3.2.2; omega, ?_⟩
      intro hR
      have := congrArg List.length h2
      rw [hR] at this; simp at this; omega
  · exact absurd hg hd

theorem Fit.step {m : Msg} {g g' : G} {D x : Bytes} (h : Fit m g D) (ht : Trans g x g') : Fit m g' (D ++ x) := by
  have hall := h
  obtain ⟨hgeo, hcap, hsent, hbig, hst⟩ := h
  cases ht with
  | grow c h0 h1 h2 h3 =>
    by_cases hd : g.st = .done
    · refine ⟨by simp only; omega, by simp only; omega, by simpa using hsent, .inl hd, ?_⟩
      simp only [FitSt, hd, List.append_nil] at hst ⊢; exact hst
    · rcases fit_stuck hall h0 hd with ⟨hD, hf, hs⟩ | ⟨g1, g2, g3, g4⟩
      · refine ⟨by simp only; omega, by simp only; omega, by simpa using hsent, .inr (.inl ⟨by simpa using hD, hf⟩), ?_⟩
        simp only [List.append_nil]
        unfold FitSt at hst ⊢
        rcases hg : g.st with _ | ⟨c', l⟩ | _ | _ | t | t | _ <;> rw [hg] at hst h0 <;> simp only [Stuck] at h0 <;> simp only at hst ⊢
        · obtain ⟨b, w, p, a1, a2, a3, a4⟩ := hst
          have : p = [] := by rw [← hD] at a3; simpa using a3
          refine ⟨b, w, p, a1, a2, a3, .inl ⟨?_, hf⟩⟩
          cases a2 with
          | nil => rfl
          | cons _ hdn => simp [hdn] at this
        · obtain ⟨b, w, p, a1, a2, a3, a4⟩ := hst
          have : p = [] := by rw [← hD] at a3; simpa using a3
          refine ⟨b, w, p, a1, a2, a3, .inl ⟨?_, hf⟩⟩
          cases a2 with
          | nil => rfl
          | cons _ hdn => simp [hdn] at this
        · exact ⟨hst.1, hst.2.1, .inl hf, hst.2.2.2⟩
        · exact ⟨hst.1, .inl hf⟩
      · omega
  | refill bs R' h1 h2 h3 h4 =>
    refine ⟨by simp only [List.length_append]; omega, hcap, by simpa using hsent, by simpa using hbig, ?_⟩
    have e : g.win ++ bs ++ R' = g.win ++ g.R := by rw [h2]; simp
    simp only [List.append_nil]
    unfold FitSt at hst ⊢
    rcases hg : g.st with _ | ⟨c', l⟩ | _ | _ | t | t | _ <;> rw [hg] at hst h1 <;> simp only [Stuck] at h1 <;> simp only [e] at hst ⊢
    · exact hst
    · exact hst
    · exact hst
    · exact hst
  | eof h1 h2 =>
    by_cases hd : g.st = .done
    · refine ⟨hgeo, hcap, by simp, .inl rfl, ?_⟩
      simp only [FitSt, hd, List.append_nil] at hst ⊢; exact hst
    · rcases fit_stuck hall h1 hd with ⟨hD, hf, hs⟩ | ⟨g1, g2, g3, g4⟩
      · exact ⟨hgeo, hcap, by simp, .inl rfl, by simp only [FitSt, List.append_nil]; exact ⟨hD, .inl hf⟩⟩
      · rcases h2 with ⟨h2, _⟩ | h2
        · exact absurd h2 g4
        · omega
  | size l w n h1 h2 h3 =>
    have hsent' : g.sent = [] := hsent.resolve_right (by rw [h1]; simp)
    have hbig0 := hbig.resolve_left (by rw [h1]; simp)
    have hbig' {st : DState} := Or.inr (a := st = .done) hbig0
    simp only [FitSt, h1] at hst
    obtain ⟨b, w', p, a1, a2, a3, a4⟩ := hst
    rw [h2, List.append_assoc] at a1
    refine ⟨by simp only; rw [h2] at hgeo; simp at hgeo; omega, hcap, by simpa using Or.inl hsent', by simp only [List.append_nil]; exact hbig', ?_⟩
    cases a2 with
    | nil hb =>
      obtain ⟨rfl, e2, e3⟩ := line_det h3 m.hL a1
      simp only [FitSt, if_true, List.append_nil]
      refine ⟨by simpa using a3, e2, ?_, hsent'⟩
      rcases a4 with ⟨_, hf⟩ | ⟨g1, g2, g3⟩
      · exact .inl hf
      · rcases m.hf with hf | hf
        · exact .inl hf
        · right; refine ⟨g1, g2, ?_⟩; simp only; omega
    | @cons _ l' d w2 p2 c1 c2 c3 c4 =>
      have a1' : l ++ (w ++ g.R) = l' ++ (d ++ (13 :: 10 :: (w2 ++ m.E))) := by rw [a1]; simp
      obtain ⟨rfl, e2, e3⟩ := line_det h3 c1 a1'
      have hn : ¬ d.length = 0 := by simpa using c2
      simp only [FitSt, hn, if_false, List.append_nil]
      refine ⟨_, w2, p2, d, e2, c2, by omega, c4, by simpa using a3, ?_⟩
      rcases a4 with ⟨hw, _⟩ | ⟨g1, g2, g3⟩
      · simp at hw
      · have hcl := c1.length
        by_cases hb0 : b < chunkCost l' d
        · -- nothing left in the budget: this was the last chunk
          left
          have hz : b - chunkCost l' d = 0 := by omega
          rw [hz] at c4
          cases c4 with
          | nil hb => exact ⟨rfl, by omega⟩
          | cons c1' _ c3' _ => have := c1'.length; omega
        · right
          refine ⟨g1, g2, ?_⟩
          unfold chunkCost at hb0 ⊢
          by_cases hsm : d.length < 4096
          · right; left
            rw [if_pos hsm] at hb0 ⊢
            omega
          · rw [if_neg hsm] at hb0 ⊢
            by_cases hw : w = []
            · left; exact ⟨hw, by omega⟩
            · right; right; exact ⟨hw, by omega, by omega⟩
  | drain cur len x w h1 h2 h3 h4 =>
    have hsent' : g.sent = [] := hsent.resolve_right (by rw [h1]; simp)
    have hbig0 := hbig.resolve_left (by rw [h1]; simp)
    have hbig' {st : DState} := Or.inr (a := st = .done) hbig0
    simp only [FitSt, h1] at hst
    obtain ⟨b, w', p, d, a1, a2, a3, a4, a5, a6⟩ := hst
    rw [h2, List.append_assoc] at a1
    have hdl : x.length ≤ d.length := by omega
    obtain ⟨d2, rfl⟩ : ∃ d2, d = x ++ d2 := by
      refine ⟨d.drop x.length, ?_⟩
      have e := congrArg (List.take x.length) a1
      rw [List.take_left, List.take_append_of_le_length hdl] at e
      conv => lhs; rw [← List.take_append_drop x.length d, ← e]
    have a1' : w ++ g.R = d2 ++ (13 :: 10 :: (w' ++ m.E)) := by simpa using a1
    rw [h2] at hgeo
    simp only [List.length_append] at hgeo a3 a6
    have hne := chunk_lt a2 a5
    have hbig2 := hbig0.resolve_left (fun hx => hne hx.1)
    refine ⟨by simp only; split <;> simp_all; omega, hcap, by simpa using Or.inl hsent', .inr (.inr hbig2), ?_⟩
    unfold chunkState
    split
    · rename_i he
      have hd2 : d2 = [] := List.length_eq_zero_iff.1 (by omega)
      subst hd2
      simp only [FitSt]
      refine ⟨b, w', p, by simpa using a1', a4, by simpa using a5, ?_⟩
      rcases a6 with a6 | ⟨g1, g2, g3⟩
      · exact .inl a6
      · right
        refine ⟨g1, g2, ?_⟩
        simp only
        by_cases hw : w = []
        · rw [if_pos hw]
          rcases g3 with ⟨hwin, _⟩ | g3 | ⟨_, _, g3⟩
          · rw [h2] at hwin; simp at hwin; exact absurd hwin.1 h3
          · omega
          · omega
        · rw [if_neg hw]
          have : 0 < w.length := List.length_pos_iff.2 hw
          simp only [List.length_nil] at g3
          rcases g3 with ⟨hwin, _⟩ | g3 | ⟨_, g3, _⟩
          · rw [h2] at hwin; simp at hwin; exact absurd hwin.1 h3
          · omega
          · omega
    · rename_i he
      simp only [FitSt]
      refine ⟨b, w', p, d2, a1', ?_, by omega, a4, by simpa using a5, ?_⟩
      · rintro rfl; simp at a3; omega
      rcases a6 with a6 | ⟨g1, g2, g3⟩
      · exact .inl a6
      · right
        refine ⟨g1, g2, ?_⟩
        by_cases hw : w = []
        · left
          rw [if_pos hw]
          refine ⟨hw, ?_⟩
          rcases g3 with ⟨hwin, _⟩ | g3 | ⟨_, _, g3⟩
          · rw [h2] at hwin; simp at hwin; exact absurd hwin.1 h3
          · omega
          · omega
        · rw [if_neg hw]
          rcases g3 with ⟨hwin, _⟩ | g3 | ⟨_, g3, g4⟩
          · rw [h2] at hwin; simp at hwin; exact absurd hwin.1 h3
          · right; left; omega
          · right; right; exact ⟨hw, by omega, by omega⟩
  | direct cur len x R' h1 h2 h3 h4 h5 =>
    have hsent' : g.sent = [] := hsent.resolve_right (by rw [h1]; simp)
    have hbig0 := hbig.resolve_left (by rw [h1]; simp)
    have hbig' {st : DState} := Or.inr (a := st = .done) hbig0
    simp only [FitSt, h1] at hst
    obtain ⟨b, w', p, d, a1, a2, a3, a4, a5, a6⟩ := hst
    rw [h2, h3, List.nil_append] at a1
    have hdl : x.length ≤ d.length := by omega
    obtain ⟨d2, rfl⟩ : ∃ d2, d = x ++ d2 := by
      refine ⟨d.drop x.length, ?_⟩
      have e := congrArg (List.take x.length) a1
      rw [List.take_left, List.take_append_of_le_length hdl] at e
      conv => lhs; rw [← List.take_append_drop x.length d, ← e]
    have a1' : R' = d2 ++ (13 :: 10 :: (w' ++ m.E)) := by simpa using a1
    simp only [List.length_append] at a3 a6
    have hne := chunk_lt a2 a5
    have hbig2 := hbig0.resolve_left (fun hx => hne hx.1)
    refine ⟨by simpa using hgeo, hcap, by simpa using Or.inl hsent', .inr (.inr hbig2), ?_⟩
    unfold chunkState
    split
    · rename_i he
      have hd2 : d2 = [] := List.length_eq_zero_iff.1 (by omega)
      subst hd2
      simp only [FitSt]
      refine ⟨b, w', p, by rw [h2]; simpa using a1', a4, by simpa using a5, ?_⟩
      rcases a6 with a6 | ⟨g1, g2, g3⟩
      · exact .inl a6
      · right
        refine ⟨g1, g2, ?_⟩
        rcases g3 with ⟨hwin, _⟩ | g3 | ⟨hwin, _⟩
        · simp only; omega
        · simp only; omega
        · exact absurd h2 hwin
    · rename_i he
      simp only [FitSt]
      refine ⟨b, w', p, d2, by rw [h2]; simpa using a1', ?_, by omega, a4, by simpa using a5, ?_⟩
      · rintro rfl; simp at a3; omega
      rcases a6 with a6 | ⟨g1, g2, g3⟩
      · exact .inl a6
      · right
        refine ⟨g1, g2, ?_⟩
        rcases g3 with ⟨hwin, g3⟩ | g3 | ⟨hwin, _⟩
        · exact .inl ⟨hwin, g3⟩
        · right; left; omega
        · exact absurd h2 hwin
  | cut cur len h1 h2 h3 h4 =>
    exfalso
    simp only [FitSt, h1] at hst
    obtain ⟨b, w', p, d, a1, a2, _⟩ := hst
    rw [h2, h3] at a1
    simp at a1
  | chunkEnd w h1 h2 =>
    have hsent' : g.sent = [] := hsent.resolve_right (by rw [h1]; simp)
    have hbig0 := hbig.resolve_left (by rw [h1]; simp)
    have hbig' {st : DState} := Or.inr (a := st = .done) hbig0
    simp only [FitSt, h1] at hst
    obtain ⟨b, w', p, a1, a2, a3, a4⟩ := hst
    rw [h2] at a1 hgeo
    simp only [List.length_cons] at hgeo
    refine ⟨by simp only; omega, hcap, Or.inl hsent', by simp only [List.append_nil]; exact hbig', ?_⟩
    simp only [FitSt, List.append_nil]
    refine ⟨b, w', p, by simpa using a1, a2, a3, ?_⟩
    rcases a4 with a4 | ⟨g1, g2, g3⟩
    · exact .inl a4
    · exact .inr ⟨g1, g2, by simp only; omega⟩
  | trailer l w fs h1 h2 h3 h4 =>
    have hsent' : g.sent = [] := hsent.resolve_right (by rw [h1]; simp)
    have hbig0 := hbig.resolve_left (by rw [h1]; simp)
    have hbig' {st : DState} := Or.inr (a := st = .done) hbig0
    simp only [FitSt, h1] at hst
    obtain ⟨a1, a2, a3, a4⟩ := hst
    rw [h2, List.append_assoc] at a2
    obtain ⟨rfl, _⟩ := section_det h3 m.hT h4 m.hfs a2
    rw [h2] at hgeo
    simp only [List.length_append] at hgeo
    exact ⟨by simp only; omega, hcap, Or.inl hsent', by simp only [List.append_nil]; exact hbig', by simp only [FitSt, List.append_nil]; exact ⟨a1, trivial, hsent'⟩⟩
  | take t h1 =>
    have hsent' : g.sent = [] := hsent.resolve_right (by rw [h1]; simp)
    have hbig0 := hbig.resolve_left (by rw [h1]; simp)
    have hbig' {st : DState} := Or.inr (a := st = .done) hbig0
    simp only [FitSt, h1] at hst
    exact ⟨hgeo, hcap, Or.inl hsent', by simp only [List.append_nil]; exact hbig', by simp only [FitSt, List.append_nil]; exact hst⟩
  | send t h1 =>
    simp only [FitSt, h1] at hst
    refine ⟨hgeo, hcap, .inr rfl, .inl rfl, ?_⟩
    simp only [FitSt, List.append_nil]
    exact ⟨hst.1, .inr (by rw [hst.2.2, hst.2.1]; rfl)⟩

theorem Fit.steps {m : Msg} {g g' : G} {D x : Bytes} (h : Fit m g D) (ht : Steps g x g') : Fit m g' (D ++ x) := by
  induction ht with
  | refl => simpa using h
  | tail _ ht ih => rw [← List.append_assoc]; exact ih.step ht

/-- A fitting message does not make the decoder fail before its payload is complete. -/
theorem Fit.fails {m : Msg} {g : G} {D : Bytes} {e : IoErr} (h : Fit m g D) (hf : Fails g e) :
    D = m.P ∧ (m.f = 0 ∨ g.st = .done) := by
  by_cases hd : g.st = .done
  · have := h.st; simp only [FitSt, hd] at this; exact ⟨this.1, .inr hd⟩
  · have hst := h.st
    have hstuck : Stuck g.st g.win → g.cap ≤ g.win.length ∨ g.R = [] → D = m.P ∧ (m.f = 0 ∨ g.st = .done) := by
      intro hs hx
      rcases fit_stuck h hs hd with ⟨h1, h2, _⟩ | ⟨h1, h2, h3, h4⟩
      · exact ⟨h1, .inl h2⟩
      · rcases hx with hx | hx
        · omega
        · exact absurd hx h4
    cases hf with
    | transport h1 h2 h3 =>
      rcases h3 with h3 | ⟨h3, c, l, h4⟩
      · exact hstuck h3 (.inr h1)
      · exfalso
        simp only [FitSt, h4] at hst
        obtain ⟨b, w, p, d, a1, a2, _⟩ := hst
        rw [h1, h3] at a1; simp at a1
    | size h1 h2 =>
      exfalso
      simp only [FitSt, h1] at hst
      obtain ⟨b, w, p, a1, a2, a3, a4⟩ := hst
      have : ∃ l n x, SizeLine l n ∧ w ++ m.E = l ++ x := by
        cases a2 with
        | nil _ => exact ⟨m.L, 0, m.T ++ m.X, m.hL, rfl⟩
        | @cons _ l d w p h1 h2 h3 h4 => exact ⟨l, _, d ++ (13 :: 10 :: (w ++ m.E)), h1, by simp⟩
      obtain ⟨l, n, x, hl, he⟩ := this
      have h3 := parseChunkSize_streaming.err h2 g.R
      rw [a1, he, (parseChunkSize_ok _ x n).2 ⟨l, rfl, hl⟩] at h3
      cases h3
    | chunkEnd h1 h2 h3 =>
      exfalso
      simp only [FitSt, h1] at hst
      obtain ⟨b, w, p, a1, _⟩ := hst
      have : (g.win ++ g.R).take 2 = g.win.take 2 := List.take_append_of_le_length h2
      rw [← this, a1] at h3
      simp at h3
    | trailer h1 h2 =>
      exfalso
      simp only [FitSt, h1] at hst
      obtain ⟨_, a2, _⟩ := hst
      have h3 := (parseHeaders_streaming 16).err h2 g.R
      rw [a2, (parseHeaders_ok 16 _ m.X m.fs).2 ⟨m.T, rfl, m.hT, m.hfs⟩] at h3
      cases h3
    | tooLarge h1 h2 =>
      rcases h.big with hx | ⟨hx, hf⟩ | ⟨_, hx⟩
      · exact absurd hx hd
      · exact ⟨hx, .inl hf⟩
      · rw [hx] at h2; exact absurd h2 (by decide)

end Dec
end Tophat
