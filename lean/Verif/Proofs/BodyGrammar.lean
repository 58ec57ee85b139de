import Verif.Proofs.DecoderFit
import Verif.Proofs.ChunkGrammar
/-! Facts about the grammar of received chunked bodies. -/

namespace Tophat
open Tophat.Spec Tophat.Httparse

namespace Spec

theorem NoSizeLine.not_prefix {r l x : Bytes} {n : Nat} (h : NoSizeLine r) (hl : SizeLine l n) : r ≠ l ++ x := by
  rintro rfl
  exact h [] l n hl (by simp)

/-- Taking a complete chunk off: what two chunk sequences of the same stream have in common. -/
theorem frames_line {l l' d d' y y' : Bytes} {n n' : Nat} (h : SizeLine l n) (h' : SizeLine l' n')
    (hd : d.length = n) (hd' : d'.length = n') (e : l ++ (d ++ y) = l' ++ (d' ++ y')) : d = d' ∧ y = y' := by
  obtain ⟨e1, e2, _⟩ := Dec.line_det h h' e
  subst e1
  exact List.append_inj e2 (by omega)

/-- `p` is all the data of the stream `s`: nothing carried by `s` goes beyond it. -/
def Total (s p : Bytes) : Prop := ∀ d, Carries s d → d <+: p

/-- Data carried behind a complete chunk. -/
theorem carries_cons {l d r x : Bytes} (hl : SizeLine l d.length) (hd : d ≠ [])
    (h : Carries (l ++ (d ++ r)) x) : x <+: d ∨ ∃ w y, r = 13 :: 10 :: w ∧ x = d ++ y ∧ Carries w y := by
  obtain ⟨w, p, hf, h⟩ := h
  cases hf with
  | nil =>
    left
    rcases h with ⟨_, rfl⟩ | ⟨l', n, z, hl', hz, hp, rfl⟩
    · exact List.nil_prefix
    · obtain ⟨t, ht⟩ := hp
      simp only [List.nil_append, List.append_assoc] at ht ⊢
      obtain ⟨e1, e2, _⟩ := Dec.line_det hl' hl ht
      refine List.prefix_of_prefix_length_le (List.prefix_append x t) ?_ (by omega)
      rw [e2]; exact List.prefix_append _ _
  | @cons l' d' w p hl' hd' hf =>
    have key : ∀ t, l' ++ (d' ++ (13 :: 10 :: w)) ++ t = l ++ (d ++ r) → d' = d ∧ 13 :: 10 :: (w ++ t) = r := by
      intro t ht
      have ht' : l' ++ (d' ++ (13 :: 10 :: (w ++ t))) = l ++ (d ++ r) := by simpa using ht
      exact frames_line hl' hl rfl rfl ht'
    right
    rcases h with ⟨⟨t, ht⟩, rfl⟩ | ⟨l'', n, z, hl'', hz, ⟨t, ht⟩, rfl⟩
    · obtain ⟨rfl, e⟩ := key t ht
      exact ⟨w ++ t, p, e.symm, rfl, w, p, hf, .inl ⟨List.prefix_append _ _, rfl⟩⟩
    · obtain ⟨rfl, e⟩ := key (l'' ++ z ++ t) (by simpa using ht)
      exact ⟨_, p ++ z, e.symm, by simp, w, p, hf, .inr ⟨l'', n, z, hl'', hz, by simp, rfl⟩⟩

theorem total_frames {w p : Bytes} (h : Frames w p) : ∀ {r q : Bytes}, Total r q → Total (w ++ r) (p ++ q) := by
  induction h with
  | nil => intro r q h; simpa using h
  | @cons l d w p hl hd _ ih =>
    intro r q hr x hx
    have hx' : Carries (l ++ (d ++ (13 :: 10 :: (w ++ r)))) x := by simpa using hx
    rcases carries_cons hl hd hx' with h | ⟨w', y, e, rfl, hy⟩
    · rw [List.append_assoc]; exact h.trans (List.prefix_append _ _)
    · simp only [List.cons.injEq, true_and] at e
      subst e
      have := ih hr y hy
      rw [List.append_assoc]; exact List.prefix_append_right_inj _ |>.2 this

/-- Nothing is carried by a stream without a size line. -/
theorem total_noSize {r : Bytes} (h : NoSizeLine r) : Total r [] := by
  rintro x ⟨w, p, hf, hx⟩
  cases hf with
  | nil =>
    rcases hx with ⟨_, rfl⟩ | ⟨l, n, z, hl, _, ⟨t, ht⟩, _⟩
    · exact List.nil_prefix
    · exact absurd ht.symm (by simpa using h.not_prefix (x := z ++ t) hl)
  | @cons l d w p hl hd _ =>
    exfalso
    have : l <+: r := by
      rcases hx with ⟨h, _⟩ | ⟨_, _, _, _, _, h, _⟩
      · exact List.IsPrefix.trans (by simp) h
      · exact List.IsPrefix.trans (by simp) h
    obtain ⟨t, ht⟩ := this
    exact h.not_prefix hl ht.symm

/-- Nothing is carried behind the last chunk. -/
theorem total_last {l r : Bytes} (hl : SizeLine l 0) : Total (l ++ r) [] := by
  rintro x ⟨w, p, hf, hx⟩
  cases hf with
  | nil =>
    rcases hx with ⟨_, rfl⟩ | ⟨l', n, z, hl', hz, ⟨t, ht⟩, rfl⟩
    · exact List.nil_prefix
    · simp only [List.nil_append, List.append_assoc] at ht
      obtain ⟨e1, _, _⟩ := Dec.line_det hl' hl ht
      have : x = [] := List.length_eq_zero_iff.1 (by omega)
      simp [this]
  | @cons l' d w p hl' hd _ =>
    exfalso
    have : ∃ t, l' ++ t = l ++ r := by
      rcases hx with ⟨⟨t, h⟩, _⟩ | ⟨_, _, _, _, _, ⟨t, h⟩, _⟩
      · exact ⟨_, by rw [List.append_assoc] at h; exact h⟩
      · exact ⟨_, by simp only [List.append_assoc] at h; exact h⟩
    obtain ⟨t, ht⟩ := this
    obtain ⟨e1, _, _⟩ := Dec.line_det hl' hl ht
    exact hd (List.length_eq_zero_iff.1 e1)

theorem total_noCrlf {l d r : Bytes} (hl : SizeLine l d.length) (hd : d ≠ []) (hr : r.take 2 ≠ [13, 10]) :
    Total (l ++ (d ++ r)) d := by
  intro x hx
  rcases carries_cons hl hd hx with h | ⟨w', y, e, rfl, hy⟩
  · exact h
  · rw [e] at hr; simp at hr

theorem Body.total {s p r : Bytes} {fs : List (Bytes × Bytes)} (h : Body s p fs) : Total (s ++ r) p := by
  obtain ⟨w, l, t, rfl, hf, hl, _⟩ := h
  have := total_frames hf (total_last (r := t ++ r) hl)
  simpa using this

theorem Malformed.total {s p : Bytes} (h : Malformed s p) : Total s p := by
  cases h with
  | size hf hr => have := total_frames hf (total_noSize hr); simpa using this
  | noCrlf hf hl hd _ hr => exact total_frames hf (total_noCrlf hl hd hr)
  | @trailer w p l r hf hl _ => have := total_frames hf (total_last (r := r) hl); simpa using this

/-- What a stream carries is determined by the stream: two strings carried by it agree as far as they go. -/
theorem Carries.comparable {s x y : Bytes} (hx : Carries s x) (hy : Carries s y) : x <+: y ∨ y <+: x := by
  obtain ⟨w, p, hf, hx⟩ := hx
  have aux : ∀ {w p : Bytes}, Frames w p → ∀ {s x y : Bytes}, ((w <+: s ∧ x = p) ∨
      ∃ l n z, SizeLine l n ∧ z.length ≤ n ∧ w ++ (l ++ z) <+: s ∧ x = p ++ z) → Carries s y → x <+: y ∨ y <+: x := by
    intro w p hf
    induction hf with
    | nil =>
      intro s x y hx hy
      rcases hx with ⟨_, rfl⟩ | ⟨l, n, z, hl, hz, ⟨t, ht⟩, rfl⟩
      · exact .inl List.nil_prefix
      · simp only [List.nil_append] at ht ⊢
        obtain ⟨w', p', hf', hy⟩ := hy
        cases hf' with
        | nil =>
          rcases hy with ⟨_, rfl⟩ | ⟨l', n', z', hl', hz', ⟨t', ht'⟩, rfl⟩
          · exact .inr List.nil_prefix
          · simp only [List.nil_append] at ht' ⊢
            have e : l ++ (x ++ t) = l' ++ (y ++ t') := by simpa using ht.trans ht'.symm
            obtain ⟨_, e2, _⟩ := Dec.line_det hl hl' e
            exact List.prefix_or_prefix_of_prefix (List.prefix_append x t) (e2 ▸ List.prefix_append y t')
        | @cons l' d' w' p' hl' hd' _ =>
          have : ∃ q t', y = d' ++ q ∧ s = l' ++ (d' ++ t') := by
            rcases hy with ⟨⟨t', h⟩, rfl⟩ | ⟨_, _, z', _, _, ⟨t', h⟩, rfl⟩
            · exact ⟨p', _, rfl, by rw [← h]; simp; rfl⟩
            · exact ⟨p' ++ z', _, by simp, by rw [← h]; simp; rfl⟩
          obtain ⟨q, t', rfl, hs⟩ := this
          have e : l ++ (x ++ t) = l' ++ (d' ++ t') := by simpa [hs] using ht
          obtain ⟨e1, e2, _⟩ := Dec.line_det hl hl' e
          refine .inl ?_
          refine List.prefix_of_prefix_length_le (l₃ := d' ++ q) ?_ (List.prefix_refl _) ?_
          · have : x <+: d' := List.prefix_of_prefix_length_le (List.prefix_append x t) (e2 ▸ List.prefix_append d' t') (by omega)
            exact this.trans (List.prefix_append _ _)
          · simp; omega
    | @cons l d w p hl hd _ ih =>
      intro s x y hx hy
      have : ∃ r, s = l ++ (d ++ (13 :: 10 :: r)) ∧ ∃ x', x = d ++ x' ∧ ((w <+: r ∧ x' = p) ∨
          ∃ l n z, SizeLine l n ∧ z.length ≤ n ∧ w ++ (l ++ z) <+: r ∧ x' = p ++ z) := by
        rcases hx with ⟨⟨t, h⟩, rfl⟩ | ⟨l', n, z, hl', hz, ⟨t, h⟩, rfl⟩
        · exact ⟨w ++ t, by rw [← h]; simp, p, rfl, .inl ⟨List.prefix_append _ _, rfl⟩⟩
        · exact ⟨w ++ (l' ++ z) ++ t, by rw [← h]; simp, p ++ z, by simp, .inr ⟨l', n, z, hl', hz, List.prefix_append _ _, rfl⟩⟩
      obtain ⟨r, rfl, x', rfl, hx'⟩ := this
      rcases carries_cons hl hd hy with h | ⟨w', y', e, rfl, hy'⟩
      · exact .inr (h.trans (List.prefix_append _ _))
      · simp only [List.cons.injEq, true_and] at e
        subst e
        rcases ih hx' hy' with h | h
        · exact .inl (List.prefix_append_right_inj _ |>.2 h)
        · exact .inr (List.prefix_append_right_inj _ |>.2 h)
  exact aux hf hx hy

/-- A stream has at most one complete chunked body at its beginning. -/
theorem Body.unique {s s' p p' r r' : Bytes} {fs fs' : List (Bytes × Bytes)} (h : Body s p fs) (h' : Body s' p' fs')
    (hn : fs.length ≤ 16) (hn' : fs'.length ≤ 16) (e : s ++ r = s' ++ r') : p = p' ∧ fs = fs' ∧ r = r' := by
  obtain ⟨w, l, t, rfl, hf, hl, ht⟩ := h
  obtain ⟨w', l', t', rfl, hf', hl', ht'⟩ := h'
  induction hf generalizing w' p' with
  | nil =>
    cases hf' with
    | nil =>
      obtain ⟨_, e2, _⟩ := Dec.line_det hl hl' (by simpa using e)
      obtain ⟨h1, h2⟩ := Dec.section_det ht ht' hn hn' e2
      exact ⟨rfl, h1, h2⟩
    | @cons l2 d w p hl2 hd _ =>
      obtain ⟨e1, _, _⟩ := Dec.line_det hl hl2 (x := t ++ r) (y := d ++ (13 :: 10 :: (w ++ (l' ++ (t' ++ r'))))) (by simpa using e)
      exact absurd (List.length_eq_zero_iff.1 e1.symm) hd
  | @cons l1 d1 w1 p1 hl1 hd1 _ ih =>
    cases hf' with
    | nil =>
      obtain ⟨e1, _, _⟩ := Dec.line_det hl' hl1 (x := t' ++ r') (y := d1 ++ (13 :: 10 :: (w1 ++ (l ++ (t ++ r))))) (by simpa using e.symm)
      exact absurd (List.length_eq_zero_iff.1 e1.symm) hd1
    | @cons l2 d2 w2 p2 hl2 hd2 hf2 =>
      obtain ⟨rfl, e2⟩ := frames_line hl1 hl2 rfl rfl (y := 13 :: 10 :: (w1 ++ (l ++ (t ++ r))))
        (y' := 13 :: 10 :: (w2 ++ (l' ++ (t' ++ r')))) (by simpa using e)
      simp only [List.cons.injEq, true_and] at e2
      obtain ⟨h1, h2, h3⟩ := ih w2 (by simpa using e2) hf2
      exact ⟨by rw [h1], h2, h3⟩

/-- A malformed stream does not contain a complete body. -/
theorem Malformed.no_body {s p : Bytes} (h : Malformed s p) : ∀ {b q r : Bytes} {fs : List (Bytes × Bytes)},
    Body b q fs → fs.length ≤ 16 → s ≠ b ++ r := by
  have base : ∀ {w r0 p : Bytes}, Frames w p → (∀ {b q r : Bytes} {fs : List (Bytes × Bytes)},
      Body b q fs → fs.length ≤ 16 → r0 ≠ b ++ r) → ∀ {b q r : Bytes} {fs : List (Bytes × Bytes)},
      Body b q fs → fs.length ≤ 16 → w ++ r0 ≠ b ++ r := by
    intro w r0 p hf h0
    induction hf with
    | nil => intro b q r fs hb hn; simpa using h0 hb hn
    | @cons l d w p hl hd _ ih =>
      rintro b q r fs ⟨w', l', t', rfl, hf', hl', ht'⟩ hn e
      cases hf' with
      | nil =>
        obtain ⟨e1, _, _⟩ := Dec.line_det hl' hl (x := t' ++ r) (y := d ++ (13 :: 10 :: (w ++ r0))) (by simpa using e.symm)
        exact absurd (List.length_eq_zero_iff.1 e1.symm) hd
      | @cons l2 d2 w2 p2 hl2 hd2 hf2 =>
        obtain ⟨rfl, e2⟩ := frames_line hl hl2 rfl rfl (y := 13 :: 10 :: (w ++ r0))
          (y' := 13 :: 10 :: (w2 ++ (l' ++ (t' ++ r)))) (by simpa using e)
        simp only [List.cons.injEq, true_and] at e2
        exact ih ⟨w2, l', t', rfl, hf2, hl', ht'⟩ hn (by simpa using e2)
  intro b q r fs hb hn
  cases h with
  | size hf hr =>
    refine base hf ?_ hb hn
    rintro b q r fs ⟨w', l', t', rfl, hf', hl', ht'⟩ _ e
    cases hf' with
    | nil => exact hr.not_prefix (x := t' ++ r) hl' (by simpa using e)
    | @cons l2 d2 w2 p2 hl2 hd2 hf2 => exact hr.not_prefix (x := d2 ++ (13 :: 10 :: (w2 ++ (l' ++ (t' ++ r))))) hl2 (by simpa using e)
  | @noCrlf w p l d r0 hf hl hd h2 hr =>
    refine base hf ?_ hb hn
    rintro b q r fs ⟨w', l', t', rfl, hf', hl', ht'⟩ _ e
    cases hf' with
    | nil =>
      obtain ⟨e1, _, _⟩ := Dec.line_det hl' hl (x := t' ++ r) (y := d ++ r0) (by simpa using e.symm)
      exact absurd (List.length_eq_zero_iff.1 e1.symm) hd
    | @cons l2 d2 w2 p2 hl2 hd2 hf2 =>
      obtain ⟨rfl, e2⟩ := frames_line hl hl2 rfl rfl (y := r0)
          (y' := 13 :: 10 :: (w2 ++ (l' ++ (t' ++ r)))) (by simpa using e)
      rw [e2] at hr; simp at hr
  | @trailer w p l r0 hf hl hr =>
    refine base hf ?_ hb hn
    rintro b q r fs ⟨w', l', t', rfl, hf', hl', ht'⟩ hn e
    cases hf' with
    | nil =>
      obtain ⟨_, e2, _⟩ := Dec.line_det hl hl' (x := r0) (y := t' ++ r) (by simpa using e)
      exact hr [] t' fs ht' hn (by rw [e2]; simp)
    | @cons l2 d2 w2 p2 hl2 hd2 hf2 =>
      obtain ⟨e1, _, _⟩ := Dec.line_det hl hl2 (x := r0) (y := d2 ++ (13 :: 10 :: (w2 ++ (l' ++ (t' ++ r))))) (by simpa using e)
      exact absurd (List.length_eq_zero_iff.1 e1.symm) hd2

end Spec
end Tophat
