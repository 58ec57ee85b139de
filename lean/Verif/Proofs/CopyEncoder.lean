import Verif.Proofs.Copy
import Verif.Spec.Response
/-! `io::copy` applied to the server's response encoder. -/

set_option linter.unusedSectionVars false

namespace Tophat

theorem chunks_append {w w' p p' : Bytes} (h : Spec.Chunks w p) (h' : Spec.Chunks w' p') :
    Spec.Chunks (w ++ w') (p ++ p') := by
  induction h with
  | nil => simpa using h'
  | cons h1 h2 _ ih =>
    have := Spec.Chunks.cons h1 h2 ih
    simpa [List.append_assoc] using this

namespace Encoder

variable {ρ : Type} [AsyncBufRead ρ] [LawfulBufRead ρ]

/-- The streaming encoder as seen by `io::copy`. -/
theorem encSpec_chunked {hexLen : Nat → Nat} (hx : HexLenOk hexLen) {resp : InnerResponse ρ} {now : Bytes}
    (hl : resp.length = none) (hw : resp.headers.WF) :
    EncSpec (Encoder.poll (ρ := ρ) hexLen now)
      (fun e out => ChInv resp now e out ∧ (e.state = .done → e.chunked.state = .ended) ∧
        (e.state = .start ∨ e.state = .head → out.length % copyBufLen = 0))
      (chWork resp now)
      (fun out => ∃ w, out = specHead resp now ++ w ∧ Spec.ChunkedMessage w (rem resp.body) ∧ fin resp.body = none)
      (fun out x => fin resp.body = some x ∧ (out <+: specHead resp now ∧ out.length < (specHead resp now).length ∧ out.length % copyBufLen = 0 ∨
        ∃ v, out = specHead resp now ++ v ∧ Spec.Chunks v (rem resp.body)))
      (((specHead resp now).length % copyBufLen = copyBufLen - 3 ∨ (specHead resp now).length % copyBufLen = copyBufLen - 4) ∧
        rem resp.body = [] ∧ fin resp.body = none) where
  step := by
    intro e out buf ⟨h, hdone, hal⟩ hbl
    rcases poll_step hx buf hl hw h with ⟨e1, buf1, r, hp, hs⟩ | ⟨hp, hpc⟩
    · refine .inr ⟨e1, buf1, r, hp, ?_⟩
      cases hs with
      | pending h1 hst1 hb1 hwk =>
        exact ⟨by omega, ⟨h1, by simp [hst1], by simp [hst1]⟩, hwk⟩
      | err h1 hb1 h2 =>
        refine ⟨by omega, h1, ?_⟩
        have key : (∃ w, out = specHead resp now ++ w) ∨ out <+: specHead resp now ∧ out.length < (specHead resp now).length := by
          rcases h.out with g1 | ⟨v, p, g1, _⟩ | ⟨v, g1, _⟩
          · by_cases hlt : out.length < (specHead resp now).length
            · exact .inr ⟨g1, hlt⟩
            · exact .inl ⟨[], by rw [List.append_nil]; exact g1.eq_of_length (by have := g1.length_le; omega)⟩
          · exact .inl ⟨v, g1⟩
          · exact .inl ⟨v, g1⟩
        rcases key with ⟨w, g⟩ | ⟨g1, g2⟩
        · obtain ⟨p, rfl, g'⟩ := h2 w g
          exact .inr ⟨w, g, g'⟩
        · exact .inl ⟨g1, g2, hal (h.state_of_lt g2)⟩
      | ready h1 hb1 hn hd hst1 hhd hwk hwk' =>
        rename_i n
        obtain ⟨d1, d2⟩ := hd (by rw [hbl]; decide) hdone
        refine ⟨by omega, by omega, ⟨h1, d2, ?_⟩, ?_, hwk⟩
        · intro h'
          have hh : e1.state = .head := by rcases h' with h' | h'; exact absurd h' hst1; exact h'
          have hn := hhd hh
          have : (buf1.take n).length = copyBufLen := by simp; omega
          simp only [ChInv, hh] at h1
          have hlt := h1.2.2.2.2.1
          have h0 : out.length % copyBufLen = 0 := hal (h.state_of_lt (by simp at hlt; omega))
          rw [List.length_append, this, Nat.add_mod_right, h0]
        · intro hn0
          subst hn0
          simp only [List.take_zero, List.append_nil] at h1
          have hd1 := d1 rfl
          have hen := d2 hd1
          simp only [ChInv, hd1] at h1
          obtain ⟨w, rfl, h2⟩ := h1
          rcases h2 with ⟨h2, _⟩ | ⟨_, h2, h3⟩
          · exact absurd hen h2
          · exact ⟨⟨w, rfl, h2, h3⟩, by simpa using hwk'⟩
    · refine .inl ⟨.inl hp, ?_⟩
      obtain ⟨k, k1, k2, k3, k4⟩ := hpc
      rcases k3 with ⟨k3, _⟩ | ⟨k3, kr⟩
      · exfalso
        have : copyBufLen = 8192 := rfl
        omega
      · have hal' : out.length % copyBufLen = 0 := hal (h.state_of_lt (by
          have : copyBufLen = 8192 := rfl
          by_cases hk : k = 0
          · exfalso; omega
          · omega))
        have : (specHead resp now).length % copyBufLen = k := by
          rw [← k3, Nat.add_mod, hal', Nat.zero_add, Nat.mod_mod, Nat.mod_eq_of_lt (by omega)]
        rw [this]
        exact ⟨by omega, kr, k4⟩

/-- The fixed-length encoder as seen by `io::copy`. -/
theorem encSpec_fixed {hexLen : Nat → Nat} {resp : InnerResponse ρ} {now : Bytes} {n : Nat}
    (hl : resp.length = some n) (hw : resp.headers.WF) (hlim : copyBufLen + n < usizeLimit) :
    EncSpec (Encoder.poll (ρ := ρ) hexLen now) (FxInv resp now n)
      (fun e out => (specHead resp now).length + n - out.length + meas e.resp.body)
      (fun out => out = specHead resp now ++ (rem resp.body).take n ∧ n ≤ (rem resp.body).length)
      (fun _ x => fin resp.body = some x ∧ (rem resp.body).length ≤ n)
      ((rem resp.body).length < n ∧ fin resp.body = none) where
  step := by
    intro e out buf h hbl
    rcases poll_step_fixed buf (by omega) hl hw h with ⟨e1, buf1, r, hp, hs⟩ | ⟨hp, hpc⟩
    · refine .inr ⟨e1, buf1, r, hp, ?_⟩
      cases hs with
      | pending h1 hst1 hb1 hwk => exact ⟨by omega, h1, by omega⟩
      | err h1 h2 hb1 => exact ⟨by omega, h1, h2⟩
      | ready h1 hb1 hn hd hst1 hwk =>
        rename_i m
        refine ⟨by omega, by omega, h1, ?_, ?_⟩
        · intro hm
          subst hm
          have hdn := hd (by rw [hbl]; decide) rfl
          simp only [List.take_zero, List.append_nil, FxInv, hdn] at h1
          exact ⟨h1, by omega⟩
        · intro hm
          have h2 := h1.out_length
          simp only [List.length_append, List.length_take, hb1] at h2 ⊢
          omega
    · exact .inl ⟨.inr hp, hpc⟩

/-- Anything a streaming encoder has handed out is the beginning of a complete response. -/
theorem ChInv.prefix_response {resp : InnerResponse ρ} {now : Bytes} {e : Encoder ρ} {out : Bytes}
    (h : ChInv resp now e out) : ∃ msg, Spec.IsResponse (specHead resp now) none (rem resp.body) msg ∧ out <+: msg := by
  have full : ∀ w p, Spec.Chunks w p → p <+: rem resp.body →
      ∃ w', Spec.ChunkedMessage (w ++ w') (rem resp.body) := by
    rintro w p hc ⟨q, hq⟩
    by_cases hq0 : q = []
    · subst hq0
      exact ⟨[48, 13, 10, 13, 10], w, by rw [← hq, List.append_nil]; exact hc, rfl⟩
    · have h1 : Spec.Chunks (hexUpper q.length ++ [13, 10] ++ q ++ [13, 10]) q := by
        simpa using Spec.Chunks.cons (chunkSize_hexUpper q.length) hq0 .nil
      exact ⟨hexUpper q.length ++ [13, 10] ++ q ++ [13, 10] ++ [48, 13, 10, 13, 10], _, hq ▸ chunks_append hc h1, by simp⟩
  rcases h.out with h1 | ⟨w, p, rfl, h2, h3⟩ | ⟨w, rfl, h2, _⟩
  · obtain ⟨w', hw'⟩ := full [] [] .nil List.nil_prefix
    exact ⟨_, ⟨_, rfl, hw'⟩, h1.trans (List.prefix_append _ _)⟩
  · obtain ⟨w', hw'⟩ := full w p h2 h3
    exact ⟨_, ⟨_, rfl, hw'⟩, by rw [← List.append_assoc]; exact List.prefix_append _ _⟩
  · exact ⟨_, ⟨_, rfl, h2⟩, List.prefix_refl _⟩

end Encoder
end Tophat
