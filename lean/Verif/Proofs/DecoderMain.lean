import Verif.Proofs.DecoderRuns
import Verif.Proofs.DecoderBad
import Verif.Proofs.Http
import Verif.Spec.Fields
/-! Lemmas used directly by the property theorems about the decoder. -/

set_option linter.unusedSectionVars false

namespace Tophat
open Tophat.Spec Tophat.Httparse

namespace Spec

theorem within_of_length {f : Nat} {w p : Bytes} (h : Frames w p) : ∀ {b : Nat}, w.length + f ≤ b → Within f b w p := by
  induction h with
  | nil => intro b hb; exact .nil (by simpa using hb)
  | @cons l d w p hl hd _ ih =>
    intro b hb
    simp only [List.length_append, List.length_cons] at hb
    refine .cons hl hd (by omega) (ih ?_)
    unfold chunkCost
    split <;> omega

theorem Roomy.body {s p : Bytes} {fs : List (Bytes × Bytes)} (h : Roomy s p fs) : Body s p fs := by
  obtain ⟨w, l, t, h1, h2, h3, h4⟩ := h
  exact ⟨w, l, t, h1, h2.frames, h3, h4⟩

/-- Short bodies. -/
theorem roomy_of_length {s p : Bytes} {fs : List (Bytes × Bytes)} (h : Body s p fs) (hl : s.length ≤ 4096) : Roomy s p fs := by
  obtain ⟨w, l, t, rfl, h1, h2, h3⟩ := h
  simp only [List.length_append] at hl
  exact ⟨w, l, t, rfl, within_of_length h1 (by omega), h2, h3⟩

/-- Bodies with one chunk of any length. -/
theorem roomy_one_chunk {c p l t : Bytes} {fs : List (Bytes × Bytes)} (hc : SizeLine c p.length) (hp : 4096 ≤ p.length) (hl : SizeLine l 0) (ht : FieldSection t fs)
    (hlen : c.length + 2 + l.length + t.length ≤ 4096) : Roomy (c ++ (p ++ (crlf ++ (l ++ t)))) p fs := by
  refine ⟨c ++ (p ++ 13 :: 10 :: []), l, t, by simp [crlf], ?_, hl, ht⟩
  have := Within.cons (f := l.length + t.length) (b := 4096) hc (by rintro rfl; simp at hp) (by omega) (.nil (by unfold chunkCost; rw [if_neg (by omega)]; omega))
  simpa using this

theorem hexFold_ge {h : Bytes} : ∀ {a n : Nat},
    h.foldl (fun acc c => acc.bind fun a => (hexVal c).map fun v => 16 * a + v) (some a) = some n →
    a * 16 ^ h.length ≤ n := by
  induction h with
  | nil => intro a n h; simp at h; simp [h]
  | cons c t ih =>
    intro a n h
    rw [List.foldl_cons] at h
    cases hv : hexVal c with
    | none => simp [hv, hexFold_none] at h
    | some v =>
      simp only [hv, Option.bind_some, Option.map_some] at h
      have := ih h
      have e : (16 * a + v) * 16 ^ t.length = a * 16 ^ (t.length + 1) + v * 16 ^ t.length := by
        rw [Nat.pow_succ, Nat.add_mul]; congr 1; rw [Nat.mul_comm 16 a, Nat.mul_assoc, Nat.mul_comm 16]
      simp only [List.length_cons]
      omega

theorem ChunkSize.digits {h : Bytes} {n k : Nat} (hs : ChunkSize h n) (hk : 0 < k) (hn : n < 16 ^ k) : h.length ≤ k := by
  obtain ⟨h1, h2, h3⟩ := hs
  cases h with
  | nil => exact absurd rfl h1
  | cons c t =>
    by_cases hc : c = 48
    · have := h3 (by simp [hc]); rw [this]; exact hk
    · unfold hexNum at h2
      rw [List.foldl_cons] at h2
      cases hv : hexVal c with
      | none => simp [hv, hexFold_none] at h2
      | some v =>
        simp only [hv, Option.bind_some, Option.map_some, Nat.mul_zero, Nat.zero_add] at h2
        have hv0 : v ≠ 0 := by
          rintro rfl
          apply hc
          unfold hexVal at hv
          split at hv
          · have : c.toNat = 48 := by simp at hv; omega
            exact UInt8.toNat_inj.1 this
          · split at hv
            · simp at hv; omega
            · split at hv
              · simp at hv; omega
              · cases hv
        have := hexFold_ge h2
        have h5 : 16 ^ t.length ≤ v * 16 ^ t.length := Nat.le_mul_of_pos_left _ (by omega)
        have h6 : 16 ^ t.length < 16 ^ k := by omega
        have := (Nat.pow_lt_pow_iff_right (by omega : 1 < 16)).1 h6
        simp; omega

theorem ChunkSize.sizeLine {h : Bytes} {n : Nat} (hs : ChunkSize h n) (hn : n < 2 ^ 64) : SizeLine (h ++ [13, 10]) n :=
  ⟨h, [], [], by simp, hs.2.1, hs.digits (by omega) (by omega), by simp, .inl rfl⟩

theorem Chunks.frames {w p : Bytes} (h : Chunks w p) (hp : p.length < 2 ^ 64) : Frames w p := by
  induction h with
  | nil => exact .nil
  | @cons h d w p hs hd _ ih =>
    simp only [List.length_append] at hp
    have := Frames.cons (hs.sizeLine (by omega)) hd (ih (by omega))
    simpa using this

/-- What the encoder sends is a chunked body in the sense of the receiver. -/
theorem lastLine : SizeLine [48, 13, 10] 0 := ⟨[48], [], [], by simp, by decide, by decide, by simp, .inl rfl⟩

theorem ChunkedMessage.parts {s p : Bytes} (h : ChunkedMessage s p) (hp : p.length < 2 ^ 64) :
    ∃ w, s = w ++ ([48, 13, 10] ++ [13, 10]) ∧ Frames w p := by
  obtain ⟨w, hc, rfl⟩ := h
  exact ⟨w, by simp, hc.frames hp⟩

theorem emptySection : FieldSection [13, 10] [] := .blank (.inl rfl)

theorem ChunkedMessage.body {s p : Bytes} (h : ChunkedMessage s p) (hp : p.length < 2 ^ 64) : Body s p [] := by
  obtain ⟨w, rfl, hf⟩ := h.parts hp
  exact ⟨w, [48, 13, 10], [13, 10], rfl, hf, lastLine, emptySection⟩

theorem Chunks.length_le {w p : Bytes} (h : Chunks w p) : p.length ≤ w.length := by
  induction h with
  | nil => simp
  | cons _ _ _ ih => simp; omega

end Spec

namespace Dec

theorem fieldMap_snoc (fs : List (Bytes × Bytes)) (f : Bytes × Bytes) :
    fieldMap (fs ++ [f]) = (fieldMap fs).append (lower f.1) f.2 := by
  simp [fieldMap, List.foldl_append]

theorem fieldMap_wf (n : Nat) : ∀ fs : List (Bytes × Bytes), fs.length = n → (fieldMap fs).WF := by
  induction n with
  | zero => intro fs h; rw [List.length_eq_zero_iff.1 h]; exact HeaderMap.wf_nil
  | succ n ih =>
    intro fs h
    have hne : fs ≠ [] := by rintro rfl; simp at h
    rw [← List.dropLast_concat_getLast hne, fieldMap_snoc]
    exact (ih _ (by simp [h])).append _ _

theorem fieldMap_mapOf (fs : List (Bytes × Bytes)) : MapOf (fieldMap fs) fs := by
  refine ⟨fieldMap_wf _ fs rfl, ?_⟩
  generalize hn : fs.length = n
  induction n generalizing fs with
  | zero => rw [List.length_eq_zero_iff.1 hn]; intro k; rfl
  | succ n ih =>
    have hne : fs ≠ [] := by rintro rfl; simp at hn
    intro k
    obtain ⟨gs, f, rfl⟩ : ∃ gs f, fs = gs ++ [f] := ⟨_, _, (List.dropLast_concat_getLast hne).symm⟩
    have := ih gs (by simpa using hn) k
    rw [fieldMap_snoc, HeaderMap.getAll_append (fieldMap_wf _ gs rfl).nodup, this]
    by_cases hk : lower f.1 = k
    · simp [hk]
    · simp [hk]
      intro h; exact absurd h.symm hk

variable {ρ : Type} [AsyncRead ρ] [LawfulRead ρ]

/-- The invariant at the end of a run. -/
theorem run_inv {inner : ρ} {pool : Pool} (hp : pool.Ok) {ks : List Nat} (hk : ∀ k ∈ ks, 0 < k)
    {d' : ChunkedDecoder ρ} {ps : List RPoll} (h : polls (ChunkedDecoder.new inner pool) ks = .ret (d', ps)) :
    ∃ g, Inv (rem inner) g (received ps) ∧ d'.sent = g.sent := by
  obtain ⟨d1, ps1, h1, ho⟩ := polls_spec ks _ hk (decInv_new inner pool hp)
  rw [h] at h1
  injection h1 with h1; injection h1 with e1 e2
  subst e1; subst e2
  have hi := inv_new inner pool
  cases ho with
  | going g1 _ _ _ _ _ => exact ⟨_, by simpa using hi.steps g1, rfl⟩
  | failed g1 g2 g3 _ _ _ => exact ⟨_, by simpa [received_append, received] using hi.steps g1, g3⟩

theorem new_meas (inner : ρ) (pool : Pool) : (ChunkedDecoder.new inner pool).inner = inner := rfl

end Dec
end Tophat
