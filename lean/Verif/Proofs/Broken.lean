import Verif.Proofs.DecoderBad
import Verif.Proofs.Truncated
/-! Reading a chunked body whose framing is broken, to its end. -/

set_option linter.unusedSectionVars false
set_option synthInstance.maxSize 1000

namespace Tophat
open Spec

section
variable {ρ : Type} [AsyncRead ρ] [LawfulRead ρ]

/-- Reading a chunked body to its end gives one of the decoding errors if the framing is broken within the first 4096 bytes of it. -/
theorem BodyAt.broken {grow : Nat → Nat → Nat} (hg : GrowOk grow) (fuel cap : Nat) {pool : Pool} (hp : pool.Ok) {s : Bytes} {e : Option IoErr} {m : Nat} {body : ReqBody ρ}
    (h : BodyAt pool s e m none body) {p : Bytes} (hb : BrokenWithin 4096 s p) (hF : p.length + m < fuel) :
    ∃ t er, readToEnd grow fuel body (ToEnd.new cap) = .ret (.chunked t, .err er) ∧ (er = .chunkSize ∨ er = .invalidData ∨ er = .trailer) ∧ Announces.sent t = [] := by
  generalize hlen : none = len at h
  cases h with
  | fixed => cases hlen
  | chunked a b c =>
    rename_i r
    obtain ⟨t, x, h⟩ := readToEnd_bufDec hg fuel r hp cap
    rw [readToEnd_lift ReqBody.chunked (fun a k => rfl), h]
    have hin := readToEnd_inside hg h
    rw [← a] at hb
    cases x with
    | running =>
      exfalso
      obtain ⟨ks, ps, r1, a', b', c', d, e⟩ := readToEnd_slurped hg fuel h
      obtain ⟨b2, ps2, g1, g2⟩ := bufDec_polls ks (BufRd.new (ChunkedDecoder.new r pool)) (Dec.decInv_new r pool hp)
      rw [b'] at g1
      injection g1 with g1; injection g1 with e1 e2
      subst e1 e2
      obtain ⟨ks', ps', h1, h2, h3, h4, h5⟩ := bufRd_polls b'
      have h3' : received ps' = received ps ++ r1.buf := h3
      have hpre := (C15_nothing_beyond hp h1 h2 hb.malformed).1
      rw [h3'] at hpre
      have := ((List.prefix_append _ _).trans hpre).length_le
      have := g2 a' c' d
      have hm : meas (BufRd.new (ChunkedDecoder.new r pool)).inner.inner = meas r := rfl
      dsimp only at e
      omega
    | err er =>
      obtain ⟨ks, ps, g1, g2, g3, g4⟩ := hin
      exact ⟨t, er, rfl, ((C15_error_partial hp g1 g2 hb).2.1 er (by simp)).2, (C15_nothing_beyond hp g1 g2 hb.malformed).2⟩
    | eof bs =>
      obtain ⟨ks, ps, g1, g2, g3, g4, rfl⟩ := hin
      exact absurd g3 (C15_error_partial hp g1 g2 hb).1

end

/-! ## Complete chunks, and then the beginning of another response -/

theorem hexNum_H (ds : Bytes) : hexNum (72 :: ds) = none := by
  have h : ∀ ds : Bytes, ds.foldl (fun acc c => acc.bind fun a => (hexVal c).map fun v => 16 * a + v) (none : Option Nat) = none := by
    intro ds
    induction ds with
    | nil => rfl
    | cons d ds ih => exact ih
  exact h ds

/-- What begins with `H` does not begin with a size line. -/
theorem noSizeLine_H : NoSizeLine [72] := by
  rintro y l n ⟨ds, ws, ext, rfl, h1, h2, h3, h4⟩ ⟨z, hz⟩
  cases ds with
  | cons d ds =>
    injection hz with hd
    subst hd
    rw [hexNum_H] at h1
    cases h1
  | nil =>
    cases ws with
    | cons d ws =>
      injection hz with hd
      subst hd
      rcases h3 72 (by simp) with h | h <;> cases h
    | nil =>
      rcases h4 with rfl | ⟨t, rfl, -⟩
      · injection hz with hd
        cases hd
      · injection hz with hd
        cases hd

theorem Spec.Within.le {f b : Nat} {w p : Bytes} (h : Within f b w p) : f ≤ b := by
  induction h with
  | nil h => exact h
  | cons _ _ _ _ ih => omega

theorem Spec.Within.glued {b : Nat} {w p t : Bytes} (h : Within 1 b w p) : BrokenWithin b (w ++ 72 :: t) p := by
  induction h with
  | nil h => exact BrokenWithin.size (r := [72]) (x := t) noSizeLine_H h
  | cons h1 h2 h3 h4 ih =>
    have := h4.le
    have := BrokenWithin.cons h1 h2 (by omega) ih
    simpa [List.append_assoc] using this

end Tophat
