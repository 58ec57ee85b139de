import Verif.Proofs.ServerEncodeFixed
/-! Helper lemmas: a consumer that polls often enough sees the end of the response. -/

set_option linter.unusedSectionVars false

namespace Tophat
namespace Encoder

variable {ρ : Type} [AsyncBufRead ρ] [LawfulBufRead ρ]

theorem drive_ch_ends {hexLen : Nat → Nat} (hx : HexLenOk hexLen) {resp : InnerResponse ρ} {now : Bytes}
    (hl : resp.length = none) (hw : resp.headers.WF) (bufs : List Bytes) :
    ∀ (e : Encoder ρ) (out : Bytes) e' o st, ChInv resp now e out →
      drive hexLen now e bufs = .ret (e', o, st) → chWork resp now e out < bufs.length → st ≠ .running := by
  induction bufs with
  | nil => intro e out e' o st _ _ h; simp at h
  | cons buf bufs ih =>
    intro e out e' o st h hd hlen
    rw [List.length_cons] at hlen
    rcases poll_step hx buf hl hw h with ⟨e1, buf1, r, hp, hs⟩ | ⟨hp, hpc⟩
    · rw [drive_cons, hp, Run.ret_bind] at hd
      cases hs with
      | pending h1 hst1 hb hwk => exact ih e1 out e' o st h1 hd (by omega)
      | err h1 => simp only [Run.ret.injEq, Prod.mk.injEq] at hd; rw [← hd.2.2]; simp
      | ready h1 hb hn hd1 hst1 hhd hwk hwk2 =>
        rename_i n
        simp only [] at hd
        cases hdr : drive hexLen now e1 bufs with
        | ret y =>
          rw [hdr, Run.ret_bind] at hd
          simp only [Run.ret.injEq, Prod.mk.injEq] at hd
          rw [← hd.2.2]
          by_cases hn0 : n = 0
          · rw [if_pos hn0]; exact sawEof_ne_running _
          · rw [if_neg hn0]
            exact ih e1 _ y.1 y.2.1 y.2.2 h1 hdr (by have := hwk hn0; omega)
        | panic => rw [hdr] at hd; simp at hd
        | diverge => rw [hdr] at hd; simp at hd
    · rw [drive_cons, hp] at hd; simp at hd

theorem FxInv.out_length {resp : InnerResponse ρ} {now : Bytes} {n : Nat} {e : Encoder ρ} {out : Bytes}
    (h : FxInv resp now n e out) : out.length ≤ (specHead resp now).length + n := by
  have := h.out.length_le
  simp at this
  omega

theorem drive_fx_ends {hexLen : Nat → Nat} {resp : InnerResponse ρ} {now : Bytes} {n : Nat}
    (hl : resp.length = some n) (hw : resp.headers.WF) (bufs : List Bytes)
    (hlim : ∀ b ∈ bufs, b.length + n < usizeLimit) :
    ∀ (e : Encoder ρ) (out : Bytes) e' o st, FxInv resp now n e out →
      drive hexLen now e bufs = .ret (e', o, st) →
      (specHead resp now).length + n - out.length + meas e.resp.body < bufs.length → st ≠ .running := by
  induction bufs with
  | nil => intro e out e' o st _ _ h; simp at h
  | cons buf bufs ih =>
    intro e out e' o st h hd hlen
    have ih := ih (fun b hb => hlim b (List.mem_cons_of_mem _ hb))
    rw [List.length_cons] at hlen
    rcases poll_step_fixed buf (hlim buf List.mem_cons_self) hl hw h with ⟨e1, buf1, r, hp, hs⟩ | ⟨hp, hpc⟩
    · rw [drive_cons, hp, Run.ret_bind] at hd
      cases hs with
      | pending h1 hst1 hb hwk => exact ih e1 out e' o st h1 hd (by omega)
      | err h1 => simp only [Run.ret.injEq, Prod.mk.injEq] at hd; rw [← hd.2.2]; simp
      | ready h1 hb hn hd1 hst1 hwk =>
        rename_i m
        simp only [] at hd
        cases hdr : drive hexLen now e1 bufs with
        | ret y =>
          rw [hdr, Run.ret_bind] at hd
          simp only [Run.ret.injEq, Prod.mk.injEq] at hd
          rw [← hd.2.2]
          by_cases hn0 : m = 0
          · rw [if_pos hn0]; exact sawEof_ne_running _
          · rw [if_neg hn0]
            refine ih e1 _ y.1 y.2.1 y.2.2 h1 hdr ?_
            have h2 := h1.out_length
            simp only [List.length_append, List.length_take, hb] at h2 ⊢
            omega
        | panic => rw [hdr] at hd; simp at hd
        | diverge => rw [hdr] at hd; simp at hd
    · rw [drive_cons, hp] at hd; simp at hd

end Encoder
end Tophat
