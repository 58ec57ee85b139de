import Verif.Proofs.Total
import Verif.Proofs.Writers
/-! Endpoints that answer once. -/

set_option linter.unusedSectionVars false

namespace Tophat
open Spec

section
variable {ρ : Type} [AsyncRead ρ]

theorem runAfter_quiet {b : Bool} (a : After b) : ∀ (body body' : ReqBody ρ) (ev : List Event) (g : Option Glitch), a.Quiet →
    runAfter a body = .ret (body', ev, g) → g = none := by
  induction a with
  | read k next ih =>
    intro body body' ev g hq h
    simp only [runAfter] at h
    obtain ⟨⟨b1, p⟩, h1, h2⟩ := Run.bind_eq_ret.1 h
    dsimp only at h2
    obtain ⟨⟨b2, ev2, g2⟩, h3, h4⟩ := Run.bind_eq_ret.1 h2
    simp only [Run.ret.injEq, Prod.mk.injEq] at h4
    obtain ⟨rfl, rfl, rfl⟩ := h4
    exact ih p _ _ _ _ (hq p) h3
  | ok =>
    intro body body' ev g hq h
    simp only [runAfter, Run.ret.injEq, Prod.mk.injEq] at h
    exact h.2.2.symm
  | glitch => intro body body' ev g hq h; exact hq.elim

variable {σ : Type} [AsyncBufRead σ] [LawfulBufRead σ]

theorem sendFully_whole {env : Env} (hx : HexLenOk env.hexLen) {fuel n : Nat} {resp : InnerResponse σ} {w w' : Writer} {r : CopyRes}
    (hw : resp.headers.WF) (hf : fin resp.body = none) (hlim : ∀ n, resp.length = some n → 8192 + n < usizeLimit) (hr : w.Reliable)
    (h : sendFully env fuel n resp w = .ret (w', r)) : ∃ a msg, r = .ok a ∧ WholeResponse (env.now n) msg ∧ w'.got = w.got ++ msg := by
  unfold sendFully at h
  obtain ⟨⟨w1, r1⟩, h1, h2⟩ := Run.bind_eq_ret.1 h
  dsimp only at h2
  split at h2
  · cases h2
  · rename_i hrun
    simp only [Run.ret.injEq, Prod.mk.injEq] at h2
    obtain ⟨rfl, rfl⟩ := h2
    cases r1 with
    | running => exact absurd rfl hrun
    | ok a =>
      obtain ⟨msg, a1, _, a2, _, a3, _⟩ := C10_bytes_written hx hw hlim h1
      exact ⟨a, msg, rfl, ⟨_, _, _, _, _, a2, a3⟩, a1⟩
    | err x =>
      exfalso
      obtain ⟨sent, used, msg, b1, b2, b3, b4, b5, b6⟩ := C11_prefix hx hw hlim h1
      rcases b5 x rfl with h0 | ⟨pre, h0⟩ | ⟨_, pre, h0⟩
      · rw [hf] at h0; cases h0
      · exact (hr (.err x) (by rw [b2, h0]; simp)).2 x rfl
      · exact (hr (.accept 0) (by rw [b2, h0]; simp)).1 rfl

theorem runProg_oneAnswer {env : Env} (hx : HexLenOk env.hexLen) {fuel n : Nat} (a : Prog σ) : ∀ (body body' : ReqBody ρ) (w w' : Writer) (ev : List Event) (g : Option Glitch),
    a.OneAnswer → w.Reliable → runProg env fuel n a body w = .ret (body', w', ev, g) →
    (g = none ∧ ∃ msg, WholeResponse (env.now n) msg ∧ w'.got = w.got ++ msg) ∨ ∃ gl, g = some gl ∧ gl.Ok ∧ w' = w := by
  induction a with
  | read k next ih =>
    intro body body' w w' ev g ho hr h
    simp only [runProg] at h
    obtain ⟨⟨b1, p⟩, h1, h2⟩ := Run.bind_eq_ret.1 h
    dsimp only at h2
    obtain ⟨⟨b2, w2, ev2, g2⟩, h3, h4⟩ := Run.bind_eq_ret.1 h2
    simp only [Run.ret.injEq, Prod.mk.injEq] at h4
    obtain ⟨rfl, rfl, rfl, rfl⟩ := h4
    exact ih p _ _ _ _ _ _ (ho p) hr h3
  | send resp onOk onErr =>
    intro body body' w w' ev g ho hr h
    simp only [runProg] at h
    obtain ⟨⟨w1, r⟩, h1, h2⟩ := Run.bind_eq_ret.1 h
    obtain ⟨o1, o2, o3, o4⟩ := ho
    obtain ⟨amt, msg, rfl, k1, k2⟩ := sendFully_whole hx o1 o2 o3 hr h1
    dsimp only at h2
    obtain ⟨⟨b2, ev2, g2⟩, h3, h4⟩ := Run.bind_eq_ret.1 h2
    simp only [Run.ret.injEq, Prod.mk.injEq] at h4
    obtain ⟨rfl, rfl, rfl, rfl⟩ := h4
    exact .inl ⟨runAfter_quiet _ _ _ _ _ (o4 amt) h3, msg, k1, k2⟩
  | sendFor => intro body body' w w' ev g ho; exact ho.elim
  | glitch gl =>
    intro body body' w w' ev g ho hr h
    simp only [runProg, Run.ret.injEq, Prod.mk.injEq] at h
    obtain ⟨rfl, rfl, rfl, rfl⟩ := h
    exact .inr ⟨gl, rfl, ho, rfl⟩

theorem answerGlitch_whole {env : Env} (hx : HexLenOk env.hexLen) {opts : ServerOpts} {fuel n : Nat} {g : Glitch} {w w' : Writer} {ev : List Event}
    (hg : g.Ok) (hr : w.Reliable) (h : answerGlitch env opts fuel n (some g) w = .ret (w', ev)) :
    ∃ msg, WholeResponse (env.now n) msg ∧ w'.got = w.got ++ msg := by
  simp only [answerGlitch] at h
  obtain ⟨⟨w1, r⟩, h1, h2⟩ := Run.bind_eq_ret.1 h
  simp only [Run.ret.injEq, Prod.mk.injEq] at h2
  obtain ⟨rfl, rfl⟩ := h2
  have hm := glitch_memory (v := opts.verboseGlitch) hg
  obtain ⟨_, msg, _, k1, k2⟩ := sendFully_whole hx hm.wf rfl (fun k hk => by rw [hm.length] at hk; injection hk with hk; rw [← hk]; exact hm.limit) hr h1
  exact ⟨msg, k1, k2⟩

end

end Tophat
