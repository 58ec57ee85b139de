import Verif.Proofs.Broken
import Verif.Props.Copy
import Verif.Proofs.Flush
import Verif.Proofs.OneAnswer
/-! A response whose body fails while it is sent, and the error response that the server sends behind it. -/

set_option linter.unusedSectionVars false
set_option synthInstance.maxSize 1000

namespace Tophat
open Spec

section
variable {σ : Type} [AsyncBufRead σ] [LawfulBufRead σ]

/-- What has been sent of a streamed response when its body has failed with `x`: either part of the head (a multiple of the copy buffer, so nothing if the head is short), or the head and all that the body
has yielded, in complete chunks. -/
structure SentOf (resp : InnerResponse σ) (now sent : Bytes) : Prop where
  part : sent <+: headOf resp now ∧ sent.length < (headOf resp now).length ∧ sent.length % 8192 = 0 ∨ ∃ v, sent = headOf resp now ++ v ∧ Chunks v (rem resp.body)

theorem sendFully_failed {env : Env} (hx : HexLenOk env.hexLen) {fuel n : Nat} {resp : InnerResponse σ} (hl : resp.length = none) (hw : resp.headers.WF) {w w' : Writer} {r : CopyRes} (hr : w.Reliable)
    {x : IoErr} (hf : fin resp.body = some x) (h : sendFully env fuel n resp w = .ret (w', r)) :
    r = .err x ∧ ∃ sent, w'.got = w.got ++ sent ∧ SentOf resp (env.now n) sent := by
  unfold sendFully at h
  obtain ⟨⟨w1, r1⟩, h1, h2⟩ := Run.bind_eq_ret.1 h
  dsimp only at h2
  split at h2
  · cases h2
  rename_i hrun
  simp only [Run.ret.injEq, Prod.mk.injEq] at h2
  obtain ⟨rfl, rfl⟩ := h2
  obtain ⟨s0, h0, rfl⟩ := sendResponse_ret.1 h1
  have hH : headOf resp (env.now n) = Encoder.specHead resp (env.now n) := rfl
  rcases copy_spec (Encoder.encSpec_chunked hx hl hw) fuel (Encoder.encode resp) w
      ⟨Encoder.chInv_start resp (env.now n), by simp [Encoder.encode], by simp⟩ with ⟨g1, g2⟩ | ⟨s, r, sent, used, g1, g2, g3, ⟨e, out, ⟨g4, _⟩, g5⟩, g6⟩
  · rw [h0] at g1; simp at g1
  · rw [h0] at g1
    simp only [Run.ret.injEq, Prod.mk.injEq] at g1
    obtain ⟨rfl, rfl⟩ := g1
    cases r1 with
    | running => exact absurd rfl hrun
    | ok a =>
      obtain ⟨⟨v, -, -, k⟩, -⟩ := g6
      rw [hf] at k
      cases k
    | err y =>
      rcases g6 with ⟨⟨k1, k2⟩, -⟩ | ⟨pre, rfl, _⟩ | ⟨_, pre, rfl, _⟩
      · rw [hf] at k1
        injection k1 with k1
        subst k1
        exact ⟨rfl, sent, g2, ⟨k2⟩⟩
      · exact absurd rfl ((hr (.err y) (by rw [g3]; simp)).2 y)
      · exact absurd rfl (hr (.accept 0) (by rw [g3]; simp)).1

end

section
variable {ρ : Type} [AsyncRead ρ] {σ : Type} [AsyncBufRead σ] [LawfulBufRead σ]

theorem runAfter_glitchOk {b : Bool} (a : After b) : ∀ (body body' : ReqBody ρ) (ev : List Event) (g : Glitch), a.GlitchOk → runAfter a body = .ret (body', ev, some g) → g.Ok := by
  induction a with
  | read k next ih =>
    intro body body' ev g ha h
    simp only [runAfter] at h
    obtain ⟨⟨b1, p⟩, h1, h2⟩ := Run.bind_eq_ret.1 h
    dsimp only at h2
    obtain ⟨⟨b2, ev2, g2⟩, h3, h4⟩ := Run.bind_eq_ret.1 h2
    simp only [Run.ret.injEq, Prod.mk.injEq] at h4
    obtain ⟨rfl, rfl, rfl⟩ := h4
    exact ih p b1 _ ev2 g (ha p) h3
  | ok =>
    intro body body' ev g ha h
    simp only [runAfter, Run.ret.injEq, Prod.mk.injEq, reduceCtorEq, and_false] at h
  | glitch g0 =>
    intro body body' ev g ha h
    simp only [runAfter, Run.ret.injEq, Prod.mk.injEq, Option.some.injEq] at h
    obtain ⟨-, -, rfl⟩ := h
    exact ha

/-- What an endpoint whose streamed response fails leaves behind. -/
theorem runProg_failed {env : Env} (hx : HexLenOk env.hexLen) {fuel n : Nat} {P : InnerResponse σ → Prop} (hP : ∀ resp, P resp → resp.length = none ∧ resp.headers.WF ∧ fin resp.body ≠ none)
    (a : Prog σ) : ∀ (body body' : ReqBody ρ) (w w' : Writer) (ev : List Event) (g : Option Glitch), a.Tries P → w.Reliable → runProg env fuel n a body w = .ret (body', w', ev, g) →
      ∃ resp sent gl, P resp ∧ w'.got = w.got ++ sent ∧ SentOf resp (env.now n) sent ∧ g = some gl ∧ gl.Ok := by
  induction a with
  | read k next ih =>
    intro body body' w w' ev g ha hr h
    simp only [runProg] at h
    obtain ⟨⟨b1, p⟩, h1, h2⟩ := Run.bind_eq_ret.1 h
    dsimp only at h2
    obtain ⟨⟨b2, w2, ev2, g2⟩, h3, h4⟩ := Run.bind_eq_ret.1 h2
    simp only [Run.ret.injEq, Prod.mk.injEq] at h4
    obtain ⟨rfl, rfl, rfl, rfl⟩ := h4
    exact ih p b1 _ w _ ev2 _ (ha p) hr h3
  | send resp onOk onErr =>
    intro body body' w w' ev g ha hr h
    simp only [runProg] at h
    obtain ⟨⟨w1, r⟩, h1, h2⟩ := Run.bind_eq_ret.1 h
    obtain ⟨p1, p2, p3⟩ := hP resp ha.1
    obtain ⟨x, hf⟩ := Option.ne_none_iff_exists'.1 p3
    obtain ⟨rfl, sent, k1, k2⟩ := sendFully_failed hx p1 p2 hr hf h1
    dsimp only at h2
    obtain ⟨⟨b2, ev2, g2⟩, h3, h4⟩ := Run.bind_eq_ret.1 h2
    simp only [Run.ret.injEq, Prod.mk.injEq] at h4
    obtain ⟨rfl, rfl, rfl, rfl⟩ := h4
    obtain ⟨gl, rfl⟩ := Option.ne_none_iff_exists'.1 (runAfter_failed _ rfl _ _ _ _ h3)
    exact ⟨resp, sent, gl, ha.1, k1, k2, rfl, runAfter_glitchOk _ _ _ _ _ (ha.2 x) h3⟩
  | sendFor => intro body body' w w' ev g ha; exact ha.elim
  | glitch g => intro _ _ _ _ _ _ ha; exact ha.elim

/-- The same for a response of declared length whose body fails before it has yielded that much. -/
theorem runProg_torn {env : Env} (hx : HexLenOk env.hexLen) {fuel n k : Nat} (hk : 8192 + k < usizeLimit) {P : InnerResponse σ → Prop}
    (hP : ∀ resp, P resp → resp.headers.WF ∧ resp.length = some k ∧ fin resp.body ≠ none ∧ (rem resp.body).length < k)
    (a : Prog σ) : ∀ (body body' : ReqBody ρ) (w w' : Writer) (ev : List Event) (g : Option Glitch), a.Tries P → w.Reliable → runProg env fuel n a body w = .ret (body', w', ev, g) →
      ∃ resp sent gl, P resp ∧ w'.got = w.got ++ sent ∧ sent <+: headOf resp (env.now n) ++ rem resp.body ∧ g = some gl ∧ gl.Ok := by
  induction a with
  | read k next ih =>
    intro body body' w w' ev g ha hr h
    simp only [runProg] at h
    obtain ⟨⟨b1, p⟩, h1, h2⟩ := Run.bind_eq_ret.1 h
    dsimp only at h2
    obtain ⟨⟨b2, w2, ev2, g2⟩, h3, h4⟩ := Run.bind_eq_ret.1 h2
    simp only [Run.ret.injEq, Prod.mk.injEq] at h4
    obtain ⟨rfl, rfl, rfl, rfl⟩ := h4
    exact ih p b1 _ w _ ev2 _ (ha p) hr h3
  | send resp onOk onErr =>
    intro body body' w w' ev g ha hr h
    simp only [runProg] at h
    obtain ⟨⟨w1, r⟩, h1, h2⟩ := Run.bind_eq_ret.1 h
    obtain ⟨p1, p2, p3, p4⟩ := hP resp ha.1
    have hlim : ∀ n, resp.length = some n → 8192 + n < usizeLimit := by intro m hm; rw [p2] at hm; injection hm with hm; omega
    unfold sendFully at h1
    obtain ⟨⟨w3, r3⟩, h5, h6⟩ := Run.bind_eq_ret.1 h1
    dsimp only at h6
    split at h6
    · cases h6
    rename_i hrun
    simp only [Run.ret.injEq, Prod.mk.injEq] at h6
    obtain ⟨rfl, rfl⟩ := h6
    cases r3 with
    | running => exact absurd rfl hrun
    | ok a =>
      obtain ⟨msg, _, _, _, _, a3, _⟩ := C10_bytes_written hx p1 hlim h5
      have := a3 k p2
      omega
    | err x =>
      obtain ⟨sent, used, msg, b1, b2, b3, b4, b5, b6⟩ := C11_prefix hx p1 hlim h5
      dsimp only at h2
      obtain ⟨⟨b2, ev2, g2⟩, h3, h4⟩ := Run.bind_eq_ret.1 h2
      simp only [Run.ret.injEq, Prod.mk.injEq] at h4
      obtain ⟨rfl, rfl, rfl, rfl⟩ := h4
      obtain ⟨gl, rfl⟩ := Option.ne_none_iff_exists'.1 (runAfter_failed _ rfl _ _ _ _ h3)
      rw [p2] at b4
      have hm : msg = headOf resp (env.now n) ++ (rem resp.body).take k := b4
      rw [List.take_of_length_le (by omega)] at hm
      exact ⟨resp, sent, gl, ha.1, b1, hm ▸ b3, rfl, runAfter_glitchOk _ _ _ _ _ (ha.2 x) h3⟩
  | sendFor => intro body body' w w' ev g ha; exact ha.elim
  | glitch g => intro _ _ _ _ _ _ ha; exact ha.elim

/-- A beginning of `a ++ b` is a proper beginning of `a`, or `a` and a beginning of `b`. -/
theorem prefix_split {a b s : Bytes} (h : s <+: a ++ b) : (s <+: a ∧ s ≠ a) ∨ ∃ v, s = a ++ v ∧ v <+: b := by
  rcases List.prefix_or_prefix_of_prefix h (List.prefix_append a b) with h' | ⟨v, rfl⟩
  · by_cases hs : s = a
    · exact .inr ⟨[], by simp [hs], List.nil_prefix⟩
    · exact .inl ⟨h', hs⟩
  · exact .inr ⟨v, rfl, (List.prefix_append_right_inj a).1 h⟩

/-- Responses begin with `H`. -/
theorem wholeResponse_H {now msg : Bytes} (h : WholeResponse now msg) : ∃ t, msg = 72 :: t := by
  obtain ⟨v, st, hs, len, body, h1, -⟩ := h
  have key : ∃ t, responseHead v st hs len now = 72 :: t := by
    cases v <;> exact ⟨_, rfl⟩
  obtain ⟨t, ht⟩ := key
  rw [ht] at h1
  cases len with
  | none =>
    obtain ⟨u, rfl, -⟩ := h1
    exact ⟨_, rfl⟩
  | some k =>
    have h1 : msg = 72 :: t ++ body.take k := h1
    exact ⟨_, h1⟩

end

end Tophat
