import Verif.Proofs.Glued
/-! An endpoint that gives up sending its response, and the error response that the server sends behind what has been sent of it. -/

set_option linter.unusedSectionVars false
set_option synthInstance.maxSize 1000

namespace Tophat
open Spec

section
variable {ε : Type} {poll : ε → Bytes → Run (ε × Bytes × EPoll)} {I : ε → Bytes → Prop} {work : ε → Bytes → Nat} {F : Bytes → Prop} {E : Bytes → IoErr → Prop} {U : Prop}

/-- A transport that takes everything at once has, at every moment, whole answers of the encoder. -/
theorem copyGo_ready (hE : EncSpec poll I work F E U) (g : Bytes) : ∀ (fuel : Nat) (s s' : CopyState ε) (r : CopyRes) (sent : Bytes), I s.enc sent → s.buf.length = copyBufLen → s.cap ≤ s.pos →
    s.writer.script = [] → s.writer.got = g ++ sent → copyGo poll fuel s = .ret (s', r) → ∃ e sent', I e sent' ∧ s'.writer.got = g ++ sent' := by
  intro fuel
  induction fuel using Nat.strongRecOn with
  | _ fuel ih =>
    intro s s' r sent hI hb hc hs hg h
    cases fuel with
    | zero =>
      simp only [copyGo, Run.ret.injEq, Prod.mk.injEq] at h
      obtain ⟨rfl, rfl⟩ := h
      exact ⟨_, sent, hI, hg⟩
    | succ fuel =>
      rw [copyGo, if_pos hc] at h
      obtain ⟨⟨e, buf, p⟩, h1, h2⟩ := Run.bind_eq_ret.1 h
      dsimp only at h2
      rcases hE.step s.enc sent s.buf hI hb with ⟨h0, -⟩ | ⟨e', buf', p', h0, hb', hp⟩
      · rw [h1] at h0; rcases h0 with h0 | h0 <;> cases h0
      rw [h1] at h0
      simp only [Run.ret.injEq, Prod.mk.injEq] at h0
      obtain ⟨rfl, rfl, rfl⟩ := h0
      cases p with
      | pending => exact ih fuel (by omega) { s with enc := e, buf := buf } s' r sent hp.1 hb' hc hs hg h2
      | err x =>
        simp only [Run.ret.injEq, Prod.mk.injEq] at h2
        obtain ⟨rfl, rfl⟩ := h2
        exact ⟨_, sent, hI, hg⟩
      | ready n =>
        dsimp only at h2
        split at h2
        · simp only [Writer.flush, hs, Run.ret.injEq, Prod.mk.injEq] at h2
          obtain ⟨rfl, rfl⟩ := h2
          exact ⟨_, sent, hI, hg⟩
        · rename_i hn
          cases fuel with
          | zero =>
            simp only [copyGo, Run.ret.injEq, Prod.mk.injEq] at h2
            obtain ⟨rfl, rfl⟩ := h2
            exact ⟨_, sent, hI, hg⟩
          | succ fuel =>
            have hlen : (buf.take n).length = n := by rw [List.length_take, hb']; omega
            rw [copyGo, if_neg (by show ¬ (0 ≥ n); omega)] at h2
            obtain ⟨data, h3, h4⟩ := Run.bind_eq_ret.1 h2
            have hd : data = buf.take n := by
              have : slice buf 0 n = .ret (buf.take n) := by
                simp [slice, hb', hp.1]
              rw [this] at h3
              injection h3 with h3
              exact h3.symm
            subst hd
            simp only [Writer.write, hs, hlen, if_neg hn, Nat.zero_add, Nat.min_self] at h4
            exact ih fuel (by omega) _ s' r (sent ++ buf.take n) hp.2.1 hb' (Nat.le_refl n) rfl (by simp only [hg, List.append_assoc]) h4

end

section
variable {σ : Type} [AsyncBufRead σ] [LawfulBufRead σ]

/-- What has been sent of a streamed response when the endpoint gives up, over a transport that takes everything at once: part of the head (a multiple of the copy buffer), or the head and complete chunks with data that the body
has yielded, or the whole response. -/
def PartOf (resp : InnerResponse σ) (now sent : Bytes) : Prop :=
  sent <+: headOf resp now ∧ sent.length < (headOf resp now).length ∧ sent.length % 8192 = 0 ∨
  (∃ v p, sent = headOf resp now ++ v ∧ Chunks v p ∧ p <+: rem resp.body) ∨
  ∃ wire, sent = headOf resp now ++ wire ∧ ChunkedMessage wire (rem resp.body)

theorem sendResponse_ready {hexLen : Nat → Nat} (hx : HexLenOk hexLen) {now : Bytes} {fuel : Nat} {resp : InnerResponse σ} (hl : resp.length = none) (hw : resp.headers.WF) {w w' : Writer} {r : CopyRes}
    (hs : w.script = []) (h : sendResponse hexLen now fuel resp w = .ret (w', r)) : ∃ sent, w'.got = w.got ++ sent ∧ PartOf resp now sent := by
  obtain ⟨s0, h0, rfl⟩ := sendResponse_ret.1 h
  have hH : headOf resp now = Encoder.specHead resp now := rfl
  obtain ⟨e, sent, ⟨k1, -, k3⟩, k2⟩ := copyGo_ready (Encoder.encSpec_chunked (now := now) hx hl hw) w.got fuel (CopyState.init (Encoder.encode resp) w) s0 r []
    ⟨Encoder.chInv_start resp now, by simp [CopyState.init, Encoder.encode], by simp⟩ (by simp [CopyState.init]) (Nat.le_refl _) hs (by simp [CopyState.init]) h0
  refine ⟨sent, k2, ?_⟩
  unfold PartOf
  rw [hH]
  rcases k1.out with g1 | ⟨v, p, g1, g2, g3⟩ | ⟨v, g1, g2, _⟩
  · by_cases hlt : sent.length < (Encoder.specHead resp now).length
    · exact .inl ⟨g1, hlt, k3 (k1.state_of_lt hlt)⟩
    · exact .inr (.inl ⟨[], [], by rw [List.append_nil]; exact g1.eq_of_length (by have := g1.length_le; omega), .nil, List.nil_prefix⟩)
  · exact .inr (.inl ⟨v, p, g1, g2, g3⟩)
  · exact .inr (.inr ⟨v, g1, g2⟩)

/-- A response whose body does not fail, over a transport that does not fail: `send` returns `Ok` with the whole response on the wire, or has not returned. -/
theorem sendResponse_reliable {hexLen : Nat → Nat} (hx : HexLenOk hexLen) {now : Bytes} {fuel : Nat} {resp : InnerResponse σ} {w w' : Writer} {r : CopyRes}
    (hw : resp.headers.WF) (hf : fin resp.body = none) (hlim : ∀ n, resp.length = some n → 8192 + n < usizeLimit) (hr : w.Reliable)
    (h : sendResponse hexLen now fuel resp w = .ret (w', r)) :
    ∃ msg, IsResponse (headOf resp now) resp.length (rem resp.body) msg ∧
      ((∃ a, r = .ok a ∧ w'.got = w.got ++ msg ∧ ∀ k, resp.length = some k → k ≤ (rem resp.body).length) ∨ r = .running ∧ ∃ sent, sent <+: msg ∧ w'.got = w.got ++ sent) := by
  cases r with
  | running =>
    obtain ⟨sent, used, msg, b1, b2, b3, b4, b5, b6⟩ := C11_prefix hx hw hlim h
    exact ⟨msg, b4, .inr ⟨rfl, sent, b3, b1⟩⟩
  | ok a =>
    obtain ⟨msg, a1, _, a2, _, a3, _⟩ := C10_bytes_written hx hw hlim h
    exact ⟨msg, a2, .inl ⟨a, rfl, a1, a3⟩⟩
  | err x =>
    exfalso
    obtain ⟨sent, used, msg, b1, b2, b3, b4, b5, b6⟩ := C11_prefix hx hw hlim h
    rcases b5 x rfl with h0 | ⟨pre, h0⟩ | ⟨_, pre, h0⟩
    · rw [hf] at h0; cases h0
    · exact (hr (.err x) (by rw [b2, h0]; simp)).2 x rfl
    · exact (hr (.accept 0) (by rw [b2, h0]; simp)).1 rfl

end

section
variable {ρ : Type} [AsyncRead ρ] {σ : Type} [AsyncBufRead σ] [LawfulBufRead σ]

/-- What an endpoint that may give up leaves behind. -/
theorem runProg_hurries {env : Env} (hx : HexLenOk env.hexLen) {fuel n : Nat} {P : InnerResponse σ → Prop}
    (hP : ∀ resp, P resp → resp.headers.WF ∧ fin resp.body = none ∧ ∀ n, resp.length = some n → 8192 + n < usizeLimit)
    (a : Prog σ) : ∀ (body body' : ReqBody ρ) (w w' : Writer) (ev : List Event) (g : Option Glitch), a.Hurries P → w.Reliable → runProg env fuel n a body w = .ret (body', w', ev, g) →
      ∃ resp msg, P resp ∧ IsResponse (headOf resp (env.now n)) resp.length (rem resp.body) msg ∧
        ((g = none ∧ w'.got = w.got ++ msg ∧ ∀ k, resp.length = some k → k ≤ (rem resp.body).length) ∨
          ∃ sent gl, sent <+: msg ∧ w'.got = w.got ++ sent ∧ (w.script = [] → resp.length = none → PartOf resp (env.now n) sent) ∧ g = some gl ∧ gl.Ok) := by
  induction a with
  | read k next ih =>
    intro body body' w w' ev g ha hr h
    simp only [runProg] at h
    obtain ⟨⟨b1, p⟩, h1, h2⟩ := Run.bind_eq_ret.1 h
    dsimp only at h2
    obtain ⟨⟨b2, w2, ev2, g2⟩, h3, h4⟩ := Run.bind_eq_ret.1 h2
    simp only [Run.ret.injEq, Prod.mk.injEq] at h4
    obtain ⟨rfl, rfl, rfl, rfl⟩ := h4
    exact ih p b1 _ w _ ev2 _ (ha p) hr h3
  | send resp onOk onErr =>
    intro body body' w w' ev g ha hr h
    simp only [runProg] at h
    obtain ⟨⟨w1, r⟩, h1, h2⟩ := Run.bind_eq_ret.1 h
    obtain ⟨p1, p2, p3⟩ := hP resp ha.1
    unfold sendFully at h1
    obtain ⟨⟨w2, r2⟩, h5, h6⟩ := Run.bind_eq_ret.1 h1
    dsimp only at h6
    split at h6
    · cases h6
    rename_i hrun
    simp only [Run.ret.injEq, Prod.mk.injEq] at h6
    obtain ⟨rfl, rfl⟩ := h6
    obtain ⟨msg, k1, ⟨amt, rfl, k2, k3⟩ | ⟨rfl, -⟩⟩ := sendResponse_reliable hx p1 p2 p3 hr h5
    · dsimp only at h2
      obtain ⟨⟨b2, ev2, g2⟩, h3, h4⟩ := Run.bind_eq_ret.1 h2
      simp only [Run.ret.injEq, Prod.mk.injEq] at h4
      obtain ⟨rfl, rfl, rfl, rfl⟩ := h4
      exact ⟨resp, msg, ha.1, k1, .inl ⟨runAfter_quiet _ _ _ _ _ (ha.2.1 amt) h3, k2, k3⟩⟩
    · exact absurd rfl hrun
  | sendFor steps resp onOk onErr onDrop =>
    intro body body' w w' ev g ha hr h
    simp only [runProg] at h
    obtain ⟨⟨w1, r⟩, h1, h2⟩ := Run.bind_eq_ret.1 h
    obtain ⟨p1, p2, p3⟩ := hP resp ha.1
    obtain ⟨msg, k1, ⟨amt, rfl, k2, k3⟩ | ⟨rfl, sent, k2, k3⟩⟩ := sendResponse_reliable hx p1 p2 p3 hr h1
    · dsimp only at h2
      obtain ⟨⟨b2, ev2, g2⟩, h3, h4⟩ := Run.bind_eq_ret.1 h2
      simp only [Run.ret.injEq, Prod.mk.injEq] at h4
      obtain ⟨rfl, rfl, rfl, rfl⟩ := h4
      exact ⟨resp, msg, ha.1, k1, .inl ⟨runAfter_quiet _ _ _ _ _ (ha.2.1 amt) h3, k2, k3⟩⟩
    · dsimp only at h2
      obtain ⟨⟨b2, ev2, g2⟩, h3, h4⟩ := Run.bind_eq_ret.1 h2
      simp only [Run.ret.injEq, Prod.mk.injEq] at h4
      obtain ⟨rfl, rfl, rfl, rfl⟩ := h4
      obtain ⟨gl, rfl⟩ := Option.ne_none_iff_exists'.1 (runAfter_failed _ rfl _ _ _ _ h3)
      refine ⟨resp, msg, ha.1, k1, .inr ⟨sent, gl, k2, k3, fun hs hl => ?_, rfl, runAfter_glitchOk _ _ _ _ _ ha.2.2.2 h3⟩⟩
      obtain ⟨sent', m1, m2⟩ := sendResponse_ready hx hl p1 hs h1
      obtain rfl := List.append_cancel_left (k3.symm.trans m1)
      exact m2
  | glitch g => intro _ _ _ _ _ _ ha; exact ha.elim

end

end Tophat
