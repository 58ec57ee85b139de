import Verif.Spec.Endpoint
import Verif.Proofs.StepReach
/-! With a well-behaved endpoint, the accept loop neither panics nor gets stuck, whatever the input. -/

set_option linter.unusedSectionVars false

namespace Tophat
open Spec

section
variable {σ : Type} [AsyncBufRead σ] [LawfulBufRead σ]

/-- Wherever it is stopped. -/
theorem sendResponse_total {env : Env} (hx : HexLenOk env.hexLen) {n : Nat} {resp : InnerResponse σ} (hs : Sendable (env.now n) resp) (w : Writer) (steps : Nat) :
    ∃ w' r, sendResponse env.hexLen (env.now n) steps resp w = .ret (w', r) := by
  obtain ⟨hw, hl⟩ := hs
  have hlim : ∀ k, resp.length = some k → 8192 + k < usizeLimit := by
    intro k hk; rw [hk] at hl; exact hl.1
  rcases sendResponse_spec (now := env.now n) hx hw hlim steps w with ⟨_, _, h3⟩ | ⟨w', r, sent, used, h1, _, _, _, h5⟩
  · exfalso
    cases hk : resp.length with
    | none =>
      rw [hk] at h3 hl
      rcases hl with hl | hl
      · exact hl h3.1
      · apply hl
        have : headOf resp (env.now n) = Spec.responseHead resp.version resp.status resp.headers none (env.now n) := by
          unfold headOf; rw [hk]
        rw [← this]
        rcases h3.2 with h | h <;> simp [h]
    | some k =>
      rw [hk] at h3 hl
      have := hl.2
      dsimp only at h3
      omega
  · exact ⟨w', r, h1⟩

theorem sendFully_total {env : Env} (hx : HexLenOk env.hexLen) {n : Nat} {resp : InnerResponse σ} (hs : Sendable (env.now n) resp) (w : Writer) :
    ∃ N w' r, sendFully env N n resp w = .ret (w', r) ∧ r ≠ .running := by
  obtain ⟨hw, hl⟩ := hs
  have hlim : ∀ k, resp.length = some k → 8192 + k < usizeLimit := by
    intro k hk; rw [hk] at hl; exact hl.1
  refine ⟨(2 * ((headOf resp (env.now n)).length + (match resp.length with | none => (rem resp.body).length + 1 | some n => n) + meas resp.body) + w.script.length) + 1, ?_⟩
  unfold sendFully
  rcases sendResponse_spec (now := env.now n) hx hw hlim _ w with ⟨_, _, h3⟩ | ⟨w', r, sent, used, h1, _, _, _, h5⟩
  · exfalso
    cases hk : resp.length with
    | none =>
      rw [hk] at h3 hl
      rcases hl with hl | hl
      · exact hl h3.1
      · apply hl
        have : headOf resp (env.now n) = Spec.responseHead resp.version resp.status resp.headers none (env.now n) := by
          unfold headOf; rw [hk]
        rw [← this]
        rcases h3.2 with h | h <;> simp [h]
    | some k =>
      rw [hk] at h3 hl
      have := hl.2
      dsimp only at h3
      omega
  · rw [h1]
    simp only [Run.ret_bind]
    have hr : r ≠ .running := by
      rintro rfl
      have := h5.1
      cases hk : resp.length <;> simp only [hk] at this <;> omega
    rw [if_neg hr]
    exact ⟨w', r, rfl, hr⟩

theorem glitch_memory {g : Glitch} (hg : g.Ok) (v : Bool) : InMemory (g.intoInnerResponse v) := by
  obtain ⟨h1, h2⟩ := hg
  have hh : (g.headers.getD []).WF := by
    cases hh : g.headers with
    | none => exact HeaderMap.wf_nil
    | some hs => exact h1 hs hh
  have hlen : (g.bodyText v).length ≤ (g.message.getD []).length + 1 + (g.trace.getD []).length := by
    unfold Glitch.bodyText
    dsimp only
    split
    · split
      · rename_i t ht
        rw [ht]
        split <;> simp <;> omega
      · omega
    · omega
  refine ⟨?_, rfl, ?_⟩
  · unfold Glitch.intoInnerResponse
    dsimp only
    split
    · exact HeaderMap.WF.insert hh _ _
    · exact hh
  · show 8192 + (g.bodyText v).length < usizeLimit
    omega

theorem answerGlitch_total {env : Env} (hx : HexLenOk env.hexLen) {opts : ServerOpts} {n : Nat} {g : Option Glitch} (hg : ∀ x, g = some x → x.Ok) (w : Writer) :
    ∃ N w' ev, answerGlitch env opts N n g w = .ret (w', ev) := by
  cases g with
  | none => exact ⟨0, w, [], rfl⟩
  | some g =>
    have hm := glitch_memory (hg g rfl) opts.verboseGlitch
    rcases sendFully_memory hx hm (sendBound (g.intoInnerResponse opts.verboseGlitch) (env.now n) w + 1) n w with ⟨_, h⟩ | ⟨w', r, h1, _⟩
    · omega
    · exact ⟨sendBound (g.intoInnerResponse opts.verboseGlitch) (env.now n) w + 1, w', [wroteSince w w'], by simp only [answerGlitch, h1, Run.ret_bind]⟩

end

/-! ## Endpoints -/

section
variable {ρ : Type} [AsyncRead ρ] [LawfulRead ρ]

/-- The body may be read, and has at most `B` bytes left. -/
def ReqBody.Live (B : Nat) : ReqBody ρ → Prop
  | .fixed t => (rem t).length ≤ B
  | .chunked b => Dec.DecInv b.inner ∧ b.buf.length + ((Dec.abs b.inner).win.length + (rem b.inner.inner).length) ≤ B

theorem Dec.Steps.spends {g g' : Dec.G} {x : Bytes} (h : Dec.Steps g x g') : x.length + (g'.win.length + g'.R.length) ≤ g.win.length + g.R.length := by
  induction h with
  | refl => simp
  | tail _ ht ih =>
    have : ∀ {g g' : Dec.G} {y : Bytes}, Dec.Trans g y g' → y.length + (g'.win.length + g'.R.length) ≤ g.win.length + g.R.length := by
      intro g g' y h
      cases h with
      | grow => simp
      | refill bs R' _ h => simp [h]; omega
      | eof => simp
      | size l w n _ h => simp [h]
      | drain cur len x w _ h => simp [h]; omega
      | direct cur len x R' _ h1 h2 => simp [h1, h2]
      | cut => simp
      | chunkEnd w _ h => simp [h]; omega
      | trailer l w fs _ h => simp [h]
      | take => simp
      | send => simp
    have := this ht
    simp only [List.length_append]
    omega

/-- A chunked body hands out no more bytes than it takes. -/
theorem bufDec_spends (b : BufRd (ChunkedDecoder ρ)) (hd : Dec.DecInv b.inner) (k : Nat) {b' : BufRd (ChunkedDecoder ρ)} {p : RPoll} (h : pollRead b k = .ret (b', p)) (hp : p.good = true) :
    p.size + (b'.buf.length + ((Dec.abs b'.inner).win.length + (rem b'.inner.inner).length)) ≤ b.buf.length + ((Dec.abs b.inner).win.length + (rem b.inner.inner).length) := by
  have hpoll : ∀ k, 0 < k → ∀ d' p, pollRead b.inner k = .ret (d', p) → p.good = true →
      p.size + ((Dec.abs d').win.length + (rem d'.inner).length) ≤ (Dec.abs b.inner).win.length + (rem b.inner.inner).length := by
    intro k hk d' p h1 hp
    obtain ⟨d2, p2, h2, h3⟩ := Dec.poll_spec b.inner k hk hd
    rw [h1] at h2
    injection h2 with h2; injection h2 with e1 e2; subst e1 e2
    cases h3 with
    | pending a => exact a.spends
    | data a => exact a.spends
    | err => cases hp
  have h' : b.read k = .ret (b', p) := h
  unfold BufRd.read at h'
  by_cases hb : b.buf = []
  · by_cases hk : k ≥ bufRdCap
    · rw [if_pos ⟨hb, hk⟩] at h'
      obtain ⟨⟨d', q⟩, h1, h2⟩ := Run.bind_eq_ret.1 h'
      simp only [Run.ret.injEq, Prod.mk.injEq] at h2
      obtain ⟨rfl, rfl⟩ := h2
      have := hpoll k (by unfold bufRdCap at hk; omega) d' _ h1 hp
      simp only [hb]
      simp only [List.length_nil, Nat.zero_add]
      exact this
    · rw [if_neg (by simp [hk])] at h'
      unfold BufRd.fill at h'
      rw [if_pos hb] at h'
      obtain ⟨⟨d', q⟩, h1, h2⟩ := Run.bind_eq_ret.1 h'
      obtain ⟨⟨d2, q2⟩, h3, h4⟩ := Run.bind_eq_ret.1 h1
      have key := hpoll bufRdCap (by decide) d2 _ h3
      simp only [Run.ret.injEq] at h4
      cases q2 with
      | pending =>
        simp only [BufRd.filled, Prod.mk.injEq] at h4
        obtain ⟨rfl, rfl⟩ := h4
        simp only [Run.ret.injEq, Prod.mk.injEq] at h2
        obtain ⟨rfl, rfl⟩ := h2
        have := key rfl
        simpa [hb] using this
      | err e =>
        simp only [BufRd.filled, Prod.mk.injEq] at h4
        obtain ⟨rfl, rfl⟩ := h4
        simp only [Run.ret.injEq, Prod.mk.injEq] at h2
        obtain ⟨rfl, rfl⟩ := h2
        cases hp
      | data bs =>
        simp only [BufRd.filled, Prod.mk.injEq] at h4
        obtain ⟨rfl, rfl⟩ := h4
        simp only [Run.ret.injEq, Prod.mk.injEq] at h2
        obtain ⟨rfl, rfl⟩ := h2
        have := key rfl
        simp only [RPoll.size] at this
        simp [RPoll.size, hb, BufRd.drop]
        omega
  · rw [if_neg (by simp [hb])] at h'
    unfold BufRd.fill at h'
    rw [if_neg hb] at h'
    simp only [Run.ret_bind, Run.ret.injEq, Prod.mk.injEq] at h'
    obtain ⟨rfl, rfl⟩ := h'
    simp [RPoll.size, BufRd.drop]
    omega

theorem body_total {B : Nat} (b : ReqBody ρ) (hb : b.Live B) (k : Nat) : ∃ b' p, pollRead b k = .ret (b', p) ∧ (p.good = true → b'.Live (B - p.size)) ∧ p.Fits k ∧ p.size ≤ B := by
  cases b with
  | fixed t =>
    obtain ⟨t', p, h1, h2⟩ := LawfulRead.read_ok t k
    refine ⟨.fixed t', p, by show (pollRead t k >>= ReqBody.ofFixed) = _; rw [h1]; rfl, ?_⟩
    have hb : (rem t).length ≤ B := hb
    cases h2 with
    | pending a => exact ⟨fun _ => by show (rem t').length ≤ B - 0; rw [a]; exact hb, trivial, Nat.zero_le _⟩
    | err => exact ⟨fun h => (by cases h), trivial, Nat.zero_le _⟩
    | data a b =>
      rw [b, List.length_append] at hb
      exact ⟨fun _ => by show (rem t').length ≤ B - List.length _; omega, a, by show List.length _ ≤ B; omega⟩
  | chunked t =>
    obtain ⟨hd, hb⟩ := hb
    obtain ⟨t', p, h1, h2⟩ := bufDec_poll t hd k
    have hs := bufDec_spends t hd k h1
    refine ⟨.chunked t', p, by show (pollRead t k >>= ReqBody.ofChunked) = _; rw [h1]; rfl, ?_⟩
    cases p with
    | pending => exact ⟨fun _ => ⟨h2.1, by have := hs rfl; simp only [RPoll.size] at this ⊢; omega⟩, trivial, Nat.zero_le _⟩
    | data bs => exact ⟨fun _ => ⟨h2.1, by have := hs rfl; omega⟩, h2.2.2, by have := hs rfl; omega⟩
    | err e => exact ⟨fun h => (by cases h), trivial, Nat.zero_le _⟩

theorem runAfter_total {b : Bool} (a : After b) : ∀ (alive : Bool) (B : Nat) (body : ReqBody ρ), a.Tame alive B → (alive = true → body.Live B) →
    ∃ body' ev g, runAfter a body = .ret (body', ev, g) ∧ ∀ x, g = some x → x.Ok := by
  induction a with
  | read k next ih =>
    intro alive B body ht hl
    simp only [After.Tame] at ht
    obtain ⟨b1, p, h1, h2, hfit, hsz⟩ := body_total body (hl ht.1) k
    obtain ⟨b2, ev, g, h3, h4⟩ := ih p p.good _ b1 (ht.2 p hfit hsz) h2
    exact ⟨b2, .got k p :: ev, g, by simp only [runAfter, h1, Run.ret_bind, h3], h4⟩
  | ok => intro alive B body _ _; exact ⟨body, [], none, rfl, by simp⟩
  | glitch g => intro alive B body ht _; exact ⟨body, [], some g, rfl, by rintro x h; cases h; exact ht⟩

variable {σ : Type} [AsyncBufRead σ] [LawfulBufRead σ]

theorem runProg_total {env : Env} (hx : HexLenOk env.hexLen) {n : Nat} (a : Prog σ) : ∀ (alive : Bool) (B : Nat) (body : ReqBody ρ) (w : Writer), a.Tame (env.now n) alive B → (alive = true → body.Live B) →
    ∃ N body' w' ev g, runProg env N n a body w = .ret (body', w', ev, g) ∧ ∀ x, g = some x → x.Ok := by
  induction a with
  | read k next ih =>
    intro alive B body w ht hl
    simp only [Prog.Tame] at ht
    obtain ⟨b1, p, h1, h2, hfit, hsz⟩ := body_total body (hl ht.1) k
    obtain ⟨N, b2, w', ev, g, h3, h4⟩ := ih p p.good _ b1 w (ht.2 p hfit hsz) h2
    exact ⟨N, b2, w', .got k p :: ev, g, by simp only [runProg, h1, Run.ret_bind, h3], h4⟩
  | send resp onOk onErr =>
    intro alive B body w ht hl
    simp only [Prog.Tame] at ht
    obtain ⟨N, w', r, h1, h2⟩ := sendFully_total hx ht.1 w
    cases r with
    | running => exact absurd rfl h2
    | ok amt =>
      obtain ⟨b2, ev, g, h3, h4⟩ := runAfter_total (onOk amt) alive B body (ht.2.1 amt) hl
      exact ⟨N, b2, w', wroteSince w w' :: ev, g, by simp only [runProg, h1, Run.ret_bind, h3], h4⟩
    | err e =>
      obtain ⟨b2, ev, g, h3, h4⟩ := runAfter_total (onErr e) alive B body (ht.2.2 e) hl
      exact ⟨N, b2, w', wroteSince w w' :: ev, g, by simp only [runProg, h1, Run.ret_bind, h3], h4⟩
  | sendFor steps resp onOk onErr onDrop =>
    intro alive B body w ht hl
    simp only [Prog.Tame] at ht
    obtain ⟨w', r, h1⟩ := sendResponse_total hx ht.1 w steps
    cases r with
    | running =>
      obtain ⟨b2, ev, g, h3, h4⟩ := runAfter_total onDrop alive B body ht.2.2.2 hl
      exact ⟨0, b2, w', wroteSince w w' :: ev, g, by simp only [runProg, h1, Run.ret_bind, h3], h4⟩
    | ok amt =>
      obtain ⟨b2, ev, g, h3, h4⟩ := runAfter_total (onOk amt) alive B body (ht.2.1 amt) hl
      exact ⟨0, b2, w', wroteSince w w' :: ev, g, by simp only [runProg, h1, Run.ret_bind, h3], h4⟩
    | err e =>
      obtain ⟨b2, ev, g, h3, h4⟩ := runAfter_total (onErr e) alive B body (ht.2.2.1 e) hl
      exact ⟨0, b2, w', wroteSince w w' :: ev, g, by simp only [runProg, h1, Run.ret_bind, h3], h4⟩
  | glitch g => intro alive B body w ht _; exact ⟨0, body, w, [], some g, rfl, by rintro x h; cases h; exact ht⟩

theorem BodyAt.live {pool : Pool} (hp : pool.Ok) {s : Bytes} {e : Option IoErr} {m : Nat} {len : Option Nat} {body : ReqBody ρ} (h : BodyAt pool s e m len body) : body.Live s.length := by
  cases h with
  | fixed a =>
    subst a
    simp only [ReqBody.Live]
    exact (List.IsPrefix.length_le (List.take_prefix _ _))
  | chunked a =>
    subst a
    refine ⟨Dec.decInv_new _ _ hp, ?_⟩
    simp [BufRd.new, ChunkedDecoder.new, Dec.abs, Dec.conf, Dec.window]

theorem ReqBody.Live.mono {B B' : Nat} {body : ReqBody ρ} (h : body.Live B) (hB : B ≤ B') : body.Live B' := by
  cases body with
  | fixed t => exact Nat.le_trans h hB
  | chunked t => exact ⟨h.1, Nat.le_trans h.2 hB⟩

/-- One iteration of the accept loop returns, with enough fuel. -/
theorem acceptStep_total {env : Env} (hx : HexLenOk env.hexLen) (hp : ∀ n, (env.pool n).Ok) {opts : ServerOpts} {endpoint : Endpoint σ} (n : Nat) (c : Conn ρ) (he : endpoint.Tame env (rem c.rd).length) :
    ∃ N c' ev res, acceptStep env opts endpoint N n c = .ret (c', ev, res) := by
  let M := (rem c.rd).length + meas c.rd + c.wr.script.length + 3
  have key : ∃ w clock a, awaitDecode env opts M (env.pool n) M (DecFut.start c.rd) c.wr c.clock = .ret (w, clock, a) ∧
      AwaitOk env.uriOk (env.pool n) opts.timeout (rem c.rd) (fin c.rd) (meas c.rd + c.wr.script.length) c.wr w c.clock clock a := by
    rcases awaitDecode_spec (env := env) (opts := opts) (pool := env.pool n) M M c.clock (decInv_start c.rd c.wr) with
      ⟨_, k2⟩ | ⟨w, clock, a, k1, k2⟩
    · exfalso
      simp only [M] at k2
      omega
    · exact ⟨w, clock, a, k1, k2⟩
  obtain ⟨w, clock, a, k1, k2⟩ := key
  have lift : ∀ N, M ≤ N → awaitDecode env opts N (env.pool n) N (DecFut.start c.rd) c.wr c.clock = .ret (w, clock, a) :=
    fun N hN => (awaitDecode_mono hN M N hN _ _ _).ret k1
  cases k2 with
  | timedOut => exact ⟨M, by unfold acceptStep; rw [k1]; exact ⟨_, _, _, rfl⟩⟩
  | ready a b cc d =>
    rename_i res ticks
    have fails : ∀ f st, failResponse f = some (plainResponse st) → ∃ N w' ev, answerFail env N n f w = .ret (w', ev) := by
      intro f st hf
      rcases answerFail_spec hx hf (sendBound (plainResponse st) (env.now n) w + 1) n w with ⟨_, h⟩ | ⟨w', h1, _⟩
      · omega
      · exact ⟨_, w', _, h1⟩
    cases res with
    | none io => exact ⟨M, by unfold acceptStep; rw [k1]; exact ⟨_, _, _, rfl⟩⟩
    | fail f io =>
      have : ∃ N w' ev, answerFail env N n f w = .ret (w', ev) := by
        cases f with
        | connectionLost e => exact ⟨0, w, [], rfl⟩
        | _ => exact fails _ _ rfl
      obtain ⟨N, w', ev, h1⟩ := this
      refine ⟨max M N, ?_⟩
      unfold acceptStep
      rw [lift _ (by omega)]
      simp only [Run.ret_bind, (answerFail_mono (by omega : N ≤ max M N) f w).ret h1]
      exact ⟨_, _, _, rfl⟩
    | request req =>
      have hb : ∃ s e m, s.length ≤ (rem c.rd).length ∧ BodyAt (env.pool n) s e m req.length req.body := by
        cases a.decided with
        | serve b1 b2 b3 b3' b4 b5 b6 => exact ⟨_, _, _, by simp, b6⟩
      obtain ⟨s, e, m, hs, hb⟩ := hb
      obtain ⟨N1, body', w1, ev1, g, h1, h2⟩ := runProg_total hx (endpoint req.head req.length) true _ req.body w (he n _ _) (fun _ => (hb.live (hp n)).mono hs)
      obtain ⟨N2, w2, ev2, h3⟩ := answerGlitch_total hx (opts := opts) (n := n) h2 w1
      refine ⟨max M (max N1 N2), ?_⟩
      unfold acceptStep
      rw [lift _ (by omega)]
      simp only [Run.ret_bind, (runProg_mono (by omega : N1 ≤ max M (max N1 N2)) (endpoint req.head req.length) req.body w).ret h1,
        (answerGlitch_mono (by omega : N2 ≤ max M (max N1 N2)) g w1).ret h3]
      exact ⟨_, _, _, rfl⟩

/-- The accept loop returns, with enough fuel, for any number of iterations. -/
theorem acceptGo_total {env : Env} (hx : HexLenOk env.hexLen) (hp : ∀ n, (env.pool n).Ok) {opts : ServerOpts} {endpoint : Endpoint σ} (it : Nat) :
    ∀ (n : Nat) (c : Conn ρ), endpoint.TameOn env c.rd → ∃ N c' ev res, ∀ fuel, N ≤ fuel → acceptGo env opts endpoint fuel it n c = .ret (c', ev, res) := by
  induction it with
  | zero => intro n c _; exact ⟨0, c, [], .running, fun _ _ => rfl⟩
  | succ it ih =>
    intro n c he
    obtain ⟨N1, c1, ev1, r1, h1⟩ := acceptStep_total hx hp (opts := opts) n c (he _ .refl)
    cases r1 with
    | some r =>
      refine ⟨N1, c1, ev1, r, fun fuel hf => ?_⟩
      simp only [acceptGo, (acceptStep_mono hf c).ret h1, Run.ret_bind]
    | none =>
      obtain ⟨N2, c2, ev2, r2, h2⟩ := ih (n + 1) c1 (fun r hr => he r ((acceptStep_reach h1).1.trans hr))
      refine ⟨max N1 N2, c2, ev1 ++ ev2, r2, fun fuel hf => ?_⟩
      simp only [acceptGo, (acceptStep_mono (by omega : N1 ≤ fuel) c).ret h1, Run.ret_bind, h2 fuel (by omega)]

end

end Tophat
