import Verif.Proofs.DecoderCut
import Verif.Proofs.Eaten
import Verif.Proofs.Body
/-!
# A chunked message that is cut off

Wherever the stream ends within a chunked message (whose framing fits into the decoder's buffer), no error is reported, and no trailers are delivered.
-/

namespace Tophat
open Spec

namespace Dec

/-- Where the decoder is in a fitting message of which the bytes `E` do not come. -/
def Trunc (m : Msg) (E : Bytes) (g : G) (D : Bytes) : Prop :=
  g.fin = none ∧ g.sent = [] ∧
    (Fit m (g.plus E) D ∧ g.st ≠ .done ∧ (∀ h, g.st ≠ .trailerDone h) ∧ (∀ h, g.st ≠ .trailerSending h) ∨ g.st = .done ∧ g.R = [] ∧ g.win.length < g.cap)

theorem chunkState_going (c l : Nat) : chunkState c l ≠ .done ∧ (∀ h, chunkState c l ≠ .trailerDone h) ∧ ∀ h, chunkState c l ≠ .trailerSending h := by
  unfold chunkState
  split <;> simp

theorem Trunc.step {m : Msg} (hm : m.f ≠ 0) (hX : m.X = []) {E : Bytes} (hE : E ≠ []) {g g' : G} {D x : Bytes} (h : Trunc m E g D) (ht : Trans g x g') : Trunc m E g' (D ++ x) := by
  obtain ⟨hf, hse, h⟩ := h
  rcases h with ⟨h, s1, s2, s3⟩ | ⟨s1, s2, s3⟩
  · have hstep : ∀ {x : Bytes} {g' : G}, Trans (g.plus E) x (g'.plus E) → Fit m (g'.plus E) (D ++ x) := fun ht => h.step ht
    have hbig : g.size = 4096 ∧ g.cap = 4096 := by
      rcases h.big with hb | hb | hb
      · exact absurd hb s1
      · exact absurd hb.2 hm
      · exact hb
    have hplus := ht.plus E
    cases ht with
    | grow c a b d e =>
      rcases hplus with hplus | ⟨-, hplus⟩
      · exact ⟨hf, hse, .inl ⟨hstep hplus, s1, s2, s3⟩⟩
      · exact absurd hplus.2.1 s1
    | refill bs R' a b d e =>
      rcases hplus with hplus | ⟨-, hplus⟩
      · exact ⟨hf, hse, .inl ⟨hstep hplus, s1, s2, s3⟩⟩
      · exact absurd hplus.2.1 s1
    | eof a b =>
      rcases fit_stuck h a s1 with ⟨-, h2, -⟩ | ⟨h1, h2, h3, -⟩
      · exact absurd h2 hm
      · have h1 : g.size = 4096 := h1
        have h2 : g.cap = 4096 := h2
        have h3 : g.start + g.win.length < 4096 := h3
        rcases b with ⟨b1, b2⟩ | ⟨b1, b2⟩
        · exact ⟨hf, hse, .inr ⟨rfl, b1, by show g.win.length < g.cap; omega⟩⟩
        · omega
    | size l w n a b d =>
      rcases hplus with hplus | ⟨-, hplus⟩
      · refine ⟨hf, hse, .inl ⟨hstep hplus, ?_⟩⟩
        dsimp only
        split <;> simp
      · have := hplus.2.1
        dsimp only at this
        split at this <;> cases this
    | drain cur len x w a b d e =>
      rcases hplus with hplus | ⟨-, hplus⟩
      · exact ⟨hf, hse, .inl ⟨hstep hplus, chunkState_going _ _⟩⟩
      · exact absurd hplus.2.1 (chunkState_going _ _).1
    | direct cur len x R' a b d e f =>
      rcases hplus with hplus | ⟨-, hplus⟩
      · exact ⟨hf, hse, .inl ⟨hstep hplus, chunkState_going _ _⟩⟩
      · exact absurd hplus.2.1 (chunkState_going _ _).1
    | cut cur len a b d e =>
      refine ⟨hf, hse, .inr ⟨rfl, d, ?_⟩⟩
      show g.win.length < g.cap
      rw [b]
      simp
      omega
    | chunkEnd w a b =>
      rcases hplus with hplus | ⟨-, hplus⟩
      · exact ⟨hf, hse, .inl ⟨hstep hplus, by simp⟩⟩
      · cases hplus.2.1
    | trailer l w fs a b d e =>
      exfalso
      have hst := h.st
      simp only [FitSt, show (g.plus E).st = .trailer from a] at hst
      obtain ⟨-, h2, -⟩ := hst
      have h2 : g.win ++ (g.R ++ E) = m.T ++ m.X := h2
      rw [b, hX, List.append_assoc] at h2
      have h3 := (section_det d m.hT e m.hfs h2).2
      exact hE (by simp at h3; exact h3.2.2)
    | take t a => exact absurd a (s2 _)
    | send t a => exact absurd a (s3 _)
  · cases ht with
    | grow c a b d e => omega
    | refill bs R' a b d e =>
      rw [s2] at b
      exact absurd (List.append_eq_nil_iff.1 b.symm).1 d
    | eof a b => exact ⟨hf, hse, .inr ⟨rfl, s2, s3⟩⟩
    | size l w n a b d => rw [s1] at a; cases a
    | drain cur len x w a b d e => rw [s1] at a; cases a
    | direct cur len x R' a b d e f => rw [s1] at a; cases a
    | cut cur len a b d e => rw [s1] at a; cases a
    | chunkEnd w a b => rw [s1] at a; cases a
    | trailer l w fs a b d e => rw [s1] at a; cases a
    | take h a => rw [s1] at a; cases a
    | send h a => rw [s1] at a; cases a

theorem Trunc.steps {m : Msg} (hm : m.f ≠ 0) (hX : m.X = []) {E : Bytes} (hE : E ≠ []) {g g' : G} {D x : Bytes} (h : Trunc m E g D) (ht : Steps g x g') : Trunc m E g' (D ++ x) := by
  induction ht with
  | refl => simpa using h
  | tail _ ht ih =>
    rw [← List.append_assoc]
    exact ih.step hm hX hE ht

theorem Trunc.no_fail {m : Msg} (hm : m.f ≠ 0) {E : Bytes} {g : G} {D : Bytes} {e : IoErr} (h : Trunc m E g D) : ¬ Fails g e := by
  intro hf
  obtain ⟨h0, -, h⟩ := h
  rcases h with ⟨h, s1, -, -⟩ | ⟨s1, s2, s3⟩
  · have : Fails (g.plus E) e := by
      cases hf with
      | transport a b c => rw [h0] at b; cases b
      | size a b => exact .size a b
      | chunkEnd a b c => exact .chunkEnd a b c
      | trailer a b => exact .trailer a b
      | tooLarge a b => exact .tooLarge a b
    rcases (h.fails this).2 with h1 | h1
    · exact hm h1
    · exact s1 h1
  · cases hf with
    | transport a b c => rw [h0] at b; cases b
    | size a b => rw [s1] at a; cases a
    | chunkEnd a b c => rw [s1] at a; cases a
    | trailer a b => rw [s1] at a; cases a
    | tooLarge a b => omega

end Dec

open Dec

section
variable {ρ : Type} [AsyncRead ρ] [LawfulRead ρ]

/-- A stream that ends within a message whose framing fits: no error is reported, and no trailers are delivered. -/
theorem decoder_truncated {inner : ρ} {pool : Pool} (hp : pool.Ok) {ks : List Nat} (hk : ∀ k ∈ ks, 0 < k)
    {d' : ChunkedDecoder ρ} {ps : List RPoll} (h : polls (ChunkedDecoder.new inner pool) ks = .ret (d', ps))
    {b w E p : Bytes} {fs : List (Bytes × Bytes)} (hb : Roomy b p fs) (hn : fs.length ≤ 16) (hw : b = w ++ E) (hE : E ≠ []) (hs : rem inner = w) (hfin : fin inner = none) :
    (∀ e, .err e ∉ ps) ∧ d'.sent = [] := by
  obtain ⟨d1, ps1, h1, ho⟩ := polls_spec ks _ hk (decInv_new inner pool hp)
  rw [h] at h1
  injection h1 with h1; injection h1 with e1 e2
  subst e1; subst e2
  obtain ⟨w0, l, t, rfl, hwi, hl, ht⟩ := hb
  let m : Msg := ⟨p, l, t, [], fs, l.length + t.length, hl, ht, hn, .inr rfl⟩
  have hm : m.f ≠ 0 := by
    show l.length + t.length ≠ 0
    intro h0
    have : l = [] := List.eq_nil_of_length_eq_zero (by omega)
    rw [this] at hl
    obtain ⟨_, _, _, h1, -⟩ := hl
    simp at h1
  have htr : Trunc m E (abs (ChunkedDecoder.new inner pool)) [] := by
    have hwin : (abs (ChunkedDecoder.new inner pool)).win = [] := by simp [abs, conf, ChunkedDecoder.new, window]
    have hsz : (abs (ChunkedDecoder.new inner pool)).size = 4096 := by
      simp [abs, conf, ChunkedDecoder.new, Pool.alloc, hp.len, initialCapacity]
    have hcap : (abs (ChunkedDecoder.new inner pool)).cap = 4096 := by
      simp [abs, conf, ChunkedDecoder.new, Pool.alloc, initialCapacity]
    refine ⟨hfin, rfl, .inl ⟨⟨?_, by show (abs (ChunkedDecoder.new inner pool)).size ≤ (abs (ChunkedDecoder.new inner pool)).cap; omega, .inl rfl, .inr (.inr ⟨hsz, hcap⟩), ?_⟩, by simp [abs, conf, ChunkedDecoder.new]⟩⟩
    · show (abs (ChunkedDecoder.new inner pool)).start + (abs (ChunkedDecoder.new inner pool)).win.length ≤ (abs (ChunkedDecoder.new inner pool)).size
      rw [hwin, hsz]; simp [abs, conf, ChunkedDecoder.new]
    · show FitSt _ _ _
      simp only [FitSt, G.plus, abs, conf, ChunkedDecoder.new]
      refine ⟨4096, w0, p, ?_, hwi, rfl, .inr ⟨hsz, hcap, by simp⟩⟩
      simp [window, Msg.E, m, hs]
      simpa using hw.symm
  cases ho with
  | going g1 g2 g3 g4 g5 g6 => exact ⟨g3, (htr.steps hm rfl hE g1).2.1⟩
  | failed g1 g2 g3 g4 g5 g6 => exact absurd g2 ((htr.steps hm rfl hE g1).no_fail hm)

/-- The same behind a `BufReader`: reading ends normally. -/
theorem chunked_truncated {r : ρ} {pool : Pool} (hp : pool.Ok) {ks : List Nat} (hk : ∀ k ∈ ks, 0 < k) {b' : BufRd (ChunkedDecoder ρ)} {ps : List RPoll}
    (h : polls (BufRd.new (ChunkedDecoder.new r pool)) ks = .ret (b', ps)) {b w E p : Bytes} {fs : List (Bytes × Bytes)} (hb : Roomy b p fs) (hn : fs.length ≤ 16)
    (hw : b = w ++ E) (hE : E ≠ []) (hs : rem r = w) (hfin : fin r = none) :
    (∀ e, .err e ∉ ps) ∧ received ps <+: p ∧ (p.length + meas r < ks.length → SawEof ps) ∧ b'.inner.sent = [] := by
  obtain ⟨ks', ps', h1, h2, h3, h4, h5⟩ := bufRd_polls h
  have h3' : received ps' = received ps ++ b'.buf := h3
  have h0 := decoder_truncated hp h1 h2 hb hn hw hE hs hfin
  have hne : ∀ e, .err e ∉ ps := fun e he => h0.1 e ((h4 e).1 he)
  have hpre : received ps <+: p := by
    have := C12_prefix hp h1 h2
    rw [hs] at this
    have hc : Carries b (received ps') := by rw [hw]; exact this.mono (List.prefix_append _ _)
    have := hb.body.total (r := []) _ (by rw [List.append_nil]; exact hc)
    rw [h3'] at this
    exact (List.prefix_append _ _).trans this
  refine ⟨hne, hpre, fun hl => ?_, h0.2⟩
  obtain ⟨b2, ps2, g1, g2⟩ := bufDec_polls ks (BufRd.new (ChunkedDecoder.new r pool)) (Dec.decInv_new r pool hp)
  rw [h] at g1
  injection g1 with g1; injection g1 with e1 e2
  subst e1 e2
  by_cases hc : SawEof ps
  · exact hc
  · exfalso
    have := g2 hk hc hne
    have := hpre.length_le
    have hm : meas (BufRd.new (ChunkedDecoder.new r pool)).inner.inner = meas r := rfl
    omega

/-- Reading a chunked body that is cut off to its end gives some of its data, and no error. -/
theorem BodyAt.truncated {grow : Nat → Nat → Nat} (hg : GrowOk grow) (fuel cap : Nat) {pool : Pool} (hp : pool.Ok) {s : Bytes} {e : Option IoErr} {m : Nat} {body : ReqBody ρ}
    (h : BodyAt pool s e m none body) (hend : e = none) {E p : Bytes} {fs : List (Bytes × Bytes)} (hb : Roomy (s ++ E) p fs) (hn : fs.length ≤ 16) (hE : E ≠ []) (hF : p.length + m < fuel) :
    ∃ t bs, readToEnd grow fuel body (ToEnd.new cap) = .ret (.chunked t, .eof bs) ∧ bs <+: p ∧ Announces.sent t = [] := by
  generalize hlen : none = len at h
  cases h with
  | fixed => cases hlen
  | chunked a b c =>
    rename_i r
    obtain ⟨t, x, h⟩ := readToEnd_bufDec hg fuel r hp cap
    rw [readToEnd_lift ReqBody.chunked (fun a k => rfl), h]
    have hin := readToEnd_inside hg h
    cases x with
    | running =>
      obtain ⟨ks, ps, r1, a', b', c', d, e⟩ := readToEnd_slurped hg fuel h
      have := (chunked_truncated hp a' b' hb hn rfl hE a (b.trans hend)).2.2.1 (by dsimp only at e; omega)
      exact absurd this c'
    | err er =>
      obtain ⟨ks, ps, g1, g2, g3, g4⟩ := hin
      exact absurd (by simp) ((decoder_truncated hp g1 g2 hb hn rfl hE a (b.trans hend)).1 er)
    | eof bs =>
      obtain ⟨ks, ps, g1, g2, g3, g4, rfl⟩ := hin
      refine ⟨t, _, rfl, ?_, (decoder_truncated hp g1 g2 hb hn rfl hE a (b.trans hend)).2⟩
      have hc := C12_prefix hp g1 g2
      rw [a] at hc
      have := hb.body.total (r := []) _ (by rw [List.append_nil]; exact hc.mono (List.prefix_append _ _))
      exact this

end

end Tophat
