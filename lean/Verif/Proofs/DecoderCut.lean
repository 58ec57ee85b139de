import Verif.Proofs.ThruBody
/-! Chunked bodies that stop after a complete chunk, for now or for good. -/

set_option linter.unusedSectionVars false

namespace Tophat
open Tophat.Spec Tophat.Httparse

namespace Dec

/-- The same with more bytes to come. -/
def G.plus (g : G) (E : Bytes) : G := { g with R := g.R ++ E }

/-- The end of the stream is met, before the end of the message. -/
def Ends (g g' : G) : Prop := g.R = [] ∧ g'.st = .done ∧ (Stuck g.st g.win ∨ g.win = [] ∧ ∃ c l, g.st = .chunk c l)

theorem Trans.plus {g g' : G} {x : Bytes} (h : Trans g x g') (E : Bytes) : Trans (g.plus E) x (g'.plus E) ∨ x = [] ∧ Ends g g' := by
  cases h with
  | grow c a b d e => exact .inl (.grow c a b d e)
  | refill bs R' a b d e => exact .inl (.refill (g := g.plus E) bs (R' ++ E) a (by show g.R ++ E = _; rw [b, List.append_assoc]) d e)
  | eof a b =>
    rcases b with ⟨b1, b2⟩ | b
    · exact .inr ⟨rfl, b1, rfl, .inl a⟩
    · exact .inl (.eof a (.inr b))
  | size l w n a b d => exact .inl (.size (g := g.plus E) l w n a b d)
  | drain cur len x w a b d e => exact .inl (.drain (g := g.plus E) cur len x w a b d e)
  | direct cur len x R' a b d e f => exact .inl (.direct (g := g.plus E) cur len x (R' ++ E) a b (by show g.R ++ E = _; rw [d, List.append_assoc]) e f)
  | cut cur len a b d e => exact .inr ⟨rfl, d, rfl, .inr ⟨b, _, _, a⟩⟩
  | chunkEnd w a b => exact .inl (.chunkEnd (g := g.plus E) w a b)
  | trailer l w fs a b d e => exact .inl (.trailer (g := g.plus E) l w fs a b d e)
  | take h a => exact .inl (.take (g := g.plus E) h a)
  | send h a => exact .inl (.send (g := g.plus E) h a)

theorem Trans.fin {g g' : G} {x : Bytes} (h : Trans g x g') : g'.fin = g.fin := by cases h <;> rfl

theorem Trans.done {g g' : G} {x : Bytes} (h : Trans g x g') (hd : g.st = .done) : x = [] ∧ g'.st = .done := by
  cases h with
  | grow c a b d e => exact ⟨rfl, hd⟩
  | refill bs R' a b d e => exact ⟨rfl, hd⟩
  | eof a b => exact ⟨rfl, rfl⟩
  | size l w n a b d => rw [hd] at a; cases a
  | drain cur len x w a b d e => rw [hd] at a; cases a
  | direct cur len x R' a b d e f => rw [hd] at a; cases a
  | cut cur len a b d e => rw [hd] at a; cases a
  | chunkEnd w a b => rw [hd] at a; cases a
  | trailer l w fs a b d e => rw [hd] at a; cases a
  | take h a => rw [hd] at a; cases a
  | send h a => rw [hd] at a; cases a

/-- A stream that ends where the last chunk of a fitting message should begin has yielded the payload. -/
theorem Fit.ends {m : Msg} {g g' : G} {D : Bytes} (h : Fit m (g.plus m.E) D) (he : Ends g g') : D = m.P := by
  obtain ⟨hR, -, hs⟩ := he
  have hst := h.st
  unfold FitSt at hst
  have hplus : (g.plus m.E).st = g.st := rfl
  rw [hplus] at hst
  have e : (g.plus m.E).win ++ (g.plus m.E).R = g.win ++ m.E := by show g.win ++ (g.R ++ m.E) = _; rw [hR]; rfl
  rcases hs with hs | ⟨hw, c, l, hc⟩
  · rcases hg : g.st with _ | ⟨c, l⟩ | _ | _ | t | t | _ <;> rw [hg] at hst hs <;> simp only [Stuck] at hs <;> simp only [e] at hst
    · obtain ⟨b, w, p, h1, h2, h3, h4⟩ := hst
      have hww : g.win = w := List.append_cancel_right h1
      cases h2 with
      | nil hb => simpa using h3
      | @cons _ l d w p c1 c2 c3 c4 =>
        have := stuck_line (R := []) c1 (x := d ++ (13 :: 10 :: w)) (by rw [List.append_nil, hww]) hs
        rw [hww] at this
        simp at this
        omega
    · obtain ⟨b, w, p, h1, h2, h3, h4⟩ := hst
      have := congrArg List.length h1
      simp only [List.length_append, List.length_cons] at this
      omega
    · exact hst.1
    · exact hst.1
  · rw [hc] at hst
    simp only [e] at hst
    obtain ⟨b, w, p, d, h1, h2, -⟩ := hst
    have := congrArg List.length h1
    rw [hw] at this
    simp only [List.length_append, List.length_cons, List.length_nil] at this
    omega

/-- Where the decoder is in a fitting message whose last chunk does not come. -/
def Short (m : Msg) (g : G) (D : Bytes) : Prop := g.fin = none ∧ (Fit m (g.plus m.E) D ∨ g.st = .done ∧ D = m.P)

theorem Short.steps {m : Msg} {g g' : G} {D x : Bytes} (h : Short m g D) (ht : Steps g x g') : Short m g' (D ++ x) := by
  induction ht with
  | refl => simpa using h
  | tail _ ht ih =>
    rw [← List.append_assoc]
    obtain ⟨hf, ih⟩ := ih
    refine ⟨by rw [ht.fin, hf], ?_⟩
    rcases ih with ih | ⟨i1, i2⟩
    · rcases ht.plus m.E with ht' | ⟨rfl, he⟩
      · exact .inl (ih.step ht')
      · exact .inr ⟨he.2.1, by rw [List.append_nil]; exact ih.ends he⟩
    · obtain ⟨rfl, hd⟩ := ht.done i1
      exact .inr ⟨hd, by rw [List.append_nil, i2]⟩

theorem Short.done {m : Msg} {g : G} {D : Bytes} (h : Short m g D) (hd : g.st = .done) : D = m.P := by
  rcases h.2 with h | h
  · have := h.st
    simp only [FitSt, show (g.plus m.E).st = .done from hd] at this
    exact this.1
  · exact h.2

theorem Short.fails {m : Msg} {g : G} {D : Bytes} {e : IoErr} (h : Short m g D) (hf : Fails g e) : D = m.P := by
  obtain ⟨h0, h⟩ := h
  rcases h with h | h
  · have : Fails (g.plus m.E) e := by
      cases hf with
      | transport a b c => rw [h0] at b; cases b
      | size a b => exact .size a b
      | chunkEnd a b c => exact .chunkEnd a b c
      | trailer a b => exact .trailer a b
      | tooLarge a b => exact .tooLarge a b
    exact (h.fails this).1
  · exact h.2

end Dec

open Dec

section
variable {ρ : Type} [AsyncRead ρ] [LawfulRead ρ]

theorem Spec.Frames.carries {w p : Bytes} (h : Frames w p) {y : Bytes} (hy : Carries w y) : y <+: p := by
  have hb : Body (w ++ ([48, 13, 10] ++ [13, 10])) p [] := ⟨w, [48, 13, 10], [13, 10], by simp, h, lastLine, emptySection⟩
  exact hb.total (r := []) _ (by rw [List.append_nil]; exact hy.mono (List.prefix_append _ _))

/-- A stream that ends after complete chunks whose framing fits: all of their data is read before the end, or an error, is reported. -/
theorem decoder_cut {inner : ρ} {pool : Pool} (hp : pool.Ok) {ks : List Nat} (hk : ∀ k ∈ ks, 0 < k)
    {d' : ChunkedDecoder ρ} {ps : List RPoll} (h : polls (ChunkedDecoder.new inner pool) ks = .ret (d', ps))
    {w p : Bytes} (hw : Within 0 4096 w p) (hs : rem inner = w) (hfin : fin inner = none) :
    received ps <+: p ∧ (SawEof ps ∨ (∃ e, .err e ∈ ps) → received ps = p) := by
  obtain ⟨d1, ps1, h1, ho⟩ := polls_spec ks _ hk (decInv_new inner pool hp)
  rw [h] at h1
  injection h1 with h1; injection h1 with e1 e2
  subst e1; subst e2
  let m : Msg := ⟨p, [48, 13, 10], [13, 10], [], [], 0, lastLine, emptySection, by decide, .inl rfl⟩
  have hshort : Short m (abs (ChunkedDecoder.new inner pool)) [] := by
    have hwin : (abs (ChunkedDecoder.new inner pool)).win = [] := by simp [abs, conf, ChunkedDecoder.new, window]
    have hsz : (abs (ChunkedDecoder.new inner pool)).size = 4096 := by
      simp [abs, conf, ChunkedDecoder.new, Pool.alloc, hp.len, initialCapacity]
    have hcap : (abs (ChunkedDecoder.new inner pool)).cap = 4096 := by
      simp [abs, conf, ChunkedDecoder.new, Pool.alloc, initialCapacity]
    refine ⟨hfin, .inl ⟨?_, by show (abs (ChunkedDecoder.new inner pool)).size ≤ (abs (ChunkedDecoder.new inner pool)).cap; omega, .inl rfl, .inr (.inr ⟨hsz, hcap⟩), ?_⟩⟩
    · show (abs (ChunkedDecoder.new inner pool)).start + (abs (ChunkedDecoder.new inner pool)).win.length ≤ (abs (ChunkedDecoder.new inner pool)).size
      rw [hwin, hsz]; simp [abs, conf, ChunkedDecoder.new]
    · show FitSt _ _ _
      simp only [FitSt, G.plus, abs, conf, ChunkedDecoder.new]
      exact ⟨4096, w, p, by simp [window, Msg.E, m, hs], hw, rfl, .inr ⟨hsz, hcap, by simp⟩⟩
  refine ⟨?_, fun hend => ?_⟩
  · have := C12_prefix hp hk h
    rw [hs] at this
    exact hw.frames.carries this
  · cases ho with
    | going g1 g2 g3 g4 g5 g6 =>
      rcases hend with hend | ⟨e, he⟩
      · simpa using (hshort.steps g1).done (g5 hend)
      · exact absurd he (g3 e)
    | failed g1 g2 g3 g4 g5 g6 =>
      have := (hshort.steps g1).fails g2
      simpa [received_append, received] using this

/-- The same behind a `BufReader`. -/
theorem chunked_cut {r : ρ} {pool : Pool} (hp : pool.Ok) {ks : List Nat} (hk : ∀ k ∈ ks, 0 < k) {b' : BufRd (ChunkedDecoder ρ)} {ps : List RPoll}
    (h : polls (BufRd.new (ChunkedDecoder.new r pool)) ks = .ret (b', ps)) {w p : Bytes} (hw : Within 0 4096 w p) (hs : rem r = w) (hfin : fin r = none) :
    received ps <+: p ∧ (SawEof ps ∨ (∃ e, .err e ∈ ps) → received ps = p) ∧ (p.length + meas r < ks.length → SawEof ps ∨ ∃ e, .err e ∈ ps) := by
  obtain ⟨ks', ps', h1, h2, h3, h4, h5⟩ := bufRd_polls h
  have h3' : received ps' = received ps ++ b'.buf := h3
  have hpre : received ps <+: p := by
    have := (decoder_cut hp h1 h2 hw hs hfin).1
    rw [h3'] at this
    exact (List.prefix_append _ _).trans this
  refine ⟨hpre, ?_, ?_⟩
  · rintro (he | ⟨e, he⟩)
    · obtain ⟨ks1, d, ps1, ps1', g1, g2, g3, g4, g5⟩ := bufRd_eof hk h he
      have := (decoder_cut hp g1 g2 hw hs hfin).2 (.inl g3)
      have g5' : received ps1' = received ps1 := g5
      rw [this] at g5'
      have hle := received_prefix g4
      rw [← g5'] at hle
      exact hpre.eq_of_length (Nat.le_antisymm hpre.length_le hle.length_le)
    · have := (decoder_cut hp h1 h2 hw hs hfin).2 (.inr ⟨e, (h4 e).1 he⟩)
      rw [h3', h5 ⟨e, he⟩, List.append_nil] at this
      exact this
  · intro hl
    obtain ⟨b2, ps2, g1, g2⟩ := bufDec_polls ks (BufRd.new (ChunkedDecoder.new r pool)) (Dec.decInv_new r pool hp)
    rw [h] at g1
    injection g1 with g1; injection g1 with e1 e2
    subst e1 e2
    by_cases hc : SawEof ps ∨ ∃ e, .err e ∈ ps
    · exact hc
    · exfalso
      have h1 : ¬ SawEof ps := fun h => hc (.inl h)
      have h2 : ∀ e, .err e ∉ ps := fun e h => hc (.inr ⟨e, h⟩)
      have := g2 hk h1 h2
      have := hpre.length_le
      have hm : meas (BufRd.new (ChunkedDecoder.new r pool)).inner.inner = meas r := rfl
      omega

/-- What is received before the end is reported. -/
theorem polls_before_end {δ : Type} [AsyncRead δ] (ks : List Nat) : ∀ {d d' : δ} {ps : List RPoll}, polls d ks = .ret (d', ps) → SawEof ps →
    ∃ ks1 ks2 d1 d2 qs k, ks = ks1 ++ k :: ks2 ∧ polls d ks1 = .ret (d1, qs) ∧ (∀ q ∈ qs, q ≠ .data []) ∧ polls d (ks1 ++ [k]) = .ret (d2, qs ++ [.data []]) := by
  induction ks with
  | nil =>
    intro d d' ps h he
    simp only [polls, Run.ret.injEq, Prod.mk.injEq] at h
    obtain ⟨-, rfl⟩ := h
    simp [SawEof] at he
  | cons k ks ih =>
    intro d d' ps h he
    have h0 := h
    simp only [polls] at h
    obtain ⟨⟨b1, q⟩, g1, g2⟩ := Run.bind_eq_ret.1 h
    by_cases hq : ∃ e, q = .err e
    · obtain ⟨e, rfl⟩ := hq
      simp only [Run.ret.injEq, Prod.mk.injEq] at g2
      obtain ⟨-, rfl⟩ := g2
      simp [SawEof] at he
    · have hq' : ∀ e, q ≠ .err e := fun e x => hq ⟨e, x⟩
      by_cases hz : q = .data []
      · subst hz
        refine ⟨[], ks, d, b1, [], k, rfl, rfl, by simp, ?_⟩
        rw [List.nil_append, polls_cons_data g1 hq']
        rfl
      · rw [polls_cons_data g1 hq'] at h0
        obtain ⟨⟨b2, ps1⟩, g3, g4⟩ := Run.bind_eq_ret.1 h0
        simp only [Run.ret.injEq, Prod.mk.injEq] at g4
        obtain ⟨rfl, rfl⟩ := g4
        obtain ⟨ks1, ks2, d1, d2, qs, k', e1, e2, e3, e4⟩ := ih g3 (by
          unfold SawEof at he ⊢
          simp only [List.mem_cons] at he
          exact he.resolve_left (fun x => hz x.symm))
        refine ⟨k :: ks1, ks2, d1, d2, q :: qs, k', by rw [e1]; rfl, ?_, ?_, ?_⟩
        · rw [polls_cons_data g1 hq', e2]; rfl
        · intro x hx
          rcases List.mem_cons.1 hx with rfl | hx
          · exact hz
          · exact e3 x hx
        · rw [List.cons_append, polls_cons_data g1 hq', e4]; rfl

theorem polls_append_prefix {δ : Type} [AsyncRead δ] (ks1 : List Nat) : ∀ {ks2 : List Nat} {d d1 d' : δ} {qs ps : List RPoll}, polls d ks1 = .ret (d1, qs) →
    polls d (ks1 ++ ks2) = .ret (d', ps) → qs <+: ps := by
  induction ks1 with
  | nil =>
    intro ks2 d d1 d' qs ps h _
    simp only [polls, Run.ret.injEq, Prod.mk.injEq] at h
    rw [← h.2]; exact List.nil_prefix
  | cons k ks ih =>
    intro ks2 d d1 d' qs ps h h'
    have h0 := h
    simp only [polls] at h
    obtain ⟨⟨b1, q⟩, g1, g2⟩ := Run.bind_eq_ret.1 h
    by_cases hq : ∃ e, q = .err e
    · obtain ⟨e, rfl⟩ := hq
      simp only [Run.ret.injEq, Prod.mk.injEq] at g2
      obtain ⟨-, rfl⟩ := g2
      simp only [List.cons_append, polls, g1, Run.ret_bind, Run.ret.injEq, Prod.mk.injEq] at h'
      rw [← h'.2]
      exact List.prefix_refl _
    · have hq' : ∀ e, q ≠ .err e := fun e x => hq ⟨e, x⟩
      rw [polls_cons_data g1 hq'] at h0
      obtain ⟨⟨b2, ps1⟩, g3, g4⟩ := Run.bind_eq_ret.1 h0
      simp only [Run.ret.injEq, Prod.mk.injEq] at g4
      obtain ⟨rfl, rfl⟩ := g4
      rw [List.cons_append, polls_cons_data g1 hq'] at h'
      obtain ⟨⟨b3, ps2⟩, g5, g6⟩ := Run.bind_eq_ret.1 h'
      simp only [Run.ret.injEq, Prod.mk.injEq] at g6
      obtain ⟨rfl, rfl⟩ := g6
      obtain ⟨z, hz⟩ := ih g3 g5
      exact ⟨z, by rw [← hz]; rfl⟩

end

section
variable {ρ ρ' : Type} [AsyncRead ρ] [LawfulRead ρ] [AsyncRead ρ'] {f : ρ → ρ'}

/-- A peer that falls silent after complete chunks: all of their data is read. -/
theorem BodyAt.unsilenced (hf : Thru f) {pool : Pool} (hp : pool.Ok) {s : Bytes} {m : Nat} {body : ReqBody ρ} (hb : BodyAt pool s none m none body) {p : Bytes} (hw : Within 0 4096 s p)
    {ks : List Nat} (hk : ∀ k ∈ ks, 0 < k) (hl : p.length + m < ks.length) {b1 : ReqBody ρ} {ps : List RPoll} (h : polls body ks = .ret (b1, ps))
    {b2 : ReqBody ρ'} {ps2 : List RPoll} (h2 : polls (body.on f) ks = .ret (b2, ps2)) : p <+: received ps2 := by
  obtain ⟨r, t', e1, e2, e3, e4⟩ := hb.chunked_polls h
  obtain ⟨c1, c2, c3⟩ := chunked_cut hp hk e4 hw e1 e2
  by_cases he : SawEof ps
  · obtain ⟨ks1, ks2, d1, d2, qs, k, rfl, g2, g3, g4⟩ := polls_before_end ks h he
    have hq : received qs = p := by
      obtain ⟨r, t', i1, i2, i3, i4⟩ := hb.chunked_polls g4
      have := (chunked_cut hp (fun x hx => hk x (by simp at hx ⊢; rcases hx with hx | hx <;> simp [hx])) i4 hw i1 i2).2.1 (.inl (by simp [SawEof]))
      simpa [received_append, received] using this
    have := polls_on (alike_noEnd hf) ks1 g2 (hb.noEnd fun x hx => g3 _ (List.of_mem_zip hx).2)
    have := polls_append_prefix ks1 this h2
    rw [← hq]
    exact received_prefix this
  · have hq : received ps = p := c2 (c3 (by omega))
    have := polls_on (alike_noEnd hf) ks h (hb.noEnd fun x hx e => he (by unfold SawEof; rw [← e]; exact (List.of_mem_zip hx).2))
    rw [h2] at this
    injection this with this; injection this with _ this
    rw [this, hq]
    exact List.prefix_refl _

end

end Tophat
