import Verif.Model.ChunkedEncoder
import Verif.Proofs.Basic
/-! Helper lemmas about the chunked encoder: one poll. -/

namespace Tophat

theorem exactHexLen_ok : HexLenOk exactHexLen where
  covers m h := by simp [exactHexLen, Nat.ne_of_gt h]
  tight m := by by_cases h : m = 0 <;> simp [exactHexLen, h]

namespace ChunkedEncoder

variable {ρ : Type} [AsyncBufRead ρ] [LawfulBufRead ρ]

/-- States between polls. -/
def Inv (e : ChunkedEncoder) (body : ρ) : Prop :=
  e.state = .start ∨ e.state = .encodeChunks ∨
  (e.state = .endOfChunks ∧ rem body = [] ∧ fin body = none) ∨
  (e.state = .ended ∧ rem body = [] ∧ fin body = none)

/-- The possible outcomes of one poll that returns. -/
inductive Step (hexLen : Nat → Nat) (e : ChunkedEncoder) (body : ρ) (buf : Bytes) :
    ChunkedEncoder → ρ → Bytes → EPoll → Prop
  | pending {e' body' buf'} : e.state ≠ .ended → e'.state = .encodeChunks → rem body' = rem body →
      fin body' = fin body → meas body' < meas body → buf'.length = buf.length →
      Step hexLen e body buf e' body' buf' .pending
  | err {e' body' buf' x} : e.state ≠ .ended → rem body = [] → fin body = some x →
      buf'.length = buf.length → Step hexLen e body buf e' body' buf' (.err x)
  | stall {e' body' buf'} : e.state ≠ .ended → e'.state = .encodeChunks → rem body' = rem body → fin body' = fin body →
      meas body' ≤ meas body → buf'.length = buf.length → 
      (∃ m, 0 < m ∧ m ≤ buf.length ∧ buf.length ≤ hexLen m + 4) ∨ buf.length ≤ hexLen 0 + 4 → 
      Step hexLen e body buf e' body' buf' (.ready 0)
  | stallEnd {e' body' buf'} : e.state ≠ .ended → e'.state = .endOfChunks → rem body = [] → fin body = none →
      rem body' = [] → fin body' = none → meas body' ≤ meas body → buf'.length = buf.length → buf.length < 3 →
      Step hexLen e body buf e' body' buf' (.ready 0)
  | chunk {e' body' buf' d n} : e.state ≠ .ended → e'.state = .encodeChunks → d ≠ [] → rem body = d ++ rem body' →
      fin body' = fin body → meas body' ≤ meas body → buf'.length = buf.length → n ≤ buf.length →
      buf'.take n = hexUpper d.length ++ crlf ++ d ++ crlf → n = (hexUpper d.length ++ crlf ++ d ++ crlf).length →
      Step hexLen e body buf e' body' buf' (.ready n)
  | last {e' body' buf'} : e.state ≠ .ended → e'.state = .ended → rem body = [] → fin body = none →
      rem body' = [] → fin body' = none → meas body' ≤ meas body → buf'.length = buf.length → 5 ≤ buf.length →
      buf'.take 5 = 48 :: crlf ++ crlf → Step hexLen e body buf e' body' buf' (.ready 5)
  | idle {e' buf'} : e.state = .ended → e'.state = .ended → buf' = buf →
      Step hexLen e body buf e' body buf' (.ready 0)

theorem encodeChunksEos_small {e : ChunkedEncoder} {buf : Bytes} (h : buf.length < 3) :
    e.encodeChunksEos buf = .ret (e, buf, .ready e.bytesWritten) := by
  simp [encodeChunksEos, h]

theorem encodeChunksEos_ok {e : ChunkedEncoder} {buf : Bytes} (hs : e.state = .endOfChunks)
    (hw : e.bytesWritten = 0) (h : 5 ≤ buf.length) :
    ∃ e' buf', e.encodeChunksEos buf = .ret (e', buf', .ready 5) ∧ e'.state = .ended ∧
      buf'.length = buf.length ∧ buf'.take 5 = 48 :: crlf ++ crlf := by
  obtain ⟨b1, h1, l1, t1⟩ := writeAt_ok (buf := buf) (off := 0) (bs := 48 :: crlf) (by simp [crlf]; omega)
  obtain ⟨b2, h2, l2, t2⟩ := writeAt_ok (buf := b1) (off := 3) (bs := crlf) (by simp [crlf]; omega)
  refine ⟨⟨5, .ended⟩, b2, ?_, rfl, by omega, ?_⟩
  · have : ¬ buf.length < 3 := by omega
    simp [encodeChunksEos, this, hw, h1, setState, hs, allowed, receiveTrailers, encodeTrailers, encodeEos, h2]
  · have t1' : b1.take 3 = 48 :: crlf := by simpa [crlf] using t1
    have t2' : b2.take 5 = b1.take 3 ++ crlf := by simpa [crlf] using t2
    rw [t2', t1']

theorem encodeChunksEos_panic {e : ChunkedEncoder} {buf : Bytes} (hs : e.state = .endOfChunks)
    (hw : e.bytesWritten = 0) (h : buf.length = 3 ∨ buf.length = 4) :
    e.encodeChunksEos buf = .panic := by
  obtain ⟨b1, h1, l1, t1⟩ := writeAt_ok (buf := buf) (off := 0) (bs := 48 :: crlf) (by simp [crlf]; omega)
  have h2 : writeAt b1 3 crlf = .panic := writeAt_panic (by simp [crlf]; omega)
  have : ¬ buf.length < 3 := by omega
  simp [encodeChunksEos, this, hw, h1, setState, hs, allowed, receiveTrailers, encodeTrailers, encodeEos, h2]

theorem encodeChunks_step {hexLen : Nat → Nat} (hx : HexLenOk hexLen) {e : ChunkedEncoder} {body : ρ}
    {buf : Bytes} {e0 : ChunkedEncoder} (h0 : e0.state ≠ .ended)
    (hs : e.state = .encodeChunks) (hw : e.bytesWritten = 0) :
    (∃ e' body' buf' r, e.encodeChunks hexLen body buf = .ret (e', body', buf', r) ∧
      Step hexLen e0 body buf e' body' buf' r) ∨
    (e.encodeChunks hexLen body buf = .panic ∧ (buf.length = 3 ∨ buf.length = 4) ∧
      rem body = [] ∧ fin body = none) := by
  obtain ⟨b', p, hp, ok⟩ := LawfulBufRead.fill_ok body
  cases ok with
  | pending a b c =>
    exact .inl ⟨e, b', buf, _, by simp only [encodeChunks, hp, hw, Run.ret_bind, if_true], .pending h0 hs a b c rfl⟩
  | err a b =>
    exact .inl ⟨e, b', buf, _, by simp only [encodeChunks, hp, Run.ret_bind], .err h0 a b rfl⟩
  | @data src a b c d z f =>
    by_cases hsrc : src = []
    · obtain ⟨z1, z2⟩ := z hsrc
      have hset : setState e .endOfChunks = .ret { e with state := .endOfChunks } := by
        simp [setState, hs, allowed]
      have hl : src.length = 0 := by simp [hsrc]
      rcases Nat.lt_or_ge buf.length 3 with h3 | h3
      · refine .inl ⟨{ e with state := .endOfChunks }, b', buf, .ready 0, ?_, ?_⟩
        · simp only [encodeChunks, hp, hl, hset, encodeChunksEos_small h3, hw, Run.ret_bind, if_true]
        · exact .stallEnd h0 rfl z1 z2 (by rw [a, z1]) (by rw [b, z2]) c rfl h3
      · rcases Nat.lt_or_ge buf.length 5 with h5 | h5
        · refine .inr ⟨?_, by omega, z1, z2⟩
          have := encodeChunksEos_panic (e := { e with state := .endOfChunks }) (buf := buf) rfl hw (by omega)
          simp only [encodeChunks, hp, hl, hset, Run.ret_bind, if_true, this, Run.panic_bind]
        · obtain ⟨e', buf', g1, g2, g3, g4⟩ :=
            encodeChunksEos_ok (e := { e with state := .endOfChunks }) (buf := buf) rfl hw h5
          refine .inl ⟨e', b', buf', .ready 5, ?_, ?_⟩
          · simp only [encodeChunks, hp, hl, hset, Run.ret_bind, if_true, g1]
          · exact .last h0 g2 z1 z2 (by rw [a, z1]) (by rw [b, z2]) c g3 h5 g4
    · have hl : src.length ≠ 0 := by simpa using hsrc
      by_cases hsm : buf.length ≤ hexLen (min src.length buf.length) + 4
      · refine .inl ⟨e, b', buf, .ready 0, ?_, ?_⟩
        · have h44 : hexLen (min src.length buf.length) + 2 * 2 = hexLen (min src.length buf.length) + 4 := rfl
          simp only [encodeChunks, hp, hl, hw, Run.ret_bind, if_false, Nat.sub_zero, h44, hsm, if_true]
        · refine .stall h0 hs a b c rfl ?_
          rcases Nat.eq_zero_or_pos buf.length with h | h
          · right; omega
          · exact .inl ⟨_, by omega, by omega, hsm⟩
      · generalize hm : min src.length buf.length = m0 at hsm
        have hm0 : 0 < m0 := by omega
        obtain ⟨m, hmdef⟩ : ∃ m, m = min m0 (buf.length - (hexLen m0 + 4)) := ⟨_, rfl⟩
        have hmpos : 0 < m := by omega
        have hmle : m ≤ src.length := by omega
        have hhex : (hexUpper m).length ≤ hexLen m0 :=
          Nat.le_trans (hexUpper_length_mono (by omega)) (hx.covers m0 hm0)
        have hd : (src.take m).length = m := by simp; omega
        obtain ⟨b1, h1, l1, t1⟩ := writeAt_ok (buf := buf) (off := 0) (bs := hexUpper m) (by omega)
        obtain ⟨b2, h2, l2, t2⟩ := writeAt_ok (buf := b1) (off := (hexUpper m).length) (bs := crlf)
          (by simp [crlf]; omega)
        obtain ⟨b3, h3, l3, t3⟩ := writeAt_ok (buf := b2) (off := (hexUpper m).length + 2) (bs := src.take m)
          (by omega)
        obtain ⟨b4, h4, l4, t4⟩ := writeAt_ok (buf := b3) (off := (hexUpper m).length + 2 + m) (bs := crlf)
          (by simp [crlf]; omega)
        have hcr : crlf.length = 2 := rfl
        rw [hcr] at t2 t4
        rw [hd] at t3
        simp only [Nat.zero_add, List.take_zero, List.nil_append] at t1
        have hm' : min src.length m = m := by omega
        obtain ⟨f1, f2, f3⟩ := f m hmle
        refine .inl ⟨⟨(hexUpper m).length + 2 + m + 2, .encodeChunks⟩, consume b' m, b4, .ready ((hexUpper m).length + 2 + m + 2), ?_, ?_⟩
        · have h44 : hexLen m0 + 2 * 2 = hexLen m0 + 4 := rfl
          simp only [encodeChunks, hp, Run.ret_bind, hl, if_false, hw, Nat.sub_zero, hm, h44, ← hmdef, hsm,
            Nat.zero_add, h1, h2, h3, h4, hs]
        · have dd : rem body = src.take m ++ rem (consume b' m) := by
            obtain ⟨t, ht⟩ := d
            rw [f1, ← ht, List.drop_append_of_le_length hmle, ← List.append_assoc, List.take_append_drop]
          refine .chunk (d := src.take m) h0 rfl (by rw [← List.length_pos_iff, hd]; exact hmpos) dd f2 f3 (by omega) (by omega) ?_ ?_
          · rw [hd, t4, t3, t2, t1]
          · simp [hcr, hd]; omega

/-- One poll: it either makes one of the steps of `Step` or panics, and the latter only with a
buffer of 3 or 4 bytes when the body has ended. -/
theorem encode_step {hexLen : Nat → Nat} (hx : HexLenOk hexLen) {e : ChunkedEncoder} {body : ρ}
    (buf : Bytes) (hi : Inv e body) :
    (∃ e' body' buf' r, e.encode hexLen body buf = .ret (e', body', buf', r) ∧
      Step hexLen e body buf e' body' buf' r) ∨
    (e.encode hexLen body buf = .panic ∧ (buf.length = 3 ∨ buf.length = 4) ∧
      rem body = [] ∧ fin body = none ∧ e.state ≠ .ended) := by
  rcases hi with hs | hs | ⟨hs, hr, hf⟩ | ⟨hs, hr, hf⟩
  · have := encodeChunks_step hx (e := ⟨0, .encodeChunks⟩) (body := body) (buf := buf) (e0 := e) (by simp [hs]) rfl rfl
    simpa [encode, hs, init, setState, allowed] using this
  · have := encodeChunks_step hx (e := ⟨0, .encodeChunks⟩) (body := body) (buf := buf) (e0 := e) (by simp [hs]) rfl rfl
    simpa [encode, hs] using this
  · have h0 : e.state ≠ .ended := by simp [hs]
    rcases Nat.lt_or_ge buf.length 3 with h3 | h3
    · refine .inl ⟨⟨0, .endOfChunks⟩, body, buf, .ready 0, ?_, ?_⟩
      · simp [encode, hs, encodeChunksEos_small h3]
      · exact .stallEnd h0 rfl hr hf hr hf (Nat.le_refl _) rfl h3
    · rcases Nat.lt_or_ge buf.length 5 with h5 | h5
      · refine .inr ⟨?_, by omega, hr, hf, h0⟩
        have := encodeChunksEos_panic (e := ⟨0, .endOfChunks⟩) (buf := buf) rfl rfl (by omega)
        simp [encode, hs, this]
      · obtain ⟨e', buf', g1, g2, g3, g4⟩ :=
          encodeChunksEos_ok (e := ⟨0, .endOfChunks⟩) (buf := buf) rfl rfl h5
        refine .inl ⟨e', body, buf', .ready 5, ?_, ?_⟩
        · simp [encode, hs, g1]
        · exact .last h0 g2 hr hf hr hf (Nat.le_refl _) g3 h5 g4
  · refine .inl ⟨⟨0, .ended⟩, body, buf, .ready 0, ?_, .idle hs rfl rfl⟩
    simp [encode, hs]

theorem Step.inv {hexLen : Nat → Nat} {e e' : ChunkedEncoder} {body body' : ρ} {buf buf' : Bytes} {r : EPoll}
    (hi : Inv e body) (h : Step hexLen e body buf e' body' buf' r) (hr : ∀ x, r ≠ .err x) : Inv e' body' := by
  cases h with
  | pending _ h1 => exact .inr (.inl h1)
  | err => exact absurd rfl (hr _)
  | stall _ h1 => exact .inr (.inl h1)
  | stallEnd _ h1 _ _ h2 h3 => exact .inr (.inr (.inl ⟨h1, h2, h3⟩))
  | chunk _ h1 => exact .inr (.inl h1)
  | last _ h1 _ _ h2 h3 => exact .inr (.inr (.inr ⟨h1, h2, h3⟩))
  | idle h1 h2 h3 =>
    rcases hi with h | h | ⟨h, _⟩ | ⟨h, a, b⟩
    · simp [h] at h1
    · simp [h] at h1
    · simp [h] at h1
    · exact .inr (.inr (.inr ⟨h2, a, b⟩))

end ChunkedEncoder
end Tophat
