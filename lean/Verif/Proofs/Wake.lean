import Verif.Spec.Wake
import Verif.Proofs.Glitch
/-!
# Pending answers are passed on, and nothing else is Pending
-/

namespace Tophat

set_option linter.unusedSectionVars false

/-- A reader above a source: between polls the note of the source tells exactly whether the last answer was `Pending`. -/
class Dozing (ρ : Type) [AsyncRead ρ] where
  dozes : ρ → Bool
  read_doze : ∀ {x x' : ρ} {k : Nat} {p : RPoll}, pollRead x k = .ret (x', p) → dozes x = false → dozes x' = decide (p = .pending)

/-- The same for buffered readers. -/
class DozingBuf (ρ : Type) [AsyncBufRead ρ] extends Dozing ρ where
  fill_doze : ∀ {x x' : ρ} {p : RPoll}, pollFill x = .ret (x', p) → dozes x = false → dozes x' = decide (p = .pending)
  consume_doze : ∀ (x : ρ) (n : Nat), dozes (consume x n) = dozes x

export Dozing (dozes)

theorem note_inv {ρ : Type} {y : Run (ρ × RPoll)} {x' : Noted ρ} {p : RPoll} (h : (y >>= Noted.note) = .ret (x', p)) :
    x'.willWake = decide (p = .pending) := by
  obtain ⟨⟨a, q⟩, -, h2⟩ := Run.bind_eq_ret.1 h
  simp only [Noted.note, Run.ret.injEq, Prod.mk.injEq] at h2
  obtain ⟨rfl, rfl⟩ := h2
  rfl

instance {ρ : Type} [AsyncRead ρ] : Dozing (Noted ρ) where
  dozes x := x.willWake
  read_doze h _ := note_inv h

instance {ρ : Type} [AsyncBufRead ρ] : DozingBuf (Noted ρ) where
  dozes x := x.willWake
  read_doze h _ := note_inv h
  fill_doze h _ := note_inv h
  consume_doze _ _ := rfl

section
variable {ρ : Type} [AsyncRead ρ] [Dozing ρ]

theorem bufRd_fill_doze {x x' : BufRd ρ} {p : RPoll} (h : x.fill = .ret (x', p)) (hx : dozes x.inner = false) :
    dozes x'.inner = decide (p = .pending) := by
  unfold BufRd.fill at h
  split at h
  · obtain ⟨⟨i, q⟩, h1, h2⟩ := Run.bind_eq_ret.1 h
    have := Dozing.read_doze h1 hx
    cases q <;> (simp only [BufRd.filled, Run.ret.injEq, Prod.mk.injEq] at h2; obtain ⟨rfl, rfl⟩ := h2; exact this)
  · simp only [Run.ret.injEq, Prod.mk.injEq] at h
    obtain ⟨rfl, rfl⟩ := h
    simp [hx]

theorem bufRd_read_doze {x x' : BufRd ρ} {k : Nat} {p : RPoll} (h : x.read k = .ret (x', p)) (hx : dozes x.inner = false) :
    dozes x'.inner = decide (p = .pending) := by
  unfold BufRd.read at h
  split at h
  · obtain ⟨⟨i, q⟩, h1, h2⟩ := Run.bind_eq_ret.1 h
    simp only [Run.ret.injEq, Prod.mk.injEq] at h2
    obtain ⟨rfl, rfl⟩ := h2
    exact Dozing.read_doze h1 hx
  · obtain ⟨⟨y, q⟩, h1, h2⟩ := Run.bind_eq_ret.1 h
    have := bufRd_fill_doze h1 hx
    cases q <;> (simp only [BufRd.copyOut, Run.ret.injEq, Prod.mk.injEq] at h2; obtain ⟨rfl, rfl⟩ := h2; simpa [BufRd.drop] using this)

instance : DozingBuf (BufRd ρ) where
  dozes x := dozes x.inner
  read_doze h hx := bufRd_read_doze h hx
  fill_doze h hx := bufRd_fill_doze h hx
  consume_doze _ _ := rfl

end

section
variable {ρ : Type} [AsyncBufRead ρ] [DozingBuf ρ]

instance : DozingBuf (Take ρ) where
  dozes x := dozes x.inner
  read_doze {x x' k p} h hx := by
    simp only [pollRead, Take.read] at h
    split at h
    · simp only [Run.ret.injEq, Prod.mk.injEq] at h
      obtain ⟨rfl, rfl⟩ := h
      simp [hx]
    · obtain ⟨⟨i, q⟩, h1, h2⟩ := Run.bind_eq_ret.1 h
      have := Dozing.read_doze h1 hx
      cases q <;> (simp only [Take.counted, Run.ret.injEq, Prod.mk.injEq] at h2; obtain ⟨rfl, rfl⟩ := h2; simpa using this)
  fill_doze {x x' p} h hx := by
    simp only [pollFill, Take.fill] at h
    split at h
    · simp only [Run.ret.injEq, Prod.mk.injEq] at h
      obtain ⟨rfl, rfl⟩ := h
      simp [hx]
    · obtain ⟨⟨i, q⟩, h1, h2⟩ := Run.bind_eq_ret.1 h
      have := DozingBuf.fill_doze h1 hx
      cases q <;> (simp only [Take.cut, Run.ret.injEq, Prod.mk.injEq] at h2; obtain ⟨rfl, rfl⟩ := h2; simpa using this)
  consume_doze x n := by
    simp only [consume, Take.drop]
    split
    · rfl
    · exact DozingBuf.consume_doze _ _

end

/-! ## The chunked decoder -/

section
variable {ρ : Type} [AsyncRead ρ] [Dozing ρ]

/-- Whether a step of the decoder is waiting. -/
def DStep.waits : DStep → Bool
  | .res (.some _ _ _ _ pend) => pend
  | _ => false

attribute [simp] DStep.waits

theorem decodeInit_waits {b : Block} {start stop : Nat} {r : DStep} (h : ChunkedDecoder.decodeInit b start stop = .ret r) : r.waits = false := by
  obtain ⟨w, -, h2⟩ := Run.bind_eq_ret.1 h
  dsimp only at h2
  split at h2 <;> (simp only [Run.ret.injEq] at h2; subst h2; rfl)

theorem decodeChunkEnd_waits {b : Block} {start stop : Nat} {r : DStep} (h : ChunkedDecoder.decodeChunkEnd b start stop = .ret r) : r.waits = false := by
  unfold ChunkedDecoder.decodeChunkEnd at h
  split at h
  · simp only [Run.ret.injEq] at h; subst h; rfl
  · obtain ⟨w, -, h2⟩ := Run.bind_eq_ret.1 h
    split at h2 <;> (simp only [Run.ret.injEq] at h2; subst h2; rfl)

theorem decodeTrailer_waits {b : Block} {start stop : Nat} {r : DStep} (h : ChunkedDecoder.decodeTrailer b start stop = .ret r) : r.waits = false := by
  obtain ⟨w, -, h2⟩ := Run.bind_eq_ret.1 h
  dsimp only at h2
  split at h2
  · split at h2 <;> (simp only [Run.ret.injEq] at h2; subst h2; rfl)
  · simp only [Run.ret.injEq] at h2; subst h2; rfl
  · simp only [Run.ret.injEq] at h2; subst h2; rfl

/-- A step that waits has neither bytes nor is it the last. -/
def DStep.Bare : DStep → Prop
  | .res (.some read ns _ _ true) => read = [] ∧ ns ≠ .done
  | _ => True

theorem bare_of_not {r : DStep} (h : r.waits = false) : r.Bare := by
  match r with
  | .err e => trivial
  | .res .none => trivial
  | .res (.some _ _ _ _ false) => trivial
  | .res (.some _ _ _ _ true) => cases h

theorem pollReadChunk_doze {d d' : ChunkedDecoder ρ} {b : Block} {start stop k cur len : Nat} {r : DStep}
    (h : d.pollReadChunk b start stop k cur len = .ret (d', r)) (hd : dozes d.inner = false) :
    dozes d'.inner = r.waits ∧ r.Bare := by
  unfold ChunkedDecoder.pollReadChunk at h
  dsimp only at h
  split at h
  · obtain ⟨w, -, h2⟩ := Run.bind_eq_ret.1 h
    simp only [Run.ret.injEq, Prod.mk.injEq] at h2
    obtain ⟨rfl, rfl⟩ := h2
    exact ⟨hd, trivial⟩
  · obtain ⟨⟨i, p⟩, h1, h2⟩ := Run.bind_eq_ret.1 h
    have hi := Dozing.read_doze h1 hd
    cases p <;> (simp only [Run.ret.injEq, Prod.mk.injEq] at h2; obtain ⟨rfl, rfl⟩ := h2; refine ⟨by simpa using hi, ?_⟩)
    · exact ⟨rfl, fun h => nomatch h⟩
    · trivial
    · trivial

theorem pollReadInner_doze {d d' : ChunkedDecoder ρ} {b : Block} {start stop k : Nat} {r : DStep}
    (h : d.pollReadInner b start stop k = .ret (d', r)) (hd : dozes d.inner = false) :
    dozes d'.inner = r.waits ∧ r.Bare := by
  cases hs : d.state with
  | init =>
    simp only [ChunkedDecoder.pollReadInner, hs] at h
    obtain ⟨q, h1, h2⟩ := Run.bind_eq_ret.1 h
    simp only [Run.ret.injEq, Prod.mk.injEq] at h2
    obtain ⟨rfl, rfl⟩ := h2
    have := decodeInit_waits h1
    exact ⟨by rw [this]; exact hd, bare_of_not this⟩
  | chunk cur len =>
    simp only [ChunkedDecoder.pollReadInner, hs] at h
    exact pollReadChunk_doze h hd
  | chunkEnd =>
    simp only [ChunkedDecoder.pollReadInner, hs] at h
    obtain ⟨q, h1, h2⟩ := Run.bind_eq_ret.1 h
    simp only [Run.ret.injEq, Prod.mk.injEq] at h2
    obtain ⟨rfl, rfl⟩ := h2
    have := decodeChunkEnd_waits h1
    exact ⟨by rw [this]; exact hd, bare_of_not this⟩
  | trailer =>
    simp only [ChunkedDecoder.pollReadInner, hs] at h
    obtain ⟨q, h1, h2⟩ := Run.bind_eq_ret.1 h
    simp only [Run.ret.injEq, Prod.mk.injEq] at h2
    obtain ⟨rfl, rfl⟩ := h2
    have := decodeTrailer_waits h1
    exact ⟨by rw [this]; exact hd, bare_of_not this⟩
  | trailerDone hs' =>
    simp only [ChunkedDecoder.pollReadInner, hs] at h
    split at h
    · simp only [Run.ret.injEq, Prod.mk.injEq] at h
      obtain ⟨rfl, rfl⟩ := h
      exact ⟨hd, trivial⟩
    · cases h
  | trailerSending hs' =>
    simp only [ChunkedDecoder.pollReadInner, hs, Run.ret.injEq, Prod.mk.injEq] at h
    obtain ⟨rfl, rfl⟩ := h
    exact ⟨hd, trivial⟩
  | done =>
    simp only [ChunkedDecoder.pollReadInner, hs, Run.ret.injEq, Prod.mk.injEq] at h
    obtain ⟨rfl, rfl⟩ := h
    exact ⟨hd, trivial⟩

/-- The note after reading more. -/
@[simp] def ChunkedDecoder.Fill.Doze : ChunkedDecoder.Fill ρ → Prop
  | .quit d p => dozes d.inner = decide (p = .pending)
  | .go d _ _ => dozes d.inner = false

theorem fill_doze' {d : ChunkedDecoder ρ} {b : Block} {start stop : Nat} {nr : Bool} {f : ChunkedDecoder.Fill ρ}
    (h : d.fill b start stop nr = .ret f) (hd : dozes d.inner = false) : f.Doze := by
  cases nr with
  | false =>
    simp only [ChunkedDecoder.fill, Run.ret.injEq] at h
    subst h
    exact hd
  | true =>
    simp only [ChunkedDecoder.fill, ChunkedDecoder.readMore] at h
    split at h
    · obtain ⟨⟨i, p⟩, h1, h2⟩ := Run.bind_eq_ret.1 h
      have hi := Dozing.read_doze h1 hd
      cases p with
      | pending => simp only [Run.ret.injEq] at h2; subst h2; exact hi
      | err e => simp only [Run.ret.injEq] at h2; subst h2; exact hi
      | data bs =>
        obtain ⟨x, -, h3⟩ := Run.bind_eq_ret.1 h2
        simp only [Run.ret.injEq] at h3
        subst h3
        simp only [ChunkedDecoder.Fill.Doze]
        split <;> simpa using hi
    · cases h

theorem loop_doze : ∀ (fuel : Nat) {d d' : ChunkedDecoder ρ} {b : Block} {start stop : Nat} {nr : Bool} {k : Nat} {p : RPoll},
    ChunkedDecoder.loop fuel d b start stop nr k = .ret (d', p) → dozes d.inner = false → dozes d'.inner = decide (p = .pending)
  | 0, _, _, _, _, _, _, _, _, h, _ => nomatch h
  | fuel + 1, d, d', b, start, stop, nr, k, p, h, hd => by
    unfold ChunkedDecoder.loop at h
    split at h
    · simp only [Run.ret.injEq, Prod.mk.injEq] at h
      obtain ⟨rfl, rfl⟩ := h
      simpa using hd
    · obtain ⟨f, h1, h2⟩ := Run.bind_eq_ret.1 h
      have hf := fill_doze' h1 hd
      cases f with
      | quit d1 q =>
        simp only [Run.ret.injEq, Prod.mk.injEq] at h2
        obtain ⟨rfl, rfl⟩ := h2
        exact hf
      | go d1 b1 stop1 =>
        obtain ⟨⟨d2, r⟩, h3, h4⟩ := Run.bind_eq_ret.1 h2
        obtain ⟨hw, hb⟩ := pollReadInner_doze h3 hf
        match r, hw, hb, h4 with
        | .err e, hw, _, h4 =>
          simp only [Run.ret.injEq, Prod.mk.injEq] at h4
          obtain ⟨rfl, rfl⟩ := h4
          simpa using hw
        | .res .none, hw, _, h4 =>
          dsimp only at h4
          split at h4
          · simp only [Run.ret.injEq, Prod.mk.injEq] at h4
            obtain ⟨rfl, rfl⟩ := h4
            simpa using hw
          · exact loop_doze fuel h4 hw
        | .res (.some read ns s t false), hw, _, h4 =>
          dsimp only at h4
          split at h4
          · simp only [Run.ret.injEq, Prod.mk.injEq] at h4
            obtain ⟨rfl, rfl⟩ := h4
            simpa using hw
          · split at h4
            · simp only [Run.ret.injEq, Prod.mk.injEq] at h4
              obtain ⟨rfl, rfl⟩ := h4
              simpa using hw
            · rw [if_neg (by simp)] at h4
              exact loop_doze fuel h4 hw
        | .res (.some read ns s t true), hw, hb, h4 =>
          obtain ⟨rfl, hn⟩ := hb
          dsimp only at h4
          rw [if_neg hn, if_neg (by simp), if_pos rfl] at h4
          simp only [Run.ret.injEq, Prod.mk.injEq] at h4
          obtain ⟨rfl, rfl⟩ := h4
          simpa using hw

theorem pollFuel_doze {fuel : Nat} {d d' : ChunkedDecoder ρ} {k : Nat} {p : RPoll}
    (h : d.pollFuel fuel k = .ret (d', p)) (hd : dozes d.inner = false) : dozes d'.inner = decide (p = .pending) := by
  unfold ChunkedDecoder.pollFuel at h
  dsimp only at h
  split at h
  · obtain ⟨⟨d2, r⟩, h3, h4⟩ := Run.bind_eq_ret.1 h
    obtain ⟨hw, hb⟩ := pollReadInner_doze h3 hd
    match r, hw, hb, h4 with
    | .err e, hw, _, h4 =>
      simp only [Run.ret.injEq, Prod.mk.injEq] at h4
      obtain ⟨rfl, rfl⟩ := h4
      simpa using hw
    | .res .none, hw, _, h4 => exact loop_doze fuel h4 hw
    | .res (.some read ns s t false), hw, _, h4 =>
      dsimp only at h4
      rw [if_neg (by simp)] at h4
      split at h4
      · simp only [Run.ret.injEq, Prod.mk.injEq] at h4
        obtain ⟨rfl, rfl⟩ := h4
        simpa using hw
      · split at h4
        · simp only [Run.ret.injEq, Prod.mk.injEq] at h4
          obtain ⟨rfl, rfl⟩ := h4
          simpa using hw
        · exact loop_doze fuel h4 hw
    | .res (.some read ns s t true), hw, hb, h4 =>
      dsimp only at h4
      rw [if_pos rfl] at h4
      simp only [Run.ret.injEq, Prod.mk.injEq] at h4
      obtain ⟨rfl, rfl⟩ := h4
      simpa using hw
  · exact loop_doze fuel h hd

instance : Dozing (ChunkedDecoder ρ) where
  dozes d := dozes d.inner
  read_doze h hd := pollFuel_doze h hd

/-- The note below the body of a request. -/
def bodyDozes : ReqBody ρ → Bool
  | .fixed r => dozes r.inner.inner
  | .chunked r => dozes r.inner.inner.inner

instance : DozingBuf (ReqBody ρ) where
  dozes := bodyDozes
  read_doze {b b' k p} h hb := by
    cases b with
    | fixed r =>
      obtain ⟨⟨r', q⟩, h1, h2⟩ := Run.bind_eq_ret.1 (show (pollRead r k >>= ReqBody.ofFixed) = _ from h)
      simp only [ReqBody.ofFixed, Run.ret.injEq, Prod.mk.injEq] at h2
      obtain ⟨rfl, rfl⟩ := h2
      exact Dozing.read_doze (ρ := Take (BufRd ρ)) h1 hb
    | chunked r =>
      obtain ⟨⟨r', q⟩, h1, h2⟩ := Run.bind_eq_ret.1 (show (pollRead r k >>= ReqBody.ofChunked) = _ from h)
      simp only [ReqBody.ofChunked, Run.ret.injEq, Prod.mk.injEq] at h2
      obtain ⟨rfl, rfl⟩ := h2
      exact Dozing.read_doze (ρ := BufRd (ChunkedDecoder (BufRd ρ))) h1 hb
  fill_doze {b b' p} h hb := by
    cases b with
    | fixed r =>
      obtain ⟨⟨r', q⟩, h1, h2⟩ := Run.bind_eq_ret.1 (show (pollFill r >>= ReqBody.ofFixed) = _ from h)
      simp only [ReqBody.ofFixed, Run.ret.injEq, Prod.mk.injEq] at h2
      obtain ⟨rfl, rfl⟩ := h2
      exact DozingBuf.fill_doze (ρ := Take (BufRd ρ)) h1 hb
    | chunked r =>
      obtain ⟨⟨r', q⟩, h1, h2⟩ := Run.bind_eq_ret.1 (show (pollFill r >>= ReqBody.ofChunked) = _ from h)
      simp only [ReqBody.ofChunked, Run.ret.injEq, Prod.mk.injEq] at h2
      obtain ⟨rfl, rfl⟩ := h2
      exact DozingBuf.fill_doze (ρ := BufRd (ChunkedDecoder (BufRd ρ))) h1 hb
  consume_doze b n := by
    cases b with
    | fixed r => exact DozingBuf.consume_doze r n
    | chunked r => exact DozingBuf.consume_doze r n

/-! ## The head -/

/-- The note after the loop that reads the head. -/
@[simp] def HeadPoll.Doze : HeadPoll ρ → Prop
  | .pending r _ _ => dozes r.inner = true
  | .lost r _ => dozes r.inner = false
  | .none r => dozes r.inner = false
  | .head r _ => dozes r.inner = false

theorem headGo_doze : ∀ (fuel : Nat) {r : BufRd ρ} {buf : Bytes} {n : Nat} {h : HeadPoll ρ},
    headGo fuel r buf n = .ret h → dozes r.inner = false → h.Doze
  | 0, _, _, _, _, h, _ => nomatch h
  | fuel + 1, r, buf, n, res, h, hr => by
    unfold headGo at h
    obtain ⟨⟨r1, p⟩, h1, h2⟩ := Run.bind_eq_ret.1 h
    have hd : dozes r1.inner = decide (p = .pending) := bufRd_fill_doze h1 hr
    have fin : ∀ {x : HeadPoll ρ}, (Run.ret x : Run (HeadPoll ρ)) = .ret res → x.Doze → res.Doze := by
      intro x hx hd
      cases hx
      exact hd
    cases p with
    | pending => exact fin h2 (by simpa using hd)
    | err e => exact fin h2 (by simpa using hd)
    | data bs =>
      have hd : dozes r1.inner = false := by simpa using hd
      dsimp only at h2
      split at h2
      · split at h2
        · exact fin h2 hd
        · exact headGo_doze fuel h2 hd
      · split at h2
        · split at h2
          · exact fin h2 hd
          · split at h2
            · exact fin h2 hd
            · exact headGo_doze fuel h2 hd
        · exact headGo_doze fuel h2 hd

theorem writeAllGo_blocked : ∀ (fuel : Nat) {w w' : Writer} {todo rest : Bytes},
    writeAllGo fuel w todo = .ret (w', .pending rest) → w.Blocked w'
  | 0, _, _, _, _, h => nomatch h
  | fuel + 1, w, w', todo, rest, h => by
    unfold writeAllGo at h
    split at h
    · cases h
    · obtain ⟨script, got⟩ := w
      cases script with
      | nil =>
        simp only [Writer.write] at h
        split at h
        · cases h
        · obtain ⟨b, hb⟩ := writeAllGo_blocked fuel h
          exact ⟨b, hb⟩
      | cons e s =>
        cases e with
        | accept m =>
          simp only [Writer.write] at h
          split at h
          · cases h
          · obtain ⟨b, hb⟩ := writeAllGo_blocked fuel h
            exact ⟨.accept m :: b, by simpa using hb⟩
        | pending =>
          simp only [Writer.write, Run.ret.injEq, Prod.mk.injEq] at h
          obtain ⟨rfl, -⟩ := h
          exact ⟨[], rfl⟩
        | err e =>
          simp only [Writer.write, Run.ret.injEq, Prod.mk.injEq] at h
          exact nomatch h.2

theorem pollInterim_pending {uriOk : Bytes → Bool} {pool : Pool} {r : BufRd ρ} {p : Parsed} {todo : Bytes} {w w' : Writer} {f : DecFut ρ}
    (h : pollInterim uriOk pool r p todo w = .ret (w', .pending f)) : w.Blocked w' := by
  obtain ⟨⟨w1, x⟩, h1, h2⟩ := Run.bind_eq_ret.1 h
  cases x with
  | pending t =>
    simp only [Run.ret.injEq, Prod.mk.injEq] at h2
    obtain ⟨rfl, -⟩ := h2
    exact writeAllGo_blocked _ h1
  | err e => simp only [Run.ret.injEq, Prod.mk.injEq] at h2; exact nomatch h2.2
  | done => simp only [Run.ret.injEq, Prod.mk.injEq] at h2; exact nomatch h2.2

theorem decFut_doze {uriOk : Bytes → Bool} {pool : Pool} {fuel : Nat} {f f' : DecFut ρ} {w w' : Writer}
    (h : f.poll uriOk pool fuel w = .ret (w', .pending f')) (hf : dozes f.io = false) : dozes f'.io = true ∨ w.Blocked w' := by
  cases f with
  | interim r p todo => exact Or.inr (pollInterim_pending h)
  | head r buf n =>
    unfold DecFut.poll at h
    obtain ⟨hp, h1, h2⟩ := Run.bind_eq_ret.1 h
    have hd := headGo_doze fuel h1 hf
    cases hp with
    | pending r1 b1 n1 =>
      simp only [Run.ret.injEq, Prod.mk.injEq, DecPoll.pending.injEq] at h2
      obtain ⟨-, rfl⟩ := h2
      exact Or.inl hd
    | lost r1 e => simp only [Run.ret.injEq, Prod.mk.injEq] at h2; exact nomatch h2.2
    | none r1 => simp only [Run.ret.injEq, Prod.mk.injEq] at h2; exact nomatch h2.2
    | head r1 b1 =>
      dsimp only at h2
      split at h2
      · simp only [Run.ret.injEq, Prod.mk.injEq] at h2; exact nomatch h2.2
      · exact Or.inr (pollInterim_pending h2)

end

/-! ## The encoders -/

section
variable {σ : Type} [AsyncBufRead σ] [DozingBuf σ]

/-- The answer is not `Pending`. -/
def EPoll.Now (r : EPoll) : Prop := r ≠ .pending

theorem encodeEos_now {e e' : ChunkedEncoder} {buf buf' : Bytes} {r : EPoll} (h : e.encodeEos buf = .ret (e', buf', r)) : r.Now := by
  obtain ⟨b, -, h⟩ := Run.bind_eq_ret.1 h
  obtain ⟨b, -, h⟩ := Run.bind_eq_ret.1 h
  simp only [Run.ret.injEq, Prod.mk.injEq] at h
  obtain ⟨-, -, rfl⟩ := h
  exact fun h => nomatch h

theorem encodeTrailers_now {e e' : ChunkedEncoder} {buf buf' : Bytes} {r : EPoll} (h : e.encodeTrailers buf = .ret (e', buf', r)) : r.Now := by
  obtain ⟨b, -, h⟩ := Run.bind_eq_ret.1 h
  exact encodeEos_now h

theorem encodeChunksEos_now {e e' : ChunkedEncoder} {buf buf' : Bytes} {r : EPoll} (h : e.encodeChunksEos buf = .ret (e', buf', r)) : r.Now := by
  unfold ChunkedEncoder.encodeChunksEos at h
  split at h
  · simp only [Run.ret.injEq, Prod.mk.injEq] at h
    obtain ⟨-, -, rfl⟩ := h
    exact fun h => nomatch h
  · obtain ⟨b, -, h⟩ := Run.bind_eq_ret.1 h
    obtain ⟨c, -, h⟩ := Run.bind_eq_ret.1 h
    obtain ⟨d, -, h⟩ := Run.bind_eq_ret.1 h
    exact encodeTrailers_now h

theorem encodeChunks_doze {hexLen : Nat → Nat} {e e' : ChunkedEncoder} {body body' : σ} {buf buf' : Bytes}
    (h : e.encodeChunks hexLen body buf = .ret (e', body', buf', .pending)) (hb : dozes body = false) : dozes body' = true := by
  obtain ⟨⟨b1, p⟩, h1, h2⟩ := Run.bind_eq_ret.1 h
  have hd := DozingBuf.fill_doze h1 hb
  cases p with
  | pending =>
    dsimp only at h2
    split at h2
    · simp only [Run.ret.injEq, Prod.mk.injEq] at h2
      obtain ⟨-, rfl, -⟩ := h2
      simpa using hd
    · simp only [Run.ret.injEq, Prod.mk.injEq] at h2
      exact nomatch h2.2.2.2
  | err x => simp only [Run.ret.injEq, Prod.mk.injEq] at h2; exact nomatch h2.2.2.2
  | data src =>
    exfalso
    dsimp only at h2
    split at h2
    · obtain ⟨e1, -, h2⟩ := Run.bind_eq_ret.1 h2
      obtain ⟨⟨e2, buf2, r⟩, h3, h2⟩ := Run.bind_eq_ret.1 h2
      simp only [Run.ret.injEq, Prod.mk.injEq] at h2
      obtain ⟨-, -, -, rfl⟩ := h2
      exact encodeChunksEos_now h3 rfl
    · split at h2
      · simp only [Run.ret.injEq, Prod.mk.injEq] at h2
        exact nomatch h2.2.2.2
      · obtain ⟨_, -, h2⟩ := Run.bind_eq_ret.1 h2
        obtain ⟨_, -, h2⟩ := Run.bind_eq_ret.1 h2
        obtain ⟨_, -, h2⟩ := Run.bind_eq_ret.1 h2
        obtain ⟨_, -, h2⟩ := Run.bind_eq_ret.1 h2
        simp only [Run.ret.injEq, Prod.mk.injEq] at h2
        exact nomatch h2.2.2.2

theorem chunkedEncode_doze {hexLen : Nat → Nat} {e e' : ChunkedEncoder} {body body' : σ} {buf buf' : Bytes}
    (h : e.encode hexLen body buf = .ret (e', body', buf', .pending)) (hb : dozes body = false) : dozes body' = true := by
  unfold ChunkedEncoder.encode at h
  dsimp only at h
  split at h
  · obtain ⟨e1, -, h2⟩ := Run.bind_eq_ret.1 h
    exact encodeChunks_doze h2 hb
  · exact encodeChunks_doze h hb
  · obtain ⟨⟨e2, buf2, r⟩, h3, h2⟩ := Run.bind_eq_ret.1 h
    simp only [Run.ret.injEq, Prod.mk.injEq] at h2
    exact absurd h2.2.2.2 (encodeChunksEos_now h3)
  · obtain ⟨⟨e2, buf2, r⟩, h3, h2⟩ := Run.bind_eq_ret.1 h
    simp only [Run.ret.injEq, Prod.mk.injEq] at h2
    exact absurd h2.2.2.2 (encodeTrailers_now h3)
  · obtain ⟨⟨e2, buf2, r⟩, h3, h2⟩ := Run.bind_eq_ret.1 h
    simp only [Run.ret.injEq, Prod.mk.injEq] at h2
    exact absurd h2.2.2.2 (encodeTrailers_now h3)
  · obtain ⟨⟨e2, buf2, r⟩, h3, h2⟩ := Run.bind_eq_ret.1 h
    simp only [Run.ret.injEq, Prod.mk.injEq] at h2
    exact absurd h2.2.2.2 (encodeEos_now h3)
  · simp only [Run.ret.injEq, Prod.mk.injEq] at h
    exact nomatch h.2.2.2

theorem encodeChunkedBody_doze {hexLen : Nat → Nat} {e e' : Encoder σ} {buf buf' : Bytes}
    (h : e.encodeChunkedBody hexLen buf = .ret (e', buf', .pending)) (hb : dozes e.resp.body = false) : dozes e'.resp.body = true := by
  unfold Encoder.encodeChunkedBody at h
  split at h
  · obtain ⟨⟨c, body, sub, r⟩, h1, h2⟩ := Run.bind_eq_ret.1 h
    cases r with
    | ready n =>
      simp only [Run.ret.injEq, Prod.mk.injEq] at h2
      exact nomatch h2.2.2
    | err x =>
      simp only [Run.ret.injEq, Prod.mk.injEq] at h2
      exact nomatch h2.2.2
    | pending =>
      dsimp only at h2
      split at h2
      · simp only [Run.ret.injEq, Prod.mk.injEq] at h2
        exact nomatch h2.2.2
      · simp only [Run.ret.injEq, Prod.mk.injEq] at h2
        obtain ⟨rfl, -⟩ := h2
        exact chunkedEncode_doze h1 hb
  · cases h

theorem encodeFixedBody_doze : ∀ (fuel : Nat) {e e' : Encoder σ} {buf buf' : Bytes},
    e.encodeFixedBody fuel buf = .ret (e', buf', .pending) → dozes e.resp.body = false → dozes e'.resp.body = true
  | 0, _, _, _, _, h, _ => nomatch h
  | fuel + 1, e, e', buf, buf', h, hb => by
    unfold Encoder.encodeFixedBody at h
    split at h
    · simp only [Run.ret.injEq, Prod.mk.injEq] at h
      exact nomatch h.2.2
    · split at h
      · cases h
      · split at h
        · dsimp only at h
          split at h
          · obtain ⟨⟨b1, p⟩, h1, h2⟩ := Run.bind_eq_ret.1 h
            have hd := Dozing.read_doze h1 hb
            cases p with
            | data bs =>
              obtain ⟨b2, -, h2⟩ := Run.bind_eq_ret.1 h2
              split at h2
              · simp only [Run.ret.injEq, Prod.mk.injEq] at h2
                exact nomatch h2.2.2
              · exact encodeFixedBody_doze fuel h2 (by simpa using hd)
            | err x =>
              simp only [Run.ret.injEq, Prod.mk.injEq] at h2
              exact nomatch h2.2.2
            | pending =>
              dsimp only at h2
              split at h2
              · simp only [Run.ret.injEq, Prod.mk.injEq] at h2
                obtain ⟨rfl, -⟩ := h2
                simpa using hd
              · simp only [Run.ret.injEq, Prod.mk.injEq] at h2
                exact nomatch h2.2.2
          · cases h
        · cases h

theorem encodeHead_doze {hexLen : Nat → Nat} {fuel : Nat} {e e' : Encoder σ} {buf buf' : Bytes}
    (h : e.encodeHead hexLen fuel buf = .ret (e', buf', .pending)) (hb : dozes e.resp.body = false) : dozes e'.resp.body = true := by
  unfold Encoder.encodeHead at h
  split at h
  · obtain ⟨b1, -, h⟩ := Run.bind_eq_ret.1 h
    obtain ⟨b2, -, h⟩ := Run.bind_eq_ret.1 h
    dsimp only at h
    split at h
    · split at h
      · exact encodeFixedBody_doze fuel h hb
      · exact encodeChunkedBody_doze h hb
    · simp only [Run.ret.injEq, Prod.mk.injEq] at h
      exact nomatch h.2.2
  · cases h

theorem encoder_doze {hexLen : Nat → Nat} {now : Bytes} {fuel : Nat} {e e' : Encoder σ} {buf buf' : Bytes}
    (h : e.pollFuel hexLen now fuel buf = .ret (e', buf', .pending)) (hb : dozes e.resp.body = false) : dozes e'.resp.body = true := by
  unfold Encoder.pollFuel at h
  dsimp only at h
  split at h
  · exact encodeHead_doze h hb
  · exact encodeHead_doze h hb
  · exact encodeFixedBody_doze fuel h hb
  · exact encodeChunkedBody_doze h hb
  · simp only [Run.ret.injEq, Prod.mk.injEq] at h
    exact nomatch h.2.2

end

section
variable {σ : Type} [AsyncRead σ] [Dozing σ]

theorem pollHeaders_body {e e' : ClientEncoder σ} {buf buf' : Bytes} {n : Nat} (h : e.pollHeaders buf = .ret (e', buf', n)) : e'.body = e.body := by
  unfold ClientEncoder.pollHeaders at h
  split at h
  · simp only [Run.ret.injEq, Prod.mk.injEq] at h
    rw [h.1]
  · split at h
    · obtain ⟨b1, -, h⟩ := Run.bind_eq_ret.1 h
      obtain ⟨b2, -, h⟩ := Run.bind_eq_ret.1 h
      simp only [Run.ret.injEq, Prod.mk.injEq] at h
      obtain ⟨rfl, -⟩ := h
      split <;> rfl
    · cases h

theorem clientEncoder_doze {e e' : ClientEncoder σ} {buf buf' : Bytes}
    (h : e.poll buf = .ret (e', buf', .pending)) (hb : dozes e.body = false) : dozes e'.body = true := by
  obtain ⟨⟨e1, b1, n⟩, h1, h2⟩ := Run.bind_eq_ret.1 h
  have he := pollHeaders_body h1
  dsimp only at h2
  split at h2
  · simp only [Run.ret.injEq, Prod.mk.injEq] at h2
    exact nomatch h2.2.2
  · split at h2
    · obtain ⟨⟨b2, p⟩, h3, h4⟩ := Run.bind_eq_ret.1 h2
      have hd := Dozing.read_doze h3 (by rw [he]; exact hb)
      cases p with
      | err x =>
        simp only [Run.ret.injEq, Prod.mk.injEq] at h4
        exact nomatch h4.2.2
      | pending =>
        dsimp only at h4
        split at h4
        · simp only [Run.ret.injEq, Prod.mk.injEq] at h4
          obtain ⟨rfl, -⟩ := h4
          simpa using hd
        · simp only [Run.ret.injEq, Prod.mk.injEq] at h4
          exact nomatch h4.2.2
      | data bs =>
        obtain ⟨b3, -, h4⟩ := Run.bind_eq_ret.1 h4
        simp only [Run.ret.injEq, Prod.mk.injEq] at h4
        exact nomatch h4.2.2
    · cases h2

end

/-! ## Streams of server-sent events -/

theorem next_pending : ∀ (s : List Ev) {r : IntoAsyncRead}, IntoAsyncRead.next s = (r, some .pending) →
    ∃ before, s = before ++ .pending :: r.stream
  | [], _, h => by
    simp only [IntoAsyncRead.next, Prod.mk.injEq, Option.some.injEq] at h
    exact nomatch h.2
  | .pending :: s, r, h => by
    simp only [IntoAsyncRead.next, Prod.mk.injEq] at h
    obtain ⟨rfl, -⟩ := h
    exact ⟨[], rfl⟩
  | .err e :: s, r, h => by
    simp only [IntoAsyncRead.next, Prod.mk.injEq, Option.some.injEq] at h
    exact nomatch h.2
  | .data bs :: s, r, h => by
    simp only [IntoAsyncRead.next] at h
    split at h
    · simp only [Prod.mk.injEq] at h
      exact nomatch h.2
    · obtain ⟨b, hb⟩ := next_pending s h
      exact ⟨.data bs :: b, by rw [hb]; rfl⟩

theorem readChunk_now (r : IntoAsyncRead) (k : Nat) : (r.readChunk k).2 ≠ .pending := by
  unfold IntoAsyncRead.readChunk
  split <;> exact fun h => nomatch h

theorem fillChunk_now (r : IntoAsyncRead) : r.fillChunk.2 ≠ .pending := by
  unfold IntoAsyncRead.fillChunk
  split <;> exact fun h => nomatch h

theorem into_read_pending {r r' : IntoAsyncRead} {k : Nat} (h : r.read k = (r', .pending)) :
    ∃ before, r.stream = before ++ .pending :: r'.stream := by
  unfold IntoAsyncRead.read at h
  split at h
  · split at h
    · rename_i hn
      simp only [Prod.mk.injEq] at h
      obtain ⟨rfl, rfl⟩ := h
      exact next_pending _ hn
    · exact absurd (congrArg Prod.snd h) (readChunk_now _ k)
  · exact absurd (congrArg Prod.snd h) (readChunk_now _ k)

theorem into_fill_pending {r r' : IntoAsyncRead} (h : r.fill = (r', .pending)) :
    ∃ before, r.stream = before ++ .pending :: r'.stream := by
  unfold IntoAsyncRead.fill at h
  split at h
  · split at h
    · rename_i hn
      simp only [Prod.mk.injEq] at h
      obtain ⟨rfl, rfl⟩ := h
      exact next_pending _ hn
    · exact absurd (congrArg Prod.snd h) (fillChunk_now _)
  · exact absurd (congrArg Prod.snd h) (fillChunk_now _)

end Tophat
