import Verif.Spec.Isolation
import Verif.Proofs.Glitch
/-!
# Two runs with different contents of the pool

A relation between the two runs: everything is the same except for the bytes of blocks outside the window that
the decoder still has to read, and the blocks that are still in the pool.
-/

namespace Tophat

set_option linter.unusedSectionVars false

/-- Two results that are both panics, both endless, or both values in relation `R`. -/
def RunRel {α β : Type} (R : α → β → Prop) : Run α → Run β → Prop
  | .ret a, .ret b => R a b
  | .panic, .panic => True
  | .diverge, .diverge => True
  | _, _ => False

theorem RunRel.refl {α : Type} {R : α → α → Prop} (h : ∀ a, R a a) : ∀ x : Run α, RunRel R x x
  | .ret a => h a
  | .panic => trivial
  | .diverge => trivial

theorem RunRel.bind {α β γ δ : Type} {R : α → β → Prop} {S : γ → δ → Prop} {x : Run α} {y : Run β}
    {f : α → Run γ} {g : β → Run δ} (h : RunRel R x y) (hf : ∀ a b, R a b → RunRel S (f a) (g b)) :
    RunRel S (x >>= f) (y >>= g) := by
  cases x <;> cases y <;> first | exact h.elim | trivial | exact hf _ _ h

theorem RunRel.bind_same {α γ δ : Type} {S : γ → δ → Prop} {x : Run α}
    {f : α → Run γ} {g : α → Run δ} (hf : ∀ a, RunRel S (f a) (g a)) :
    RunRel S (x >>= f) (x >>= g) := by
  cases x <;> first | trivial | exact hf _

theorem RunRel.eq {α : Type} {x y : Run α} (h : RunRel (· = ·) x y) : x = y := by
  cases x <;> cases y <;> first | exact h.elim | rfl | (cases h; rfl)

/-- Blocks of the same size that agree from `lo` to `hi`. -/
structure BlockAlike (lo hi : Nat) (b b' : Block) : Prop where
  len : b'.data.length = b.data.length
  cap : b'.cap = b.cap
  window : (b'.data.take hi).drop lo = (b.data.take hi).drop lo

theorem BlockAlike.sub {lo hi lo' hi' : Nat} {b b' : Block} (h : BlockAlike lo hi b b')
    (h1 : lo ≤ lo') (h2 : hi' ≤ hi) : BlockAlike lo' hi' b b' := by
  refine ⟨h.len, h.cap, ?_⟩
  have h3 : ∀ l : Bytes, (l.take hi').drop lo' = (((l.take hi).drop lo).take (hi' - lo)).drop (lo' - lo) := by
    intro l
    rw [List.take_drop, List.drop_drop, List.take_take]
    by_cases hc : lo ≤ hi'
    · rw [show lo + (hi' - lo) = hi' by omega, Nat.min_eq_left h2, show lo + (lo' - lo) = lo' by omega]
    · rw [List.drop_of_length_le (by simp; omega), List.drop_of_length_le (by simp; omega)]
  rw [h3, h3, h.window]

theorem BlockAlike.empty {b b' : Block} {lo hi lo' hi' : Nat} (h : BlockAlike lo hi b b') (h1 : hi' ≤ lo') :
    BlockAlike lo' hi' b b' := by
  refine ⟨h.len, h.cap, ?_⟩
  rw [List.drop_of_length_le (by simp; omega), List.drop_of_length_le (by simp; omega)]

theorem BlockAlike.slice {lo hi : Nat} {b b' : Block} (h : BlockAlike lo hi b b') :
    slice b'.data lo hi = slice b.data lo hi := by
  simp only [Tophat.slice, h.len, h.window]

/-- The decoders agree, except for the contents of the block and of the pool. -/
def Core {ρ : Type} (d d' : ChunkedDecoder ρ) : Prop :=
  ∃ b' p', d' = { d with buffer := b', pool := p' } ∧ b'.data.length = d.buffer.data.length ∧
    b'.cap = d.buffer.cap ∧ SamePool d.pool p'

/-- The decoders agree, except for the bytes of the block outside the window, and the contents of the pool. -/
def Same {ρ : Type} (d d' : ChunkedDecoder ρ) : Prop :=
  Core d d' ∧ BlockAlike d.start d.stop d.buffer d'.buffer

/-- The windows that a step may ask for next. -/
def StepWin (start stop : Nat) : DStep → Prop
  | .res (.some _ _ s t _) => (start ≤ s ∧ t ≤ stop) ∨ t ≤ s
  | _ => True

section
variable {ρ : Type} [AsyncRead ρ]

theorem decodeInit_same {b b' : Block} {start stop : Nat} (h : BlockAlike start stop b b') :
    RunRel (fun x y => y = x ∧ StepWin start stop x) (ChunkedDecoder.decodeInit b start stop)
      (ChunkedDecoder.decodeInit b' start stop) := by
  simp only [ChunkedDecoder.decodeInit, h.slice]
  refine RunRel.bind_same fun w => ?_
  split <;> refine ⟨rfl, ?_⟩
  · exact Or.inl ⟨by omega, Nat.le_refl _⟩
  · trivial
  · trivial

theorem decodeTrailer_same {b b' : Block} {start stop : Nat} (h : BlockAlike start stop b b') :
    RunRel (fun x y => y = x ∧ StepWin start stop x) (ChunkedDecoder.decodeTrailer b start stop)
      (ChunkedDecoder.decodeTrailer b' start stop) := by
  simp only [ChunkedDecoder.decodeTrailer, h.slice]
  refine RunRel.bind_same fun w => ?_
  split
  · split <;> refine ⟨rfl, ?_⟩
    · exact Or.inl ⟨by omega, Nat.le_refl _⟩
    · trivial
  · exact ⟨rfl, trivial⟩
  · exact ⟨rfl, trivial⟩

theorem decodeChunkEnd_same {b b' : Block} {start stop : Nat} (h : BlockAlike start stop b b') :
    RunRel (fun x y => y = x ∧ StepWin start stop x) (ChunkedDecoder.decodeChunkEnd b start stop)
      (ChunkedDecoder.decodeChunkEnd b' start stop) := by
  simp only [ChunkedDecoder.decodeChunkEnd]
  split
  · exact ⟨rfl, trivial⟩
  · rw [(h.sub (Nat.le_refl _) (by omega)).slice (lo := start) (hi := start + 2)]
    refine RunRel.bind_same fun w => ?_
    split
    · exact ⟨rfl, Or.inl ⟨by omega, Nat.le_refl _⟩⟩
    · exact ⟨rfl, trivial⟩

/-- The result of one step on both sides. -/
def StepRel (b0 : Block) (start stop : Nat) (x y : ChunkedDecoder ρ × DStep) : Prop :=
  y.2 = x.2 ∧ StepWin start stop x.2 ∧ Core x.1 y.1 ∧ x.1.buffer.data.length = b0.data.length

theorem pollReadChunk_same {d d' : ChunkedDecoder ρ} {b b' : Block} {start stop k cur len : Nat}
    (hd : Core d d') (h : BlockAlike start stop b b') :
    RunRel (StepRel d.buffer start stop) (d.pollReadChunk b start stop k cur len) (d'.pollReadChunk b' start stop k cur len) := by
  obtain ⟨x, p', rfl, h1, h2, h3⟩ := hd
  simp only [ChunkedDecoder.pollReadChunk]
  split
  · rw [(h.sub (Nat.le_refl _) (by omega)).slice (lo := start) (hi := start + min (min (len - cur) k) (stop - start))]
    refine RunRel.bind_same fun w => ?_
    refine ⟨rfl, ?_, ⟨x, p', rfl, h1, h2, h3⟩, rfl⟩
    simp only [StepWin]
    split
    · exact Or.inr (Nat.le_refl _)
    · exact Or.inl ⟨by simp, by simp⟩
  · refine RunRel.bind_same fun ip => ?_
    obtain ⟨i, p⟩ := ip
    cases p with
    | data bs => exact ⟨rfl, Or.inl ⟨Nat.le_refl _, Nat.le_refl _⟩, ⟨x, p', rfl, h1, h2, h3⟩, rfl⟩
    | err e => exact ⟨rfl, trivial, ⟨x, p', rfl, h1, h2, h3⟩, rfl⟩
    | pending => exact ⟨rfl, Or.inl ⟨Nat.le_refl _, Nat.le_refl _⟩, ⟨x, p', rfl, h1, h2, h3⟩, rfl⟩

theorem pollReadInner_same {d d' : ChunkedDecoder ρ} {b b' : Block} {start stop k : Nat}
    (hd : Core d d') (h : BlockAlike start stop b b') :
    RunRel (StepRel d.buffer start stop) (d.pollReadInner b start stop k) (d'.pollReadInner b' start stop k) := by
  have hd' := hd
  obtain ⟨x, p', rfl, h1, h2, h3⟩ := hd
  have stay : Or (start ≤ start ∧ stop ≤ stop) (stop ≤ start) := Or.inl ⟨Nat.le_refl _, Nat.le_refl _⟩
  cases hs : d.state with
  | init =>
    simp only [ChunkedDecoder.pollReadInner, hs]
    refine RunRel.bind (decodeInit_same h) fun a c hac => ?_
    obtain ⟨rfl, hw⟩ := hac
    exact ⟨rfl, hw, ⟨x, p', by cases d; cases hs; rfl, h1, h2, h3⟩, rfl⟩
  | chunk cur len =>
    simp only [ChunkedDecoder.pollReadInner, hs]
    have := pollReadChunk_same (k := k) (cur := cur) (len := len) hd' h
    simp only [hs] at this
    exact this
  | chunkEnd =>
    simp only [ChunkedDecoder.pollReadInner, hs]
    refine RunRel.bind (decodeChunkEnd_same h) fun a c hac => ?_
    obtain ⟨rfl, hw⟩ := hac
    exact ⟨rfl, hw, ⟨x, p', by cases d; cases hs; rfl, h1, h2, h3⟩, rfl⟩
  | trailer =>
    simp only [ChunkedDecoder.pollReadInner, hs]
    refine RunRel.bind (decodeTrailer_same h) fun a c hac => ?_
    obtain ⟨rfl, hw⟩ := hac
    exact ⟨rfl, hw, ⟨x, p', by cases d; cases hs; rfl, h1, h2, h3⟩, rfl⟩
  | trailerDone hs' =>
    simp only [ChunkedDecoder.pollReadInner, hs]
    split
    · exact ⟨rfl, stay, ⟨x, p', rfl, h1, h2, h3⟩, rfl⟩
    · trivial
  | trailerSending hs' =>
    simp only [ChunkedDecoder.pollReadInner, hs]
    exact ⟨rfl, stay, ⟨x, p', by cases d; cases hs; rfl, h1, h2, h3⟩, rfl⟩
  | done =>
    simp only [ChunkedDecoder.pollReadInner, hs]
    exact ⟨rfl, stay, ⟨x, p', by cases d; cases hs; rfl, h1, h2, h3⟩, rfl⟩

/-- The result of a poll on both sides: the same answer and, unless it is an error, decoders that are alike. -/
def PollRel (x y : ChunkedDecoder ρ × RPoll) : Prop :=
  y.2 = x.2 ∧ Core x.1 y.1 ∧ ((∀ e, x.2 ≠ .err e) → Same x.1 y.1)

/-- The result of reading more on both sides. -/
def FillRel (start : Nat) : ChunkedDecoder.Fill ρ → ChunkedDecoder.Fill ρ → Prop
  | .quit d p, .quit d' p' => PollRel (d, p) (d', p')
  | .go d b stop, .go d' b' stop' => stop' = stop ∧ Core d d' ∧ BlockAlike start stop b b'
  | _, _ => False

theorem writeAt_same {b b' : Block} {start stop : Nat} {bs : Bytes} (h : BlockAlike start stop b b') :
    RunRel (fun x y => BlockAlike start (stop + bs.length) { b with data := x } { b' with data := y })
      (writeAt b.data stop bs) (writeAt b'.data stop bs) := by
  simp only [writeAt, h.len]
  split
  · rename_i hl
    have key : ∀ l : Bytes, stop + bs.length ≤ l.length →
        (((l.take stop ++ bs) ++ l.drop (stop + bs.length)).take (stop + bs.length)).drop start =
          (l.take stop ++ bs).drop start := by
      intro l hl
      rw [List.take_append_of_le_length (by simp; omega), List.take_of_length_le (by simp; omega)]
    refine ⟨by simp [h.len], h.cap, ?_⟩
    show List.drop start (List.take (stop + bs.length) _) = List.drop start (List.take (stop + bs.length) _)
    rw [key _ hl, key _ (by rw [h.len]; exact hl)]
    rw [List.drop_append, List.drop_append, h.window]
    simp [h.len]
  · trivial

theorem readMore_same {d d' : ChunkedDecoder ρ} {b b' : Block} {start stop : Nat}
    (hd : Core d d') (h : BlockAlike start stop b b') :
    RunRel (FillRel start) (d.readMore b start stop) (d'.readMore b' start stop) := by
  obtain ⟨x, p', rfl, h1, h2, h3⟩ := hd
  simp only [ChunkedDecoder.readMore, h.len]
  split
  · refine RunRel.bind_same fun ip => ?_
    obtain ⟨i, p⟩ := ip
    cases p with
    | err e => exact ⟨rfl, ⟨x, p', rfl, h1, h2, h3⟩, fun hn => absurd rfl (hn e)⟩
    | pending =>
      exact ⟨rfl, ⟨b', p', rfl, h.len, h.cap, h3⟩, fun _ => ⟨⟨b', p', rfl, h.len, h.cap, h3⟩, h⟩⟩
    | data bs =>
      refine RunRel.bind (writeAt_same h) fun u v huv => ?_
      refine ⟨rfl, ?_, huv⟩
      split
      · exact ⟨x, p', rfl, h1, h2, h3⟩
      · exact ⟨x, p', rfl, h1, h2, h3⟩
  · trivial

theorem fill_same {d d' : ChunkedDecoder ρ} {b b' : Block} {start stop : Nat} {nr : Bool}
    (hd : Core d d') (h : BlockAlike start stop b b') :
    RunRel (FillRel start) (d.fill b start stop nr) (d'.fill b' start stop nr) := by
  cases nr with
  | true => exact readMore_same hd h
  | false => exact ⟨rfl, hd, h⟩

theorem realloc_same {b b' : Block} {p p' : Pool} {start stop : Nat} (h : BlockAlike start stop b b')
    (hp : SamePool p p') : BlockAlike start stop (b.realloc p) (b'.realloc p') := by
  refine ⟨by simp [Block.realloc, h.len, h.cap], by simp [Block.realloc, h.cap, hp.grow], ?_⟩
  simp only [Block.realloc]
  rw [List.take_append, List.take_append, List.drop_append, List.drop_append, h.window]
  simp [h.len, h.cap]

theorem stepWin_alike {b b' : Block} {start stop s t : Nat} (h : BlockAlike start stop b b')
    (hw : (start ≤ s ∧ t ≤ stop) ∨ t ≤ s) : BlockAlike s t b b' := by
  rcases hw with hw | hw
  · exact h.sub hw.1 hw.2
  · exact h.empty hw

theorem loop_same : ∀ (fuel : Nat) {d d' : ChunkedDecoder ρ} {b b' : Block} {start stop : Nat} {nr : Bool} {k : Nat},
    Core d d' → BlockAlike start stop b b' →
    RunRel PollRel (ChunkedDecoder.loop fuel d b start stop nr k) (ChunkedDecoder.loop fuel d' b' start stop nr k)
  | 0, _, _, _, _, _, _, _, _, _, _ => trivial
  | fuel + 1, d, d', b, b', start, stop, nr, k, hd, h => by
    simp only [ChunkedDecoder.loop, h.cap]
    have hpool : SamePool d.pool d'.pool := by obtain ⟨x, p', rfl, h1, h2, h3⟩ := hd; exact h3
    split
    · obtain ⟨x, p', rfl, h1, h2, h3⟩ := hd
      exact ⟨rfl, ⟨b', p', rfl, h.len, h.cap, h3⟩, fun hn => absurd rfl (hn _)⟩
    · have hb : BlockAlike start stop (if stop - start ≥ b.cap then b.realloc d.pool else b)
          (if stop - start ≥ b.cap then b'.realloc d'.pool else b') := by
        split
        · exact realloc_same h hpool
        · exact h
      refine RunRel.bind (fill_same hd hb) fun f f' hf => ?_
      match f, f', hf with
      | .quit d p, .quit d' p', hf => exact hf
      | .go d b stop, .go d' b' stop', hf =>
        obtain ⟨rfl, hd, h⟩ := hf
        refine RunRel.bind (pollReadInner_same (k := k) hd h) fun x y hxy => ?_
        obtain ⟨d, r⟩ := x
        obtain ⟨d', r'⟩ := y
        obtain ⟨hr, hw, hd, -⟩ := hxy
        dsimp only at hr hw hd
        subst hr
        cases r' with
        | err e => exact ⟨rfl, hd, fun hn => absurd rfl (hn e)⟩
        | res r =>
          cases r with
          | some read ns s t pend =>
            have hn := stepWin_alike h hw
            obtain ⟨x, p', rfl, h1, h2, h3⟩ := hd
            dsimp only
            have fin : ∀ p : RPoll, PollRel
                ({ d with buffer := b, start := s, stop := t, initialDecode := true, state := ns }, p)
                ({ d with buffer := b', pool := p', start := s, stop := t, initialDecode := true, state := ns }, p) :=
              fun p => ⟨rfl, ⟨b', p', rfl, hn.len, hn.cap, h3⟩, fun _ => ⟨⟨b', p', rfl, hn.len, hn.cap, h3⟩, hn⟩⟩
            split
            · exact fin _
            · split
              · exact fin _
              · split
                · exact fin _
                · exact loop_same fuel ⟨x, p', rfl, h1, h2, h3⟩ hn
          | none =>
            obtain ⟨x, p', rfl, h1, h2, h3⟩ := hd
            dsimp only
            rw [h1]
            split
            · exact ⟨rfl, ⟨b', p', rfl, h.len, h.cap, h3⟩, fun _ => ⟨⟨b', p', rfl, h.len, h.cap, h3⟩, h⟩⟩
            · exact loop_same fuel ⟨x, p', rfl, h1, h2, h3⟩ h

theorem pollFuel_same (fuel : Nat) {d d' : ChunkedDecoder ρ} {k : Nat} (h : Same d d') :
    RunRel PollRel (d.pollFuel fuel k) (d'.pollFuel fuel k) := by
  obtain ⟨⟨x, p', rfl, h1, h2, h3⟩, hb⟩ := h
  have hpool : SamePool { d.pool with next := d.pool.next + 1 } { p' with next := p'.next + 1 } :=
    ⟨⟨h3.left.len, h3.left.grow⟩, ⟨h3.right.len, h3.right.grow⟩, h3.grow⟩
  have hcore : Core ({ d with start := 0, stop := 0, buffer := d.pool.alloc, pool := { d.pool with next := d.pool.next + 1 } } : ChunkedDecoder ρ)
      { d with start := 0, stop := 0, buffer := p'.alloc, pool := { p' with next := p'.next + 1 } } :=
    ⟨p'.alloc, _, rfl, by simp [Pool.alloc, h3.left.len, h3.right.len], rfl, hpool⟩
  simp only [ChunkedDecoder.pollFuel]
  split
  · refine RunRel.bind (pollReadInner_same (k := k) hcore hb) fun u v huv => ?_
    obtain ⟨e, r⟩ := u
    obtain ⟨e', r'⟩ := v
    obtain ⟨hr, hw, hd, -⟩ := huv
    dsimp only at hr hw hd
    subst hr
    cases r' with
    | err er => exact ⟨rfl, hd, fun hn => absurd rfl (hn er)⟩
    | res r =>
      cases r with
      | some read ns s t pend =>
        have hn := stepWin_alike hb hw
        obtain ⟨y, q', rfl, g1, g2, g3⟩ := hd
        dsimp only
        have fin : ∀ p : RPoll, PollRel
            ({ e with buffer := d.buffer, start := s, stop := t, state := ns }, p)
            ({ e with buffer := x, pool := q', start := s, stop := t, state := ns }, p) :=
          fun p => ⟨rfl, ⟨x, q', rfl, hn.len, hn.cap, g3⟩, fun _ => ⟨⟨x, q', rfl, hn.len, hn.cap, g3⟩, hn⟩⟩
        split
        · exact fin _
        · split
          · exact fin _
          · split
            · exact fin _
            · exact loop_same fuel ⟨y, q', rfl, g1, g2, g3⟩ hn
      | none => exact loop_same fuel hd hb
  · exact loop_same fuel hcore hb

/-! ## Through the body and the endpoint -/

/-- The bodies agree; `alive` is whether they may still be read. -/
def BodySame (alive : Bool) : ReqBody ρ → ReqBody ρ → Prop
  | .fixed r, .fixed r' => r' = r
  | .chunked r, .chunked r' => r'.buf = r.buf ∧ Core r.inner r'.inner ∧ (alive = true → Same r.inner r'.inner)
  | _, _ => False

/-- The result of a poll of the body on both sides. -/
def BodyPoll (x y : ReqBody ρ × RPoll) : Prop := y.2 = x.2 ∧ BodySame x.2.good x.1 y.1

theorem bodySame_io {alive : Bool} {b b' : ReqBody ρ} (h : BodySame alive b b') : b'.io = b.io := by
  match b, b', h with
  | .fixed r, .fixed r', h => cases h; rfl
  | .chunked r, .chunked r', h =>
    obtain ⟨-, ⟨x, p', h, -⟩, -⟩ := h
    simp only [ReqBody.io, h]

theorem pollRel_same {x y : ChunkedDecoder ρ × RPoll} (h : PollRel x y) (hg : x.2.good = true) : Same x.1 y.1 :=
  h.2.2 fun e he => by rw [he] at hg; cases hg

theorem bodyPoll_same {b b' : ReqBody ρ} (h : BodySame true b b') (k : Nat) :
    RunRel BodyPoll (pollRead b k) (pollRead b' k) := by
  match b, b', h with
  | .fixed r, .fixed r', h =>
    cases h
    show RunRel BodyPoll (pollRead r k >>= ReqBody.ofFixed) (pollRead r k >>= ReqBody.ofFixed)
    exact RunRel.bind_same fun x => ⟨rfl, rfl⟩
  | .chunked ⟨d, buf⟩, .chunked ⟨d', buf'⟩, h =>
    obtain ⟨h1, h2, h3⟩ := h
    dsimp only at h1 h2 h3
    subst h1
    have hs : ∀ m, RunRel PollRel (pollRead d m) (pollRead d' m) := fun m => pollFuel_same _ (h3 rfl)
    show RunRel BodyPoll (BufRd.read _ k >>= ReqBody.ofChunked) (BufRd.read _ k >>= ReqBody.ofChunked)
    simp only [BufRd.read]
    split
    · rw [Run.bind_assoc', Run.bind_assoc']
      refine RunRel.bind (hs k) fun x y hxy => ?_
      obtain ⟨hp, hc, -⟩ := id hxy
      exact ⟨hp, rfl, hc, pollRel_same hxy⟩
    · simp only [BufRd.fill]
      split
      · simp only [Run.bind_assoc']
        refine RunRel.bind (hs bufRdCap) fun x y hxy => ?_
        have hg := pollRel_same hxy
        obtain ⟨hp, hc, -⟩ := hxy
        obtain ⟨e, p⟩ := x
        obtain ⟨e', p'⟩ := y
        dsimp only at hp hc hg
        subst hp
        cases p' with
        | data bs => exact ⟨rfl, rfl, hc, hg⟩
        | err er => exact ⟨rfl, rfl, hc, hg⟩
        | pending => exact ⟨rfl, rfl, hc, hg⟩
      · exact ⟨rfl, rfl, h2, h3⟩

/-- The result of the rest of an endpoint on both sides. -/
def AfterRel (x y : ReqBody ρ × List Event × Option Glitch) : Prop := y.1.io = x.1.io ∧ y.2 = x.2

theorem runAfter_alike : ∀ {r : Bool} (a : After r) {alive : Bool} {b b' : ReqBody ρ}, a.Careful alive →
    BodySame alive b b' → RunRel AfterRel (runAfter a b) (runAfter a b')
  | _, .read k next, alive, b, b', ha, h => by
    obtain ⟨rfl, ha⟩ := ha
    simp only [runAfter]
    refine RunRel.bind (bodyPoll_same h k) fun x y hxy => ?_
    obtain ⟨c, p⟩ := x
    obtain ⟨c', p'⟩ := y
    obtain ⟨hp, hb⟩ := hxy
    dsimp only at hp hb
    subst hp
    refine RunRel.bind (runAfter_alike (next p') (ha p') hb) fun u v huv => ?_
    obtain ⟨h1, h2⟩ := huv
    exact ⟨h1, by simp only [h2]⟩
  | _, .ok, _, _, _, _, h => ⟨bodySame_io h, rfl⟩
  | _, .glitch _, _, _, _, _, h => ⟨bodySame_io h, rfl⟩

/-- The result of an endpoint on both sides. -/
def ProgRel (x y : ReqBody ρ × Writer × List Event × Option Glitch) : Prop := y.1.io = x.1.io ∧ y.2 = x.2

theorem runProg_alike {σ : Type} [AsyncBufRead σ] (env : Env) (fuel n : Nat) : ∀ (p : Prog σ) {alive : Bool} {b b' : ReqBody ρ} {w : Writer},
    p.Careful alive → BodySame alive b b' → RunRel ProgRel (runProg env fuel n p b w) (runProg env fuel n p b' w)
  | .read k next, alive, b, b', w, ha, h => by
    obtain ⟨rfl, ha⟩ := ha
    simp only [runProg]
    refine RunRel.bind (bodyPoll_same h k) fun x y hxy => ?_
    obtain ⟨c, p⟩ := x
    obtain ⟨c', p'⟩ := y
    obtain ⟨hp, hb⟩ := hxy
    dsimp only at hp hb
    subst hp
    refine RunRel.bind (runProg_alike env fuel n (next p') (ha p') hb) fun u v huv => ?_
    obtain ⟨h1, h2⟩ := huv
    exact ⟨h1, by simp only [h2]⟩
  | .send resp onOk onErr, alive, b, b', w, ha, h => by
    simp only [runProg]
    refine RunRel.bind_same fun x => ?_
    obtain ⟨w', r⟩ := x
    cases r with
    | err e =>
      refine RunRel.bind (runAfter_alike (onErr e) (ha.2 e) h) fun u v huv => ?_
      exact ⟨huv.1, by simp only [huv.2]⟩
    | ok a =>
      refine RunRel.bind (runAfter_alike (onOk a) (ha.1 a) h) fun u v huv => ?_
      exact ⟨huv.1, by simp only [huv.2]⟩
    | running => trivial
  | .sendFor steps resp onOk onErr onDrop, alive, b, b', w, ha, h => by
    simp only [runProg]
    refine RunRel.bind_same fun x => ?_
    obtain ⟨w', r⟩ := x
    cases r with
    | err e =>
      refine RunRel.bind (runAfter_alike (onErr e) (ha.2.1 e) h) fun u v huv => ?_
      exact ⟨huv.1, by simp only [huv.2]⟩
    | ok a =>
      refine RunRel.bind (runAfter_alike (onOk a) (ha.1 a) h) fun u v huv => ?_
      exact ⟨huv.1, by simp only [huv.2]⟩
    | running =>
      refine RunRel.bind (runAfter_alike onDrop ha.2.2 h) fun u v huv => ?_
      exact ⟨huv.1, by simp only [huv.2]⟩
  | .glitch g, _, _, _, _, _, h => ⟨bodySame_io h, rfl⟩

/-! ## Through the head -/

/-- The results of `decode` on both sides. -/
def DecSame : DecRes ρ → DecRes ρ → Prop
  | .request r, .request r' => r'.head = r.head ∧ r'.length = r.length ∧ BodySame true r.body r'.body
  | x, y => y = x

theorem new_same {pool pool' : Pool} (hp : SamePool pool pool') (r : BufRd ρ) :
    BodySame true (.chunked (BufRd.new (ChunkedDecoder.new r pool))) (.chunked (BufRd.new (ChunkedDecoder.new r pool'))) := by
  have hs : Same (ChunkedDecoder.new r pool) (ChunkedDecoder.new r pool') := by
    refine ⟨⟨pool'.alloc, _, rfl, by simp [ChunkedDecoder.new, Pool.alloc, hp.left.len, hp.right.len], rfl,
      ⟨hp.left.len, hp.left.grow⟩, ⟨hp.right.len, hp.right.grow⟩, hp.grow⟩, ?_, rfl, ?_⟩
    · simp [ChunkedDecoder.new, Pool.alloc, hp.left.len, hp.right.len]
    · simp [ChunkedDecoder.new]
  exact ⟨rfl, hs.1, fun _ => hs⟩

theorem finishDecode_same (uriOk : Bytes → Bool) {pool pool' : Pool} (hp : SamePool pool pool') (r : BufRd ρ) (p : Parsed) :
    DecSame (finishDecode uriOk pool r p) (finishDecode uriOk pool' r p) := by
  simp only [finishDecode]
  split
  · split
    · split
      · exact ⟨rfl, rfl, new_same hp r⟩
      · exact ⟨rfl, rfl, rfl⟩
    · rfl
  · rfl

/-- The results of polling `decode` on both sides. -/
def DecPollSame : DecPoll ρ → DecPoll ρ → Prop
  | .ready r, .ready r' => DecSame r r'
  | x, y => y = x

/-- The results of polling `decode` on both sides, with the writer. -/
def DecStep (x y : Writer × DecPoll ρ) : Prop := y.1 = x.1 ∧ DecPollSame x.2 y.2

theorem pollInterim_same (uriOk : Bytes → Bool) {pool pool' : Pool} (hp : SamePool pool pool') (r : BufRd ρ) (p : Parsed)
    (todo : Bytes) (w : Writer) :
    RunRel DecStep (pollInterim uriOk pool r p todo w) (pollInterim uriOk pool' r p todo w) := by
  simp only [pollInterim]
  refine RunRel.bind_same fun x => ?_
  obtain ⟨w', x⟩ := x
  cases x with
  | pending t => exact ⟨rfl, rfl⟩
  | err e => exact ⟨rfl, rfl⟩
  | done => exact ⟨rfl, finishDecode_same uriOk hp r p⟩

theorem decPoll_same (uriOk : Bytes → Bool) {pool pool' : Pool} (hp : SamePool pool pool') (fuel : Nat) (f : DecFut ρ)
    (w : Writer) : RunRel DecStep (f.poll uriOk pool fuel w) (f.poll uriOk pool' fuel w) := by
  cases f with
  | interim r p todo => exact pollInterim_same uriOk hp r p todo w
  | head r buf nread =>
    simp only [DecFut.poll]
    refine RunRel.bind_same fun h => ?_
    cases h with
    | pending r buf n => exact ⟨rfl, rfl⟩
    | lost r e => exact ⟨rfl, rfl⟩
    | none r => exact ⟨rfl, rfl⟩
    | head r buf =>
      dsimp only
      split
      · exact ⟨rfl, rfl⟩
      · exact pollInterim_same uriOk hp r _ _ w

/-- What awaiting `decode` gives on both sides. -/
def AwaitSame : Await ρ → Await ρ → Prop
  | .ready r, .ready r' => DecSame r r'
  | x, y => y = x

/-- What awaiting `decode` gives on both sides, with the writer and the clock. -/
def AwaitRel (x y : Writer × List Bool × Await ρ) : Prop := y.1 = x.1 ∧ y.2.1 = x.2.1 ∧ AwaitSame x.2.2 y.2.2

theorem awaitDecode_same {env env' : Env} (he : SameButPool env env') (opts : ServerOpts) (fuel : Nat) {pool pool' : Pool}
    (hp : SamePool pool pool') : ∀ (n : Nat) (f : DecFut ρ) (w : Writer) (clock : List Bool),
    RunRel AwaitRel (awaitDecode env opts fuel pool n f w clock) (awaitDecode env' opts fuel pool' n f w clock)
  | 0, _, _, _ => trivial
  | n + 1, f, w, clock => by
    simp only [awaitDecode, he.uriOk]
    refine RunRel.bind (decPoll_same env.uriOk hp fuel f w) fun x y hxy => ?_
    obtain ⟨w1, p⟩ := x
    obtain ⟨w2, p'⟩ := y
    obtain ⟨hw, hpp⟩ := hxy
    dsimp only at hw hpp
    subst hw
    match p, p', hpp with
    | .ready r, .ready r', h => exact ⟨rfl, rfl, h⟩
    | .pending f, _, h =>
      have h : _ = DecPoll.pending f := h
      subst h
      dsimp only
      split
      · split
        · exact ⟨rfl, rfl, rfl⟩
        · exact awaitDecode_same he opts fuel hp n f _ _
        · exact awaitDecode_same he opts fuel hp n f _ _
      · exact awaitDecode_same he opts fuel hp n f _ _

theorem runProg_env {σ : Type} [AsyncBufRead σ] {env env' : Env} (he : SameButPool env env') (fuel n : Nat) :
    ∀ (p : Prog σ) (b : ReqBody ρ) (w : Writer), runProg env' fuel n p b w = runProg env fuel n p b w
  | .read k next, b, w => by
    simp only [runProg]
    refine Run.bind_congr' fun x => ?_
    rw [runProg_env he fuel n (next x.2)]
  | .send resp onOk onErr, b, w => by simp only [runProg, sendFully, he.hexLen, he.now]
  | .sendFor steps resp onOk onErr onDrop, b, w => by simp only [runProg, he.hexLen, he.now]
  | .glitch g, b, w => rfl

theorem acceptStep_alike {σ : Type} [AsyncBufRead σ] {env env' : Env} (he : SameButPool env env') (opts : ServerOpts)
    {endpoint : Endpoint σ} (hc : ∀ head len, (endpoint head len).Careful true) (fuel n : Nat) (c : Conn ρ) :
    acceptStep env opts endpoint fuel n c = acceptStep env' opts endpoint fuel n c := by
  apply RunRel.eq
  simp only [acceptStep]
  refine RunRel.bind (awaitDecode_same he opts fuel (he.pool n) fuel _ _ _) fun x y hxy => ?_
  obtain ⟨w, clock, a⟩ := x
  obtain ⟨w', clock', a'⟩ := y
  obtain ⟨h1, h2, h3⟩ := hxy
  dsimp only at h1 h2 h3
  subst h1 h2
  match a, a', h3 with
  | .timedOut io, _, h => cases (show _ = Await.timedOut io from h); rfl
  | .ready (.none io), .ready _, h => cases (show _ = DecRes.none io from h); rfl
  | .ready (.fail f io), .ready _, h =>
    cases (show _ = DecRes.fail f io from h)
    simp only [answerFail, sendFully, he.hexLen, he.now]
    exact RunRel.refl (fun _ => rfl) _
  | .ready (.request r), .ready (.request r'), h =>
    obtain ⟨h1, h2, h3⟩ := h
    dsimp only
    rw [h1, h2, runProg_env he]
    refine RunRel.bind (runProg_alike env fuel n _ (hc _ _) h3) fun u v huv => ?_
    obtain ⟨b, w1, ev, g⟩ := u
    obtain ⟨b', w2, ev', g'⟩ := v
    obtain ⟨hi, h4⟩ := huv
    cases h4
    dsimp only at hi ⊢
    rw [hi]
    simp only [answerGlitch, sendFully, he.hexLen, he.now]
    exact RunRel.refl (fun _ => rfl) _

/-! ## The client -/

/-- The bodies of two responses agree. -/
def ReplySame (alive : Bool) : ReplyBody ρ → ReplyBody ρ → Prop
  | .empty, .empty => True
  | .stream b, .stream b' => BodySame alive b b'
  | _, _ => False

theorem replyPoll_same {b b' : ReplyBody ρ} (h : ReplySame true b b') (k : Nat) :
    RunRel (fun x y => y.2 = x.2 ∧ ReplySame x.2.good x.1 y.1) (pollRead b k) (pollRead b' k) := by
  match b, b', h with
  | .empty, .empty, _ => exact ⟨rfl, trivial⟩
  | .stream b, .stream b', h =>
    show RunRel _ (pollRead b k >>= ReplyBody.ofStream) (pollRead b' k >>= ReplyBody.ofStream)
    refine RunRel.bind (bodyPoll_same h k) fun x y hxy => ?_
    exact ⟨hxy.1, hxy.2⟩

theorem replyPolls_same : ∀ (ks : List Nat) {b b' : ReplyBody ρ}, ReplySame true b b' →
    RunRel (fun x y => y.2 = x.2) (polls b ks) (polls b' ks)
  | [], _, _, _ => rfl
  | k :: ks, b, b', h => by
    simp only [polls]
    refine RunRel.bind (replyPoll_same h k) fun x y hxy => ?_
    obtain ⟨c, p⟩ := x
    obtain ⟨c', p'⟩ := y
    obtain ⟨hp, hb⟩ := hxy
    dsimp only at hp hb
    subst hp
    cases p' with
    | err e => rfl
    | data bs =>
      refine RunRel.bind (replyPolls_same ks hb) fun u v huv => ?_
      show _ :: v.2 = _ :: u.2
      rw [huv]
    | pending =>
      refine RunRel.bind (replyPolls_same ks hb) fun u v huv => ?_
      show _ :: v.2 = _ :: u.2
      rw [huv]

/-- The responses agree. -/
def ResSame : ClientRes (ClientResponse ρ) → ClientRes (ClientResponse ρ) → Prop
  | .ok r, .ok r' => r'.status = r.status ∧ r'.headers = r.headers ∧ r'.length = r.length ∧ ReplySame true r.body r'.body
  | x, y => y = x

theorem setHead_same (code : Nat) (m : HeaderMap) {b b' : ReplyBody ρ} (len : Option Nat) (h : ReplySame true b b') :
    ResSame (ClientDecode.setHead code m b len) (ClientDecode.setHead code m b' len) := by
  simp only [ClientDecode.setHead]
  split
  · rfl
  · exact ⟨rfl, rfl, rfl, h⟩

theorem finish_same (now : Bytes) {pool pool' : Pool} (hp : SamePool pool pool') (r : BufRd ρ) (code : Nat) (m : HeaderMap) :
    ResSame (ClientDecode.finish now pool r code m) (ClientDecode.finish now pool' r code m) := by
  simp only [ClientDecode.finish]
  split
  · rfl
  · split
    · exact ⟨rfl, rfl, rfl, new_same hp r⟩
    · split
      · split
        · rfl
        · exact setHead_same _ _ _ (show ReplySame true (.stream (.fixed _)) (.stream (.fixed _)) from rfl)
      · exact setHead_same _ _ _ trivial

theorem seenBy_same {pool pool' : Pool} (hp : SamePool pool pool') {σ : Type} [AsyncRead σ] (now : Bytes) (fuel fuel' : Nat)
    (req : ClientRequest σ) (io : ρ) (w : Writer) (ks : List Nat) :
    (connect now pool fuel fuel' req io w >>= fun x => seenBy ks x.2 >>= fun s => .ret (x.1, s)) =
      (connect now pool' fuel fuel' req io w >>= fun x => seenBy ks x.2 >>= fun s => .ret (x.1, s)) := by
  apply RunRel.eq
  simp only [connect, Run.bind_assoc']
  refine RunRel.bind_same fun x => ?_
  obtain ⟨w', x⟩ := x
  cases x with
  | writing => exact rfl
  | failed e => exact rfl
  | sent =>
    simp only [ClientDecode.decode, Run.bind_assoc']
    refine RunRel.bind_same fun h => ?_
    cases h with
    | running buf => exact rfl
    | err e => exact rfl
    | head r buf =>
      dsimp only
      cases ClientDecode.parseHead buf with
      | err e => exact rfl
      | ok cm =>
        obtain ⟨code, m⟩ := cm
        simp only [Run.ret_bind]
        have hf := finish_same now hp r code m
        revert hf
        generalize ClientDecode.finish now pool r code m = a
        generalize ClientDecode.finish now pool' r code m = b
        intro hf
        match a, b, hf with
        | .err e, _, h => cases (show _ = ClientRes.err e from h); exact rfl
        | .ok r, .ok r', h =>
          obtain ⟨h1, h2, h3, h4⟩ := h
          simp only [seenBy, h1, h2, h3, Run.bind_assoc']
          refine RunRel.bind (replyPolls_same ks h4) fun u v huv => ?_
          show _ = _
          rw [huv]

end

end Tophat
