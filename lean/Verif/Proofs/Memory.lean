import Verif.Proofs.DecoderMain
import Verif.Spec.Memory
/-!
How large the buffer of the chunked decoder gets.  The first part is about arbitrary histories of reads, also after errors; it therefore does not use the
invariants of the decoder.  The second part uses them, for reads up to the end of the body.
-/

set_option linter.unusedSectionVars false

namespace Tophat
open Tophat.Spec Tophat.Httparse

namespace Mem

/-- A set of blocks that contains all blocks of the pool and is closed under what the decoder does with a block whose window ends at `M` or before. -/
structure Closed (p : Pool) (M : Nat) (B : Block → Prop) : Prop where
  alloc : ∀ n, B ⟨p.old n, initialCapacity⟩
  len : ∀ {b}, B b → b.data.length ≤ M
  data : ∀ {b} {l : Bytes}, B b → l.length = b.data.length → B ⟨l, b.cap⟩
  grow : ∀ {b}, B b → b.cap ≤ M → b.cap + 1024 ≤ maxCapacity → B ⟨b.data ++ List.replicate (b.cap + 1024 - b.data.length) 0, p.grow b.cap⟩

variable {ρ : Type} [AsyncRead ρ]

/-- The decoder holds a block of the set. -/
structure Inv (p : Pool) (M : Nat) (B : Block → Prop) (d : ChunkedDecoder ρ) : Prop where
  block : B d.buffer
  stop : d.stop ≤ M
  pool : d.pool.old = p.old ∧ d.pool.grow = p.grow

theorem writeAt_length {buf bs l : Bytes} {off : Nat} (h : writeAt buf off bs = .ret l) : l.length = buf.length ∧ off + bs.length ≤ buf.length := by
  unfold writeAt at h
  split at h
  · cases h
    simp only [List.length_append, List.length_take, List.length_drop]
    omega
  · cases h

variable {p : Pool} {M : Nat} {B : Block → Prop}

/-- What a step of the state machine leaves alone. -/
theorem inner_keeps {d d' : ChunkedDecoder ρ} {b : Block} {s e k : Nat} {r : DStep} (h : d.pollReadInner b s e k = .ret (d', r)) :
    d'.buffer = d.buffer ∧ d'.stop = d.stop ∧ d'.pool = d.pool ∧ ∀ read st s' e' q, r = .res (.some read st s' e' q) → e' = e ∨ e' = 0 := by
  unfold ChunkedDecoder.pollReadInner at h
  split at h
  · obtain ⟨x, h1, h2⟩ := Run.bind_eq_ret.1 h
    cases h2
    refine ⟨rfl, rfl, rfl, ?_⟩
    rintro read st s' e' q rfl
    unfold ChunkedDecoder.decodeInit at h1
    obtain ⟨y, -, h1⟩ := Run.bind_eq_ret.1 h1
    split at h1
    · cases h1; exact .inl rfl
    · cases h1
    · cases h1
  · unfold ChunkedDecoder.pollReadChunk at h
    dsimp only at h
    split at h
    · obtain ⟨y, -, h1⟩ := Run.bind_eq_ret.1 h
      cases h1
      refine ⟨rfl, rfl, rfl, ?_⟩
      rintro read st s' e' q h
      injection h with h; injection h with _ _ _ h _
      subst h
      split
      · exact .inr rfl
      · exact .inl rfl
    · obtain ⟨y, -, h1⟩ := Run.bind_eq_ret.1 h
      split at h1
      all_goals
        cases h1
        refine ⟨rfl, rfl, rfl, ?_⟩
        rintro read st s' e' q h
      · injection h with h; injection h with _ _ _ h _
        exact .inl h.symm
      · cases h
      · injection h with h; injection h with _ _ _ h _
        exact .inl h.symm
  · obtain ⟨x, h1, h2⟩ := Run.bind_eq_ret.1 h
    cases h2
    refine ⟨rfl, rfl, rfl, ?_⟩
    rintro read st s' e' q rfl
    unfold ChunkedDecoder.decodeChunkEnd at h1
    split at h1
    · cases h1
    · obtain ⟨y, -, h1⟩ := Run.bind_eq_ret.1 h1
      split at h1
      · cases h1; exact .inl rfl
      · cases h1
  · obtain ⟨x, h1, h2⟩ := Run.bind_eq_ret.1 h
    cases h2
    refine ⟨rfl, rfl, rfl, ?_⟩
    rintro read st s' e' q rfl
    unfold ChunkedDecoder.decodeTrailer at h1
    obtain ⟨y, -, h1⟩ := Run.bind_eq_ret.1 h1
    split at h1
    · split at h1
      · cases h1; exact .inl rfl
      · cases h1
    · cases h1
    · cases h1
  · split at h
    · cases h
      refine ⟨rfl, rfl, rfl, ?_⟩
      rintro read st s' e' q h
      injection h with h; injection h with _ _ _ h _
      exact .inl h.symm
    · cases h
  · cases h
    refine ⟨rfl, rfl, rfl, ?_⟩
    rintro read st s' e' q h
    injection h with h; injection h with _ _ _ h _
    exact .inl h.symm
  · cases h
    refine ⟨rfl, rfl, rfl, ?_⟩
    rintro read st s' e' q h
    injection h with h; injection h with _ _ _ h _
    exact .inl h.symm

theorem fill_keeps (hB : Closed p M B) {d : ChunkedDecoder ρ} (hd : Inv p M B d) {b : Block} (hb : B b) {s e : Nat} (he : e ≤ M) {nr : Bool} {f : ChunkedDecoder.Fill ρ}
    (h : d.fill b s e nr = .ret f) :
    match f with
    | .quit d' _ => Inv p M B d'
    | .go d' b' e' => Inv p M B d' ∧ B b' ∧ e' ≤ M := by
  cases nr with
  | true =>
    simp only [ChunkedDecoder.fill, ChunkedDecoder.readMore] at h
    by_cases hl : e ≤ b.data.length
    · rw [if_pos hl] at h
      obtain ⟨⟨i, q⟩, -, h1⟩ := Run.bind_eq_ret.1 h
      dsimp only at h1
      split at h1
      · cases h1; exact ⟨hd.block, hd.stop, hd.pool⟩
      · cases h1; exact ⟨hb, he, hd.pool⟩
      · obtain ⟨l, h2, h3⟩ := Run.bind_eq_ret.1 h1
        cases h3
        obtain ⟨h4, h5⟩ := writeAt_length h2
        refine ⟨?_, hB.data hb h4, Nat.le_trans h5 (hB.len hb)⟩
        split
        · exact ⟨hd.block, hd.stop, hd.pool⟩
        · exact ⟨hd.block, hd.stop, hd.pool⟩
    · rw [if_neg hl] at h; cases h
  | false => cases h; exact ⟨hd, hb, he⟩

theorem loop_keeps (hB : Closed p M B) (k : Nat) : ∀ (fuel : Nat) {d d' : ChunkedDecoder ρ} {b : Block} {s e : Nat} {nr : Bool} {r : RPoll}, Inv p M B d → B b → e ≤ M →
    ChunkedDecoder.loop fuel d b s e nr k = .ret (d', r) → Inv p M B d' := by
  intro fuel
  induction fuel with
  | zero => intro d d' b s e nr r _ _ _ h; cases h
  | succ fuel ih =>
    intro d d' b s e nr r hd hb he h
    simp only [ChunkedDecoder.loop] at h
    split at h
    · cases h; exact ⟨hb, he, hd.pool⟩
    · rename_i hg
      obtain ⟨f, h1, h2⟩ := Run.bind_eq_ret.1 h
      have hb1 : B (if e - s ≥ b.cap then b.realloc d.pool else b) := by
        split
        · unfold Block.realloc
          rw [hd.pool.2]
          refine hB.grow hb (by omega) ?_
          rename_i h0
          rcases Nat.lt_or_ge maxCapacity (b.cap + 1024) with h3 | h3
          · exact absurd ⟨h0, by omega⟩ hg
          · exact h3
        · exact hb
      have hf := fill_keeps hB hd hb1 he h1
      cases f with
      | quit d1 q => cases h2; exact hf
      | go d1 b1 e1 =>
        obtain ⟨hd1, hb2, he1⟩ := hf
        dsimp only at h2
        obtain ⟨⟨d2, x⟩, h3, h4⟩ := Run.bind_eq_ret.1 h2
        obtain ⟨k1, k2, k3, k4⟩ := inner_keeps h3
        have hd2 : Inv p M B d2 := ⟨by rw [k1]; exact hd1.block, by rw [k2]; exact hd1.stop, by rw [k3]; exact hd1.pool⟩
        cases x with
        | err er => cases h4; exact hd2
        | res x =>
          cases x with
          | some read st s2 e2 q =>
            have he2 : e2 ≤ M := by rcases k4 _ _ _ _ _ rfl with h | h <;> omega
            dsimp only at h4
            split at h4
            · cases h4; exact ⟨hb2, he2, hd2.pool⟩
            · split at h4
              · cases h4; exact ⟨hb2, he2, hd2.pool⟩
              · split at h4
                · cases h4; exact ⟨hb2, he2, hd2.pool⟩
                · exact ih (d := { d2 with initialDecode := true, state := st, start := s2, stop := e2 }) ⟨hd2.block, he2, hd2.pool⟩ hb2 he2 h4
          | none =>
            dsimp only at h4
            split at h4
            · cases h4; exact ⟨hb2, he1, hd2.pool⟩
            · exact ih hd2 hb2 he1 h4

theorem poll_keeps (hB : Closed p M B) {fuel k : Nat} {d d' : ChunkedDecoder ρ} {r : RPoll} (hd : Inv p M B d) (h : d.pollFuel fuel k = .ret (d', r)) : Inv p M B d' := by
  unfold ChunkedDecoder.pollFuel at h
  dsimp only at h
  have hd0 : Inv p M B { d with start := 0, stop := 0, buffer := d.pool.alloc, pool := { d.pool with next := d.pool.next + 1 } } := by
    refine ⟨?_, Nat.zero_le _, hd.pool⟩
    show B d.pool.alloc
    unfold Pool.alloc
    rw [hd.pool.1]
    exact hB.alloc _
  split at h
  · obtain ⟨⟨d1, x⟩, h1, h2⟩ := Run.bind_eq_ret.1 h
    obtain ⟨k1, k2, k3, k4⟩ := inner_keeps h1
    have hd1 : Inv p M B d1 := ⟨by rw [k1]; exact hd0.block, by rw [k2]; exact hd0.stop, by rw [k3]; exact hd0.pool⟩
    cases x with
    | err er => cases h2; exact hd1
    | res x =>
      cases x with
      | some read st s2 e2 q =>
        have he2 : e2 ≤ M := by have := hd.stop; rcases k4 _ _ _ _ _ rfl with h | h <;> omega
        dsimp only at h2
        split at h2
        · cases h2; exact ⟨hd.block, he2, hd1.pool⟩
        · split at h2
          · cases h2; exact ⟨hd.block, he2, hd1.pool⟩
          · split at h2
            · cases h2; exact ⟨hd.block, he2, hd1.pool⟩
            · exact loop_keeps hB k fuel (d := { d1 with state := st, start := s2, stop := e2 }) ⟨hd1.block, he2, hd1.pool⟩ hd.block he2 h2
      | none => exact loop_keeps hB k fuel hd1 hd.block hd.stop h2
  · exact loop_keeps hB k fuel hd0 hd.block hd.stop h

end Mem

namespace Dec

theorem unfinished_init {S D : Bytes} {g : G} (h : Inv S g D) (hs : Stuck g.st g.win) (hd : g.st ≠ .done) : g.win.length < 2 ∨ Unfinished S g.win := by
  obtain ⟨c, rfl, hr⟩ := h
  cases hst : g.st with
  | init =>
    rw [hst] at hr hs
    refine .inr (.size hr.1 fun l n hl => ?_)
    rintro ⟨z, hz⟩
    have hs : parseChunkSize g.win = .part := hs
    rw [(parseChunkSize_ok g.win z n).2 ⟨l, hz.symm, hl⟩] at hs
    cases hs
  | trailer =>
    rw [hst] at hr hs
    obtain ⟨w, l, h1, h2, rfl, -⟩ := hr
    have : Unfinished (w ++ (l ++ (g.win ++ g.R))) g.win := by
      refine .trailer h1 h2 fun t fs ht hn => ?_
      rintro ⟨z, hz⟩
      have hs : parseHeaders 16 g.win = .part := hs
      rw [(parseHeaders_ok 16 g.win z fs).2 ⟨t, hz.symm, ht, hn⟩] at hs
      cases hs
    rw [List.append_assoc]
    exact .inr this
  | chunkEnd => rw [hst] at hs; exact .inl hs
  | done => exact absurd hst hd
  | chunk => rw [hst] at hs; exact hs.elim
  | trailerDone => rw [hst] at hs; exact hs.elim
  | trailerSending => rw [hst] at hs; exact hs.elim

/-- The buffer is not larger than it has to be. -/
structure MemInv (S : Bytes) (g : G) : Prop where
  win : g.start + g.win.length ≤ g.size
  cap : g.size ≤ g.cap
  pos : 4096 ≤ g.size
  bound : g.size ≤ 4096 ∨ ∃ w, Unfinished S w ∧ 4096 ≤ w.length ∧ g.size ≤ w.length + 1024
  late : ∀ h, g.st = .trailerDone h ∨ g.st = .trailerSending h → 0 < g.start
  ended : g.st = .done → 0 < g.start ∨ g.win.length < g.cap ∧ g.start + g.win.length = g.size ∨ g.R = [] ∧ (g.win.length < 2 ∨ Unfinished S g.win)

theorem MemInv.step {S D x : Bytes} {g g' : G} (hi : Inv S g D) (h : MemInv S g) (ht : Trans g x g') : MemInv S g' := by
  have h1 := h.win
  have h2 := h.cap
  have h3 := h.pos
  cases ht with
  | grow c a b c1 c2 =>
    have hu : Unfinished S g.win := by
      by_cases hd : g.st = .done
      · rcases h.ended hd with k | k | ⟨-, k | k⟩
        · omega
        · omega
        · omega
        · exact k
      · rcases unfinished_init hi a hd with k | k
        · omega
        · exact k
    refine ⟨?_, c1, ?_, .inr ⟨_, hu, ?_, ?_⟩, fun m hm => h.late m hm, fun hd => ?_⟩
    · show g.start + g.win.length ≤ g.cap + 1024; omega
    · show 4096 ≤ g.cap + 1024; omega
    · omega
    · show g.cap + 1024 ≤ g.win.length + 1024; omega
    · rcases h.ended hd with k | k | k
      · exact .inl k
      · omega
      · exact .inr (.inr k)
  | refill bs R' a b c d =>
    have hl := List.length_pos_iff.2 c
    refine ⟨?_, h2, h3, h.bound, fun m hm => h.late m hm, fun hd => ?_⟩
    · show g.start + (g.win ++ bs).length ≤ g.size
      rw [List.length_append]; omega
    · rcases h.ended hd with k | k | ⟨k, -⟩
      · exact .inl k
      · omega
      · rw [k] at b
        have := congrArg List.length b
        simp only [List.length_nil, List.length_append] at this
        omega
  | eof a b =>
    refine ⟨h1, h2, h3, h.bound, fun m hm => by (rcases hm with hm | hm <;> cases hm), fun _ => ?_⟩
    by_cases hd : g.st = .done
    · exact h.ended hd
    · rcases b with ⟨b, -⟩ | ⟨b, b'⟩
      · exact .inr (.inr ⟨b, (unfinished_init hi a hd : g.win.length < 2 ∨ Unfinished S g.win)⟩)
      · exact .inr (.inl ⟨b', b⟩)
  | size l w n a b c =>
    have e := congrArg List.length b
    rw [List.length_append] at e
    refine ⟨?_, h2, h3, h.bound, ?_, ?_⟩
    · show g.start + l.length + w.length ≤ g.size; omega
    · intro m hm
      dsimp only at hm
      split at hm <;> rcases hm with hm | hm <;> cases hm
    · intro hd
      dsimp only at hd
      split at hd <;> cases hd
  | drain cur len y w a b c d =>
    have e := congrArg List.length b
    rw [List.length_append] at e
    refine ⟨?_, h2, h3, h.bound, ?_, ?_⟩
    · show (if w = [] then 0 else g.start + x.length) + w.length ≤ g.size
      split
      · rename_i hw; rw [hw]; simp only [List.length_nil]; omega
      · omega
    · intro m hm
      dsimp only [chunkState] at hm
      split at hm <;> rcases hm with hm | hm <;> cases hm
    · intro hd
      dsimp only [chunkState] at hd
      split at hd <;> cases hd
  | direct cur len y R' a b c d e =>
    refine ⟨h1, h2, h3, h.bound, ?_, ?_⟩
    · intro m hm
      dsimp only [chunkState] at hm
      split at hm <;> rcases hm with hm | hm <;> cases hm
    · intro hd
      dsimp only [chunkState] at hd
      split at hd <;> cases hd
  | cut cur len a b c d =>
    refine ⟨h1, h2, h3, h.bound, fun m hm => by (rcases hm with hm | hm <;> cases hm), fun _ => .inr (.inr ⟨c, .inl ?_⟩)⟩
    show g.win.length < 2
    rw [b]; decide
  | chunkEnd w a b =>
    have e := congrArg List.length b
    simp only [List.length_cons] at e
    refine ⟨?_, h2, h3, h.bound, fun m hm => by (rcases hm with hm | hm <;> cases hm), fun hd => by cases hd⟩
    show g.start + 2 + w.length ≤ g.size
    omega
  | trailer l w fs a b c d =>
    have e := congrArg List.length b
    rw [List.length_append] at e
    refine ⟨?_, h2, h3, h.bound, fun m hm => section_pos c _, fun hd => by cases hd⟩
    show g.start + l.length + w.length ≤ g.size
    omega
  | take m a => exact ⟨h1, h2, h3, h.bound, fun _ _ => h.late m (.inl a), fun hd => by cases hd⟩
  | send m a => exact ⟨h1, h2, h3, h.bound, fun m hm => by (rcases hm with hm | hm <;> cases hm), fun _ => .inl (h.late m (.inr a))⟩

theorem MemInv.steps {S D x : Bytes} {g g' : G} (hi : Inv S g D) (h : MemInv S g) (ht : Steps g x g') : MemInv S g' := by
  induction ht with
  | refl => exact h
  | tail h1 h2 ih => exact ih.step (hi.steps h1) h2

theorem memInv_new {ρ : Type} [AsyncRead ρ] [LawfulRead ρ] (inner : ρ) {pool : Pool} (hp : pool.Ok) (S : Bytes) : MemInv S (abs (ChunkedDecoder.new inner pool)) := by
  have e : (pool.old pool.next).length = 4096 := hp.len _
  refine ⟨?_, ?_, ?_, .inl ?_, fun m hm => by (rcases hm with hm | hm <;> cases hm), fun hd => by cases hd⟩
  · simp [abs, conf, ChunkedDecoder.new, window]
  · show (pool.old pool.next).length ≤ 4096; omega
  · show 4096 ≤ (pool.old pool.next).length; omega
  · show (pool.old pool.next).length ≤ 4096; omega

/-- Complete chunks at the beginning of a body with short lines leave such a body. -/
theorem shortLines_frames {f : Nat} {c p : Bytes} (hc : Frames c p) : ∀ {s r y : Bytes}, ShortLines f s → c ++ y = s ++ r → ∃ s', ShortLines f s' ∧ y = s' ++ r := by
  induction hc with
  | nil => intro s r y hs e; exact ⟨s, hs, e⟩
  | @cons l d w p hl hd _ ih =>
    intro s r y hs e
    simp only [List.append_assoc, List.cons_append] at e
    cases hs with
    | last h1 _ _ _ _ =>
      rw [List.append_assoc] at e
      obtain ⟨k, -, -⟩ := line_det hl h1 e
      exact absurd (List.length_eq_zero_iff.1 k) hd
    | @chunk l' d' s' h1 h2 h3 h4 =>
      simp only [List.append_assoc, List.cons_append] at e
      obtain ⟨k, e, -⟩ := line_det hl h1 e
      obtain ⟨-, e⟩ := List.append_inj e k
      exact ih h4 (by simpa using e)

/-- There is nothing unfinished of that length in it. -/
theorem shortLines_finished {f : Nat} {s r w : Bytes} (hs : ShortLines f s) (hu : Unfinished (s ++ r) w) : w.length < f := by
  rcases Nat.lt_or_ge w.length f with h | h
  · exact h
  · exfalso
    have pre : ∀ {l y z : Bytes}, l ++ y = w ++ z → l.length ≤ f → l <+: w := fun {l y z} e hl =>
      List.prefix_of_prefix_length_le (⟨y, e⟩ : l <+: w ++ z) (List.prefix_append _ _) (by omega)
    generalize hS : s ++ r = S at hu
    cases hu with
    | @size c p _ r' hc hn =>
      obtain ⟨s', h1, h2⟩ := shortLines_frames hc hs hS.symm
      cases h1 with
      | last k1 k2 _ _ _ => exact hn _ _ k1 (pre (by rw [h2, List.append_assoc]) k2)
      | chunk k1 _ k2 _ => exact hn _ _ k1 (pre (by rw [h2, List.append_assoc]) k2)
    | @trailer c p l _ r' hc hl hn =>
      obtain ⟨s', h1, h2⟩ := shortLines_frames hc hs hS.symm
      cases h1 with
      | last k1 k2 k3 k4 k5 =>
        rw [List.append_assoc] at h2
        obtain ⟨-, h2, -⟩ := line_det hl k1 h2
        exact hn _ _ k3 k4 (pre h2.symm k5)
      | chunk k1 k0 k2 _ =>
        rw [List.append_assoc] at h2
        obtain ⟨k, -, -⟩ := line_det hl k1 h2
        exact absurd (List.length_eq_zero_iff.1 k.symm) k0

end Dec
end Tophat
