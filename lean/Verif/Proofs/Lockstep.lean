import Verif.Proofs.DecoderCut
/-! Two readers that answer alike for a while, and what is built upon them. -/

set_option linter.unusedSectionVars false

namespace Tophat
open Spec

/-- How often the readers still agree on `Pending`, after an answer. -/
def left (n : Nat) (p : RPoll) : Nat := if p = .pending then n else n + 1

/-- Both return the same answer, or neither returns. -/
inductive Par {δ δ' : Type} (S : Nat → δ → δ' → Prop) (n : Nat) : Run (δ × RPoll) → Run (δ' × RPoll) → Prop
  | ret {d d' p} : S (left n p) d d' → Par S n (.ret (d, p)) (.ret (d', p))
  | panic : Par S n .panic .panic
  | diverge : Par S n .diverge .diverge

/-- `S n r r'`: the readers answer alike until they have been `Pending` `n` times. -/
structure Lock {ρ ρ' : Type} [AsyncRead ρ] [AsyncRead ρ'] (S : Nat → ρ → ρ' → Prop) : Prop where
  less : ∀ {n r r'}, S (n + 1) r r' → S n r r'
  step : ∀ {n r r'}, S (n + 1) r r' → ∀ k, Par S n (pollRead r k) (pollRead r' k)

section
variable {ρ ρ' : Type} [AsyncRead ρ] [AsyncRead ρ'] {S : Nat → ρ → ρ' → Prop}

/-- Buffers with the same content in front of readers that answer alike. -/
inductive BufS (S : Nat → ρ → ρ' → Prop) (n : Nat) : BufRd ρ → BufRd ρ' → Prop
  | mk {r r' b} : S n r r' → BufS S n ⟨r, b⟩ ⟨r', b⟩

theorem Lock.buf (h : Lock S) : Lock (BufS S) where
  less := by rintro n _ _ ⟨x⟩; exact ⟨h.less x⟩
  step := by
    rintro n _ _ ⟨x⟩ k
    rename_i r r' b
    show Par _ _ (BufRd.read _ k) (BufRd.read _ k)
    unfold BufRd.read
    dsimp only
    split
    · have := h.step x k
      generalize pollRead r k = y at this ⊢
      generalize pollRead r' k = y' at this ⊢
      cases this with
      | ret z => exact .ret (.mk z)
      | panic => exact .panic
      | diverge => exact .diverge
    · unfold BufRd.fill
      dsimp only
      split
      · have := h.step x bufRdCap
        generalize pollRead r bufRdCap = y at this ⊢
        generalize pollRead r' bufRdCap = y' at this ⊢
        cases this with
        | @ret _ _ p z =>
          cases p with
          | pending => exact .ret (.mk z)
          | err e => exact .ret (.mk z)
          | data bs => exact .ret (.mk z)
        | panic => exact .panic
        | diverge => exact .diverge
      · exact .ret (.mk x)

/-- Decoders in the same state in front of readers that answer alike. -/
inductive DecS (S : Nat → ρ → ρ' → Prop) (n : Nat) : ChunkedDecoder ρ → ChunkedDecoder ρ' → Prop
  | mk {d r'} : S n d.inner r' → DecS S n d (d.on fun _ => r')

namespace ChunkedDecoder

/-- How often the readers still agree, after a step. -/
def stepLeft (n : Nat) : DStep → Nat
  | .res (.some x s _ _ true) => if x = [] ∧ s ≠ .done then n else n + 1
  | _ => n + 1

/-- `Par` for steps of the decoder. -/
inductive ParS (S : Nat → ρ → ρ' → Prop) (n : Nat) : Run (ChunkedDecoder ρ × DStep) → Run (ChunkedDecoder ρ' × DStep) → Prop
  | ret {d r' s} : S (stepLeft n s) d.inner r' → ParS S n (.ret (d, s)) (.ret (d.on fun _ => r', s))
  | panic : ParS S n .panic .panic
  | diverge : ParS S n .diverge .diverge

/-- `Par` for reading more. -/
inductive ParF (S : Nat → ρ → ρ' → Prop) (n : Nat) : Run (Fill ρ) → Run (Fill ρ') → Prop
  | quit {d r' p} : S (left n p) d.inner r' → ParF S n (.ret (.quit d p)) (.ret (.quit (d.on fun _ => r') p))
  | go {d r' b s} : S (n + 1) d.inner r' → ParF S n (.ret (.go d b s)) (.ret (.go (d.on fun _ => r') b s))
  | panic : ParF S n .panic .panic
  | diverge : ParF S n .diverge .diverge

theorem step_lock (h : Lock S) {n : Nat} {d : ChunkedDecoder ρ} {r' : ρ'} (hs : S (n + 1) d.inner r') (buffer : Block) (start stop k : Nat) :
    ParS S n (d.pollReadInner buffer start stop k) ((d.on fun _ => r').pollReadInner buffer start stop k) := by
  unfold pollReadInner
  have hst : (d.on fun _ => r').state = d.state := rfl
  rw [hst]
  have pure : ∀ (m : Run DStep), (∀ s, m = .ret s → stepLeft n s = n + 1) → ParS S n (m >>= fun r => .ret (d, r)) (m >>= fun r => .ret (d.on fun _ => r', r)) := by
    intro m hm
    cases m with
    | ret s => exact .ret (by rw [hm s rfl]; exact hs)
    | panic => exact .panic
    | diverge => exact .diverge
  split
  · refine pure _ fun s hs => ?_
    unfold decodeInit at hs
    obtain ⟨w, -, h2⟩ := Run.bind_eq_ret.1 hs
    split at h2 <;> injection h2 with h2 <;> subst h2 <;> rfl
  · rename_i cur len _
    unfold pollReadChunk
    dsimp only
    split
    · cases slice buffer.data start (start + min (min (len - cur) k) (stop - start)) with
      | ret x => exact .ret hs
      | panic => exact .panic
      | diverge => exact .diverge
    · have := h.step hs (min (len - cur) k)
      show ParS S n (pollRead d.inner _ >>= _) (pollRead r' _ >>= _)
      generalize pollRead d.inner (min (len - cur) k) = y at this ⊢
      generalize pollRead r' (min (len - cur) k) = y' at this ⊢
      cases this with
      | @ret r1 r1' p z =>
        cases p with
        | pending => exact ParS.ret (d := { d with inner := r1 }) (r' := r1') z
        | err e => exact ParS.ret (d := { d with inner := r1 }) (r' := r1') z
        | data bs => exact ParS.ret (d := { d with inner := r1 }) (r' := r1') z
      | panic => exact .panic
      | diverge => exact .diverge
  · refine pure _ fun s hs => ?_
    unfold decodeChunkEnd at hs
    split at hs
    · injection hs with hs; subst hs; rfl
    · obtain ⟨w, -, h2⟩ := Run.bind_eq_ret.1 hs
      split at h2 <;> injection h2 with h2 <;> subst h2 <;> rfl
  · refine pure _ fun s hs => ?_
    unfold decodeTrailer at hs
    obtain ⟨w, -, h2⟩ := Run.bind_eq_ret.1 hs
    split at h2
    · split at h2 <;> injection h2 with h2 <;> subst h2 <;> rfl
    · injection h2 with h2; subst h2; rfl
    · injection h2 with h2; subst h2; rfl
  · rename_i hd _
    by_cases hx : d.hasSender
    · rw [if_pos hx, if_pos (show (d.on fun _ => r').hasSender = true from hx)]
      exact ParS.ret (d := { d with hasSender := false, state := .trailerDone [] }) (r' := r') hs
    · rw [if_neg hx, if_neg (show ¬ (d.on fun _ => r').hasSender = true from hx)]
      exact .panic
  · rename_i hd _
    exact ParS.ret (d := { d with sent := d.sent ++ [hd] }) (r' := r') hs
  · exact .ret hs

theorem fill_lock (h : Lock S) {n : Nat} {d : ChunkedDecoder ρ} {r' : ρ'} (hs : S (n + 1) d.inner r') (buffer : Block) (start stop : Nat) (nr : Bool) :
    ParF S n (d.fill buffer start stop nr) ((d.on fun _ => r').fill buffer start stop nr) := by
  unfold fill
  cases nr with
  | false => exact .go hs
  | true =>
    dsimp only
    unfold readMore
    split
    · have := h.step hs (buffer.data.length - stop)
      show ParF S n (pollRead d.inner _ >>= _) (pollRead r' _ >>= _)
      generalize pollRead d.inner (buffer.data.length - stop) = y at this ⊢
      generalize pollRead r' (buffer.data.length - stop) = y' at this ⊢
      cases this with
      | @ret r1 r1' p z =>
        cases p with
        | pending => exact ParF.quit (d := { d with inner := r1, initialDecode := false, buffer := buffer, start := start, stop := stop }) (r' := r1') z
        | err e => exact ParF.quit (d := { d with inner := r1 }) (r' := r1') z
        | data bs =>
          simp only [Run.ret_bind]
          cases writeAt buffer.data stop bs with
          | ret x =>
            simp only [Run.ret_bind]
            by_cases hb : bs.length = 0
            · simp only [if_pos hb]
              exact ParF.go (d := { d with inner := r1, state := .done }) (r' := r1') z
            · simp only [if_neg hb]
              exact ParF.go (d := { d with inner := r1 }) (r' := r1') z
          | panic => exact .panic
          | diverge => exact .diverge
      | panic => exact .panic
      | diverge => exact .diverge
    · exact .panic

theorem stepLeft_some {n : Nat} {x : Bytes} {s : DState} {a b : Nat} {pd : Bool} (hn : ¬ (pd = true ∧ x = [] ∧ s ≠ .done)) : stepLeft n (.res (.some x s a b pd)) = n + 1 := by
  cases pd with
  | false => rfl
  | true => simp only [stepLeft]; rw [if_neg (fun h => hn ⟨rfl, h⟩)]

theorem loop_lock (h : Lock S) {n : Nat} (fuel : Nat) : ∀ {d : ChunkedDecoder ρ} {r' : ρ'}, S (n + 1) d.inner r' → ∀ (buffer : Block) (start stop : Nat) (nr : Bool) (k : Nat),
    Par (DecS S) n (loop fuel d buffer start stop nr k) (loop fuel (d.on fun _ => r') buffer start stop nr k) := by
  induction fuel with
  | zero => intros; exact .diverge
  | succ fuel ih =>
    intro d r' hs buffer start stop nr k
    simp only [loop]
    split
    · exact Par.ret (p := .err .tooLarge) (DecS.mk (d := { d with buffer := buffer, start := start, stop := stop }) hs)
    · have hpool : (d.on fun _ => r').pool = d.pool := rfl
      rw [hpool]
      generalize (if stop - start ≥ buffer.cap then buffer.realloc d.pool else buffer) = B
      have := fill_lock h hs B start stop nr
      generalize d.fill B start stop nr = y at this ⊢
      generalize (d.on fun _ => r').fill B start stop nr = y' at this ⊢
      cases this with
      | panic => exact .panic
      | diverge => exact .diverge
      | quit z => exact .ret (.mk z)
      | @go d1 r1' B1 stop1 z =>
        simp only [Run.ret_bind]
        have := step_lock h z B1 start stop1 k
        generalize d1.pollReadInner B1 start stop1 k = u at this ⊢
        generalize (d1.on fun _ => r1').pollReadInner B1 start stop1 k = u' at this ⊢
        cases this with
        | panic => exact .panic
        | diverge => exact .diverge
        | @ret d2 r2' s v =>
          simp only [Run.ret_bind]
          cases s with
          | err e => exact .ret (.mk v)
          | res r =>
            cases r with
            | none =>
              dsimp only
              have hbuf : (d2.on fun _ => r2').buffer = d2.buffer := rfl
              rw [hbuf]
              split
              · exact Par.ret (p := .data []) (DecS.mk (d := { d2 with initialDecode := false, buffer := B1, start := start, stop := stop1 }) v)
              · exact ih v _ _ _ _ _
            | some x ns a b pd =>
              dsimp only
              split
              · rename_i hd
                rw [stepLeft_some (fun h => h.2.2 hd)] at v
                exact Par.ret (p := .data x) (DecS.mk (d := { d2 with initialDecode := true, state := ns, start := a, stop := b, buffer := B1 }) v)
              · split
                · rename_i hl
                  rw [stepLeft_some (fun h => by rw [h.2.1] at hl; simp at hl)] at v
                  exact Par.ret (p := .data x) (DecS.mk (d := { d2 with initialDecode := true, state := ns, start := a, stop := b, buffer := B1 }) v)
                · rename_i hd hl
                  split
                  · rename_i hp
                    have hx : x = [] := List.length_eq_zero_iff.1 (by omega)
                    subst hp hx
                    simp only [stepLeft] at v
                    rw [if_pos ⟨trivial, hd⟩] at v
                    exact Par.ret (p := .pending) (DecS.mk (d := { d2 with initialDecode := true, state := ns, start := a, stop := b, buffer := B1 }) v)
                  · rename_i hp
                    rw [stepLeft_some (fun h => hp h.1)] at v
                    exact ih (d := { d2 with initialDecode := true, state := ns, start := a, stop := b }) v _ _ _ _ _

end ChunkedDecoder

open ChunkedDecoder in
theorem Lock.dec (h : Lock S) : Lock (DecS S) where
  less := by rintro n _ _ ⟨x⟩; exact ⟨h.less x⟩
  step := by
    rintro n _ _ ⟨hs⟩ k
    rename_i d r'
    show Par _ _ (d.pollFuel loopFuel k) ((d.on fun _ => r').pollFuel loopFuel k)
    generalize loopFuel = fuel
    unfold pollFuel
    dsimp only [ChunkedDecoder.on]
    split
    · have := step_lock h (d := { d with start := 0, stop := 0, buffer := d.pool.alloc, pool := { d.pool with next := d.pool.next + 1 } }) hs d.buffer d.start d.stop k
      dsimp only [ChunkedDecoder.on] at this
      revert this
      generalize pollReadInner (ρ := ρ) _ d.buffer d.start d.stop k = u
      generalize pollReadInner (ρ := ρ') _ d.buffer d.start d.stop k = u'
      intro this
      cases this with
      | panic => exact .panic
      | diverge => exact .diverge
      | @ret d2 r2' s v =>
        simp only [Run.ret_bind]
        cases s with
        | err e => exact .ret (.mk v)
        | res r =>
          cases r with
          | none => exact loop_lock h fuel v _ _ _ _ _
          | some x ns a b pd =>
            dsimp only
            cases pd with
            | true =>
              simp only [if_true]
              refine Par.ret (p := .pending) (DecS.mk (d := { d2 with state := ns, start := a, stop := b, buffer := d.buffer }) ?_)
              simp only [stepLeft] at v
              show S n _ _
              split at v
              · exact v
              · exact h.less v
            | false =>
              simp only [Bool.false_eq_true, if_false]
              split
              · exact Par.ret (p := .data x) (DecS.mk (d := { d2 with state := ns, start := a, stop := b, buffer := d.buffer }) v)
              · split
                · exact Par.ret (p := .data x) (DecS.mk (d := { d2 with state := ns, start := a, stop := b, buffer := d.buffer }) v)
                · exact loop_lock h fuel (d := { d2 with state := ns, start := a, stop := b }) v _ _ _ _ _
    · exact loop_lock h fuel (d := { d with start := 0, stop := 0, buffer := d.pool.alloc, pool := { d.pool with next := d.pool.next + 1 } }) hs _ _ _ _ _

/-- As many reads as the readers agree on. -/
theorem Lock.polls (h : Lock S) (ks : List Nat) : ∀ {n : Nat} {r r1 : ρ} {r' : ρ'} {ps : List RPoll}, S n r r' → ks.length ≤ n → Tophat.polls r ks = .ret (r1, ps) →
    ∃ r1', Tophat.polls r' ks = .ret (r1', ps) := by
  induction ks with
  | nil =>
    intro n r r1 r' ps _ _ hp
    simp only [Tophat.polls, Run.ret.injEq, Prod.mk.injEq] at hp ⊢
    exact ⟨r', rfl, hp.2⟩
  | cons k ks ih =>
    intro n r r1 r' ps hs hl hp
    obtain ⟨m, rfl⟩ : ∃ m, n = m + 1 := ⟨n - 1, by simp at hl; omega⟩
    simp only [List.length_cons] at hl
    have := h.step hs k
    have hp0 := hp
    simp only [Tophat.polls] at hp
    obtain ⟨⟨r2, q⟩, g1, g2⟩ := Run.bind_eq_ret.1 hp
    rw [g1] at this
    generalize g3 : pollRead r' k = y at this
    cases this with
    | @ret _ r2' _ v =>
      by_cases hq : ∃ e, q = .err e
      · obtain ⟨e, rfl⟩ := hq
        simp only [Run.ret.injEq, Prod.mk.injEq] at g2
        obtain ⟨-, rfl⟩ := g2
        simp only [Tophat.polls, g3, Run.ret_bind]
        exact ⟨_, rfl⟩
      · have hq' : ∀ e, q ≠ .err e := fun e x => hq ⟨e, x⟩
        rw [polls_cons_data g1 hq'] at hp0
        obtain ⟨⟨r3, ps1⟩, g4, g5⟩ := Run.bind_eq_ret.1 hp0
        simp only [Run.ret.injEq, Prod.mk.injEq] at g5
        obtain ⟨rfl, rfl⟩ := g5
        obtain ⟨r4, h4⟩ := ih (n := left m q) v (by unfold left; split <;> omega) g4
        exact ⟨r4, by rw [polls_cons_data g3 hq', h4]; rfl⟩

end

end Tophat
