import Verif.Model.IntoAsyncRead
import Verif.Model.ResponseWriter
import Verif.Proofs.Prompt
/-! `IntoAsyncRead` is a lawful reader, and falls silent when its stream does. -/

set_option linter.unusedSectionVars false

namespace Tophat
namespace IntoAsyncRead

/-- What it delivers, how it ends, how often it may be `Pending`. -/
def remI (r : IntoAsyncRead) : Bytes :=
  match r.state with
  | .ready chunk start _ => chunk.drop start ++ Script.bytes r.stream
  | .pendingChunk => Script.bytes r.stream
  | .eof => []
@[inherit_doc remI] def finI (r : IntoAsyncRead) : Option IoErr :=
  match r.state with
  | .eof => none
  | _ => Script.ending r.stream
@[inherit_doc remI] def measI (r : IntoAsyncRead) : Nat :=
  match r.state with
  | .eof => 0
  | _ => Script.pendings r.stream

/-- What `next` may find. -/
inductive NextOk (s : List Ev) : IntoAsyncRead × Option RPoll → Prop
  | pending {r} : r.remI = Script.bytes s → r.finI = Script.ending s → r.measI < Script.pendings s → NextOk s (r, some .pending)
  | err {r e} : Script.bytes s = [] → Script.ending s = some e → NextOk s (r, some (.err e))
  | eof {r} : Script.bytes s = [] → Script.ending s = none → r.remI = [] → r.finI = none → r.measI = 0 → NextOk s (r, some (.data []))
  | chunk {s' bs h} : Script.bytes s = bs ++ Script.bytes s' → Script.ending s' = Script.ending s → Script.pendings s' = Script.pendings s → NextOk s (⟨s', .ready bs 0 h⟩, none)

theorem next_ok (s : List Ev) : NextOk s (next s) := by
  induction s with
  | nil => exact .eof rfl rfl rfl rfl rfl
  | cons e s ih =>
    cases e with
    | pending => exact .pending (by simp [remI, Script.bytes]) (by simp [finI, Script.ending]) (by simp [measI, Script.pendings])
    | err e => exact .err (by simp [Script.bytes]) (by simp [Script.ending])
    | data bs =>
      by_cases h : 0 < bs.length
      · simp only [next, h, dite_true]
        exact .chunk (by simp [Script.bytes]) (by simp [Script.ending]) (by simp [Script.pendings])
      · have hb : bs = [] := by
          cases bs with
          | nil => rfl
          | cons _ _ => simp at h
        subst hb
        have h1 : Script.bytes (.data [] :: s) = Script.bytes s := by simp [Script.bytes]
        have h2 : Script.ending (.data [] :: s) = Script.ending s := by simp [Script.ending]
        have h3 : Script.pendings (.data [] :: s) = Script.pendings s := by simp [Script.pendings]
        have h4 : next (.data [] :: s) = next s := by simp [next]
        rw [h4]
        generalize hn : next s = x at ih
        cases ih with
        | pending a b c => exact .pending (by rw [h1]; exact a) (by rw [h2]; exact b) (by rw [h3]; exact c)
        | err a b => exact .err (by rw [h1]; exact a) (by rw [h2]; exact b)
        | eof a b c d e => exact .eof (by rw [h1]; exact a) (by rw [h2]; exact b) c d e
        | chunk a b c => exact .chunk (by rw [h1]; exact a) (by rw [h2]; exact b) (by rw [h3]; exact c)

theorem advance_spec (s : List Ev) (chunk : Bytes) (start : Nat) :
    (advance s chunk start).remI = chunk.drop start ++ Script.bytes s ∧ (advance s chunk start).finI = Script.ending s ∧ (advance s chunk start).measI = Script.pendings s := by
  unfold advance
  split
  · exact ⟨rfl, rfl, rfl⟩
  · refine ⟨?_, rfl, rfl⟩
    rw [List.drop_of_length_le (by omega)]
    rfl

/-- In the state `Ready`. -/
theorem read_ready (s : List Ev) (chunk : Bytes) (start : Nat) (h : start < chunk.length) (k : Nat) :
    ReadOk remI finI measI ⟨s, .ready chunk start h⟩ k (readChunk ⟨s, .ready chunk start h⟩ k).1 (readChunk ⟨s, .ready chunk start h⟩ k).2 := by
  simp only [readChunk]
  obtain ⟨a, b, c⟩ := advance_spec s chunk (start + min k (chunk.length - start))
  refine .data (by simp; omega) ?_ b (Nat.le_of_eq c) ?_
  · rw [a]
    show chunk.drop start ++ Script.bytes s = _
    rw [← List.append_assoc, ← List.drop_drop, List.take_append_drop]
  · intro hk h0
    have h1 := congrArg List.length h0
    simp at h1
    omega

theorem read_lawful (r : IntoAsyncRead) (k : Nat) : ReadOk remI finI measI r k (r.read k).1 (r.read k).2 := by
  obtain ⟨s, st⟩ := r
  cases st with
  | ready chunk start h => exact read_ready s chunk start h k
  | eof => exact .data (Nat.zero_le _) rfl rfl (Nat.le_refl _) (fun _ _ => ⟨rfl, rfl⟩)
  | pendingChunk =>
    simp only [read]
    have := next_ok s
    generalize next s = x at this
    cases this with
    | pending a b c => exact .pending a b c
    | err a b => exact .err a b
    | eof a b c d e => exact .data (Nat.zero_le _) (by rw [c]; exact a) (by rw [d]; exact b.symm) (by rw [e]; exact Nat.zero_le _) (fun _ _ => ⟨a, b⟩)
    | chunk a b c =>
      rename_i s' bs h
      have := read_ready s' bs 0 h k
      simp only []
      generalize readChunk ⟨s', .ready bs 0 h⟩ k = y at this ⊢
      have e1 : remI ⟨s', .ready bs 0 h⟩ = Script.bytes s := a.symm
      have e2 : finI ⟨s', .ready bs 0 h⟩ = Script.ending s := b
      have e3 : measI ⟨s', .ready bs 0 h⟩ = Script.pendings s := c
      obtain ⟨y, p⟩ := y
      cases this with
      | pending a b c => exact .pending (by rw [a, e1]; rfl) (by rw [b, e2]; rfl) (by rw [e3] at c; exact c)
      | err a b => exact .err (by rw [e1] at a; exact a) (by rw [e2] at b; exact b)
      | data a b c d e => exact .data a (by rw [e1] at b; exact b) (by rw [c, e2]; rfl) (by rw [e3] at d; exact d) (by rw [e1, e2] at e; exact e)

/-- In the state `Ready`. -/
theorem fill_ready (s : List Ev) (chunk : Bytes) (start : Nat) (h : start < chunk.length) :
    FillOk remI finI measI drop ⟨s, .ready chunk start h⟩ ⟨s, .ready chunk start h⟩ (.data (chunk.drop start)) := by
  refine .data rfl rfl (Nat.le_refl _) (List.prefix_append _ _) ?_ ?_
  · intro h0
    have h1 := congrArg List.length h0
    simp at h1
    omega
  · intro n hn
    simp only [List.length_drop] at hn
    by_cases h0 : n = 0
    · subst h0
      simp [drop]
    · simp only [drop, if_neg h0]
      obtain ⟨a, b, c⟩ := advance_spec s chunk (start + n)
      refine ⟨?_, b, Nat.le_of_eq c⟩
      rw [a]
      show _ = (chunk.drop start ++ Script.bytes s).drop n
      rw [List.drop_append_of_le_length (by simp; omega), List.drop_drop]

theorem fill_lawful (r : IntoAsyncRead) : FillOk remI finI measI drop r r.fill.1 r.fill.2 := by
  obtain ⟨s, st⟩ := r
  cases st with
  | ready chunk start h => exact fill_ready s chunk start h
  | eof =>
    refine .data rfl rfl (Nat.le_refl _) List.nil_prefix (fun _ => ⟨rfl, rfl⟩) (fun n hn => ?_)
    have : n = 0 := by simpa using hn
    subst this
    simp [drop, fill, fillChunk, remI, finI, measI]
  | pendingChunk =>
    simp only [fill]
    have := next_ok s
    generalize next s = x at this
    cases this with
    | pending a b c => exact .pending a b c
    | err a b => exact .err a b
    | eof a b c d e =>
      rename_i r
      refine .data (by rw [c]; exact a.symm) (by rw [d]; exact b.symm) (by rw [e]; exact Nat.zero_le _) List.nil_prefix (fun _ => ⟨a, b⟩) (fun n hn => ?_)
      have : n = 0 := by simpa using hn
      subst this
      simp only [drop, if_true, List.drop_zero]
      exact ⟨by rw [c]; exact a.symm, by rw [d]; exact b.symm, by rw [e]; exact Nat.zero_le _⟩
    | chunk a b c =>
      rename_i s' bs h
      have := fill_ready s' bs 0 h
      have e1 : remI ⟨s', .ready bs 0 h⟩ = Script.bytes s := a.symm
      have e2 : finI ⟨s', .ready bs 0 h⟩ = Script.ending s := b
      have e3 : measI ⟨s', .ready bs 0 h⟩ = Script.pendings s := c
      simp only [fillChunk]
      cases this with
      | data a b c d e f => exact .data (by rw [e1]; rfl) (by rw [e2]; rfl) (by rw [e3]; exact Nat.le_refl _) (by rw [e1] at d; exact d) (by rw [e1, e2] at e; exact e) (by rw [e1, e2, e3] at f; exact f)

end IntoAsyncRead

instance : LawfulBufRead IntoAsyncRead where
  rem := IntoAsyncRead.remI
  fin := IntoAsyncRead.finI
  meas := IntoAsyncRead.measI
  read_ok r k := ⟨_, _, rfl, IntoAsyncRead.read_lawful r k⟩
  fill_ok r := ⟨_, _, rfl, IntoAsyncRead.fill_lawful r⟩

namespace IntoAsyncRead

/-- The stream will be silent from some point on, for at least `k` polls. -/
def Dull (N k : Nat) (r : IntoAsyncRead) : Prop :=
  r.state ≠ .eof ∧ ∃ a j, r.stream = a ++ List.replicate j .pending ∧ k ≤ j ∧ Script.ending a = none ∧ (j = N ∨ j < N ∧ a = [] ∧ r.state = .pendingChunk)

theorem pendings_append (a b : List Ev) (h : Script.ending a = none) : Script.pendings (a ++ b) = Script.pendings a + Script.pendings b := by
  induction a with
  | nil => simp [Script.pendings]
  | cons e a ih =>
    cases e with
    | pending => simp only [Script.ending] at h; simp only [List.cons_append, Script.pendings, ih h]; omega
    | err e => simp [Script.ending] at h
    | data bs => simp only [Script.ending] at h; simp only [List.cons_append, Script.pendings, ih h]

theorem bytes_append (a b : List Ev) (h : Script.ending a = none) : Script.bytes (a ++ b) = Script.bytes a ++ Script.bytes b := by
  induction a with
  | nil => simp [Script.bytes]
  | cons e a ih =>
    cases e with
    | pending => simp only [Script.ending] at h; simp only [List.cons_append, Script.bytes, ih h]
    | err e => simp [Script.ending] at h
    | data bs => simp only [Script.ending] at h; simp only [List.cons_append, Script.bytes, ih h, List.append_assoc]

theorem ending_append (a b : List Ev) (h : Script.ending a = none) : Script.ending (a ++ b) = Script.ending b := by
  induction a with
  | nil => rfl
  | cons e a ih =>
    cases e with
    | pending => simp only [Script.ending] at h; simp only [List.cons_append, Script.ending, ih h]
    | err e => simp [Script.ending] at h
    | data bs => simp only [Script.ending] at h; simp only [List.cons_append, Script.ending, ih h]

theorem silence_spec (j : Nat) : Script.pendings (List.replicate j .pending) = j ∧ Script.bytes (List.replicate j .pending) = [] ∧ Script.ending (List.replicate j .pending) = none := by
  induction j with
  | zero => exact ⟨rfl, rfl, rfl⟩
  | succ j ih => simp only [List.replicate_succ, Script.pendings, Script.bytes, Script.ending, ih, and_self]

theorem next_dull {N k j : Nat} (hk : k + 1 ≤ j) (a : List Ev) (ha : Script.ending a = none) (hj : j = N ∨ j < N ∧ a = []) :
    (∃ r, next (a ++ List.replicate j .pending) = (r, some .pending) ∧ Dull N k r) ∨
    ∃ a' bs h, next (a ++ List.replicate j .pending) = (⟨a' ++ List.replicate j .pending, .ready bs 0 h⟩, none) ∧ Script.ending a' = none ∧ j = N := by
  induction a with
  | nil =>
    left
    cases j with
    | zero => omega
    | succ j => exact ⟨_, rfl, by simp, [], j, rfl, by omega, rfl, .inr ⟨by omega, rfl, rfl⟩⟩
  | cons e a ih =>
    have hj' : j = N := by
      rcases hj with h | ⟨-, h⟩
      · exact h
      · cases h
    cases e with
    | pending => exact .inl ⟨_, rfl, by simp, a, j, rfl, by omega, ha, .inl hj'⟩
    | err e => simp [Script.ending] at ha
    | data bs =>
      by_cases h : 0 < bs.length
      · right
        exact ⟨a, bs, h, by simp only [List.cons_append, next, h, dite_true], ha, hj'⟩
      · have : next (.data bs :: a ++ List.replicate j .pending) = next (a ++ List.replicate j .pending) := by simp only [List.cons_append, next, h, dite_false]
        rw [this]
        exact ih ha (.inl hj')

theorem advance_dull {N k j : Nat} {a : List Ev} (hk : k ≤ j) (ha : Script.ending a = none) (hj : j = N) (chunk : Bytes) (start : Nat) : Dull N k (advance (a ++ List.replicate j .pending) chunk start) := by
  unfold advance
  split
  · exact ⟨by simp, a, j, rfl, hk, ha, .inl hj⟩
  · exact ⟨by simp, a, j, rfl, hk, ha, .inl hj⟩

theorem Dull.loud {N k : Nat} {r : IntoAsyncRead} {a : List Ev} {j : Nat} (hs : r.state ≠ .eof) (h : r.stream = a ++ List.replicate j .pending) (ha : Script.ending a = none) (hj : j = N) : ¬ measI r < N := by
  have : measI r = Script.pendings r.stream := by
    obtain ⟨s, st⟩ := r
    cases st <;> first | rfl | exact absurd rfl hs
  rw [this, h, pendings_append _ _ ha, (silence_spec j).1]
  omega

theorem naps (N : Nat) : Naps (ρ := IntoAsyncRead) N (Dull N) (fun r => measI r < N) where
  mono := by
    rintro k r ⟨h0, a, j, h1, h2, h3⟩
    exact ⟨h0, a, j, h1, by omega, h3⟩
  fill := by
    rintro k r ⟨h0, a, j, h1, h2, h3, h4⟩ hf
    obtain ⟨s, st⟩ := r
    dsimp only at h1
    cases st with
    | eof => exact absurd rfl h0
    | ready chunk start hs =>
      have hj : j = N := by
        rcases h4 with h | ⟨-, -, h⟩
        · exact h
        · cases h
      refine ⟨_, _, rfl, .inr ⟨chunk.drop start, rfl, ?_, Dull.loud (k := k) h0 h1 h3 hj, ⟨h0, a, j, h1, by omega, h3, .inl hj⟩, ?_⟩⟩
      · intro h
        have := congrArg List.length h
        simp at this
        omega
      · intro m hm
        show Dull N k (drop ⟨s, .ready chunk start hs⟩ m)
        unfold drop
        split
        · exact ⟨h0, a, j, h1, by omega, h3, .inl hj⟩
        · subst h1
          exact advance_dull (by omega) h3 hj _ _
    | pendingChunk =>
      subst h1
      rcases next_dull (N := N) h2 a h3 (h4.imp id fun h => ⟨h.1, h.2.1⟩) with ⟨r, e1, e2⟩ | ⟨a', bs, hb, e1, e2, e3⟩
      · exact ⟨r, .pending, by show Run.ret (fill _) = _; simp only [fill, e1], .inl ⟨rfl, e2⟩⟩
      · refine ⟨⟨a' ++ List.replicate j .pending, .ready bs 0 hb⟩, .data bs, by show Run.ret (fill _) = _; simp only [fill, e1, fillChunk, List.drop_zero], .inr ⟨bs, rfl, ?_, ?_, ⟨by simp, a', j, rfl, by omega, e2, .inl e3⟩, ?_⟩⟩
        · intro h; rw [h] at hb; simp at hb
        · exact Dull.loud (k := k) (by simp) rfl h3 e3
        · intro m hm
          show Dull N k (drop _ m)
          unfold drop
          split
          · exact ⟨by simp, a', j, rfl, by omega, e2, .inl e3⟩
          · exact advance_dull (by omega) e2 e3 _ _
  read := by
    rintro k r ⟨h0, a, j, h1, h2, h3, h4⟩ hf m hm
    have law := read_lawful r m
    have hshow : ∀ (x : IntoAsyncRead × RPoll), r.read m = x → (x.2 = .pending ∧ Dull N k x.1 ∨ ∃ bs, x.2 = .data bs ∧ bs ≠ [] ∧ Dull N (k + 1) x.1) →
        ∃ s' p, pollRead r m = .ret (s', p) ∧ (p = .pending ∧ Dull N k s' ∨ ∃ bs, p = .data bs ∧ bs ≠ [] ∧ bs.length ≤ m ∧ Dull N (k + 1) s' ∧ rem r = bs ++ rem s' ∧ fin s' = none) := by
      rintro ⟨s', p⟩ hx h
      refine ⟨s', p, by show Run.ret (r.read m) = _; rw [hx], ?_⟩
      rw [hx] at law
      rcases h with h | ⟨bs, q1, q2, q3⟩
      · exact .inl h
      · simp only at q1 law
        subst q1
        cases law with
        | data a b c d e => exact .inr ⟨bs, rfl, q2, a, q3, b, by show finI s' = none; rw [c]; exact hf⟩
    have hready : ∀ (a : List Ev) (bs : Bytes) (start : Nat) (hb : start < bs.length), Script.ending a = none → j = N →
        ∃ q, (readChunk ⟨a ++ List.replicate j .pending, .ready bs start hb⟩ m).2 = .data q ∧ q ≠ [] ∧ Dull N (k + 1) (readChunk ⟨a ++ List.replicate j .pending, .ready bs start hb⟩ m).1 := by
      intro a bs start hb ha hj
      refine ⟨_, rfl, ?_, advance_dull h2 ha hj _ _⟩
      intro h
      have := congrArg List.length h
      simp at this
      omega
    obtain ⟨s, st⟩ := r
    dsimp only at h1
    subst h1
    cases st with
    | eof => exact absurd rfl h0
    | ready chunk start hs =>
      have hj : j = N := by
        rcases h4 with h | ⟨-, -, h⟩
        · exact h
        · cases h
      exact hshow _ rfl (.inr (hready a chunk start hs h3 hj))
    | pendingChunk =>
      rcases next_dull (N := N) h2 a h3 (h4.imp id fun h => ⟨h.1, h.2.1⟩) with ⟨r, e1, e2⟩ | ⟨a', bs, hb, e1, e2, e3⟩
      · exact hshow (r, .pending) (by simp only [read, e1]) (.inl ⟨rfl, e2⟩)
      · exact hshow (readChunk ⟨a' ++ List.replicate j .pending, .ready bs 0 hb⟩ m) (by simp only [read, e1]) (.inr (hready a' bs 0 hb e2 e3))
  loud := by
    intro k r h hq
    show N ≤ measI r
    omega
  silent := by
    rintro k r ⟨h0, a, j, h1, h2, h3, h4⟩ hq
    rcases h4 with h4 | ⟨-, rfl, h4⟩
    · exact absurd hq (Dull.loud (k := k) h0 h1 h3 h4)
    · show remI r = []
      obtain ⟨s, st⟩ := r
      dsimp only at h1 h4
      subst h1 h4
      exact (silence_spec j).2.1

end IntoAsyncRead

/-- The same for a `Body` made of such a reader. -/
theorem Naps.body {σ : Type} [AsyncBufRead σ] [LawfulBufRead σ] {N : Nat} {D : Nat → σ → Prop} {Q : σ → Prop} (h : Naps N D Q) :
    Naps (ρ := BodyReader σ) N (fun k b => ∃ r, b = .reader r ∧ D k r) (fun b => ∀ r, b = .reader r → Q r) where
  mono := fun ⟨r, h1, h2⟩ => ⟨r, h1, h.mono h2⟩
  fill := by
    rintro k _ ⟨r, rfl, h2⟩ hf
    obtain ⟨s', p, a, b⟩ := h.fill h2 hf
    refine ⟨.reader s', p, by show (pollFill r >>= BodyReader.ofReader) = _; rw [a]; rfl, ?_⟩
    rcases b with ⟨b1, b2⟩ | ⟨bs, b1, b2, b3, b4, b5⟩
    · exact .inl ⟨b1, s', rfl, b2⟩
    · exact .inr ⟨bs, b1, b2, fun hq => b3 (hq r rfl), ⟨s', rfl, b4⟩, fun m hm => ⟨_, rfl, b5 m hm⟩⟩
  read := by
    rintro k _ ⟨r, rfl, h2⟩ hf m hm
    obtain ⟨s', p, a, b⟩ := h.read h2 hf hm
    refine ⟨.reader s', p, by show (pollRead r m >>= BodyReader.ofReader) = _; rw [a]; rfl, ?_⟩
    rcases b with ⟨b1, b2⟩ | ⟨bs, b1, b2, b3, b4, b5, b6⟩
    · exact .inl ⟨b1, s', rfl, b2⟩
    · exact .inr ⟨bs, b1, b2, b3, ⟨s', rfl, b4⟩, b5, b6⟩
  loud := by
    rintro k _ ⟨r, rfl, h2⟩ hq
    exact h.loud (s := r) h2 fun hq' => hq fun r' e => by cases e; exact hq'
  silent := by
    rintro k _ ⟨r, rfl, h2⟩ hq
    exact h.silent (s := r) h2 (hq r rfl)

end Tophat
