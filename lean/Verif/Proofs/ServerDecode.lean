import Verif.Proofs.RequestHead
import Verif.Model.Accept
import Verif.Spec.Connection
/-! Polling the future `decode(io)`: what it waits for, what it answers, what it writes. -/

set_option linter.unusedSectionVars false

namespace Tophat
open Spec

/-! ## Lines -/

theorem lineOf_some {bs l : Bytes} (h : lineOf bs = some l) :
    ∃ q rest, bs = l ++ rest ∧ l = q ++ [10] ∧ (10 : UInt8) ∉ q := by
  induction bs generalizing l with
  | nil => simp [lineOf] at h
  | cons b r ih =>
    by_cases hb : b = 10
    · subst hb; simp [lineOf] at h; subst h; exact ⟨[], r, rfl, rfl, by simp⟩
    · simp only [lineOf, hb, if_false, Option.map_eq_some_iff] at h
      obtain ⟨l', h1, rfl⟩ := h
      obtain ⟨q, rest, h2, h3, h4⟩ := ih h1
      exact ⟨b :: q, rest, by simp [h2], by simp [h3], by simp [h4]; exact fun h => hb h.symm⟩

theorem lineOf_none {bs : Bytes} (h : lineOf bs = none) : (10 : UInt8) ∉ bs := by
  induction bs with
  | nil => simp
  | cons b r ih =>
    by_cases hb : b = 10
    · subst hb; simp [lineOf] at h
    · simp only [lineOf, hb, if_false, Option.map_eq_none_iff] at h
      simp only [List.mem_cons, not_or]
      exact ⟨fun h => hb h.symm, ih h⟩

theorem endsHead_iff (buf : Bytes) : endsHead buf = true ↔ EndsBlank buf := by
  unfold endsHead EndsBlank
  have hc : crlf ++ crlf = [13, 10, 13, 10] := rfl
  rw [decide_eq_true_eq, hc]
  constructor
  · rintro ⟨h1, h2⟩
    exact ⟨buf.take (buf.length - 4), by rw [← h2]; simp⟩
  · rintro ⟨q, rfl⟩
    simp

theorem Spec.EndsBlank.last {p : Bytes} (h : EndsBlank p) : ∃ q, p = q ++ [10] := by
  obtain ⟨q, rfl⟩ := h; exact ⟨q ++ [13, 10, 13], by simp⟩

theorem prefix_append_cases {p a b : Bytes} (h : p <+: a ++ b) : p <+: a ∨ ∃ q, q ≠ [] ∧ q <+: b ∧ p = a ++ q := by
  obtain ⟨z, hz⟩ := h
  rcases List.append_eq_append_iff.1 hz with ⟨c, h1, h2⟩ | ⟨c, h1, h2⟩
  · exact .inl ⟨c, h1.symm⟩
  · by_cases hc : c = []
    · subst hc; exact .inl ⟨[], by simpa using h1⟩
    · exact .inr ⟨c, hc, ⟨z, h2.symm⟩, h1⟩

/-- A blank line can end only at the end of a line. -/
theorem prefix_line {buf q p : Bytes} (hq : (10 : UInt8) ∉ q) (hb : NoHead buf) (hp : p <+: buf ++ (q ++ [10]))
    (he : EndsBlank p) : p = buf ++ (q ++ [10]) := by
  rcases prefix_append_cases hp with h | ⟨x, hx, h1, rfl⟩
  · exact absurd he (hb p h)
  · obtain ⟨y, hy⟩ := he.last
    rcases List.prefix_concat_iff.1 h1 with rfl | h2
    · rfl
    · exfalso
      obtain ⟨x', b, rfl⟩ : ∃ x' b, x = x' ++ [b] := ⟨_, _, (List.dropLast_concat_getLast hx).symm⟩
      rw [← List.append_assoc] at hy
      have := (List.append_inj' hy rfl).2
      simp at this
      subst this
      exact hq (h2.subset (by simp))

theorem Spec.NoHead.line {buf q : Bytes} (hq : (10 : UInt8) ∉ q) (hb : NoHead buf) (hn : ¬ EndsBlank (buf ++ (q ++ [10]))) :
    NoHead (buf ++ (q ++ [10])) := by
  intro p hp he
  rw [prefix_line hq hb hp he] at he
  exact hn he

theorem Spec.NoHead.append {buf q : Bytes} (hq : (10 : UInt8) ∉ q) (hb : NoHead buf) : NoHead (buf ++ q) := by
  intro p hp he
  rcases prefix_append_cases hp with h | ⟨x, hx, h1, rfl⟩
  · exact hb p h he
  · obtain ⟨y, hy⟩ := he.last
    obtain ⟨x', b, rfl⟩ : ∃ x' b, x = x' ++ [b] := ⟨_, _, (List.dropLast_concat_getLast hx).symm⟩
    rw [← List.append_assoc] at hy
    have := (List.append_inj' hy rfl).2
    simp at this
    subst this
    exact hq (h1.subset (by simp))

theorem noHead_nil : NoHead [] := by
  rintro p hp ⟨q, rfl⟩
  simp at hp

/-- There is at most one head. -/
theorem Spec.FirstHead.unique {s h h' : Bytes} (a : FirstHead s h) (b : FirstHead s h') : h = h' := by
  rcases List.prefix_or_prefix_of_prefix a.1 b.1 with c | c
  · exact b.2.2 h c a.2.1
  · exact (a.2.2 h' c b.2.1).symm

theorem Spec.FirstHead.not_noHead {s h : Bytes} (a : FirstHead s h) : ¬ NoHead s := fun b => b h a.1 a.2.1

/-! ## Reading the head -/

section
variable {ρ : Type} [AsyncRead ρ] [LawfulRead ρ]

/-- What a poll of the reading loop may answer, for a connection that still delivers `s` in total (with what is in
the buffer) and then ends with `e`; `m` bounds the number of `Pending`s. -/
inductive HeadOk (s : Bytes) (e : Option IoErr) (m : Nat) : HeadPoll ρ → Prop
  | pending {r buf nread} : NoHead buf → buf ++ rem r = s → fin r = e → meas r < m → HeadOk s e m (.pending r buf nread)
  | lost {r x} : NoHead s → e = some x → HeadOk s e m (.lost r x)
  | none {r} : NoHead s → e = none → rem r = [] → fin r = e → meas r ≤ m → HeadOk s e m (.none r)
  | head {r buf} : FirstHead s buf → s = buf ++ rem r → fin r = e → meas r ≤ m → HeadOk s e m (.head r buf)

theorem HeadOk.mono {s : Bytes} {e : Option IoErr} {m m' : Nat} {h : HeadPoll ρ} (hm : m ≤ m') (a : HeadOk s e m h) :
    HeadOk s e m' h := by
  cases a with
  | pending a b c d => exact .pending a b c (by omega)
  | lost a b => exact .lost a b
  | none a b c d f => exact .none a b c d (by omega)
  | head a b c d => exact .head a b c (by omega)

theorem headGo_spec (fuel : Nat) (r : BufRd ρ) (buf : Bytes) (nread : Nat) (hb : NoHead buf) :
    (headGo fuel r buf nread = .diverge ∧ ¬ ((rem r).length + 2 ≤ fuel ∨ (rem r = [] ∧ nread = 0 ∧ 1 ≤ fuel))) ∨
    ∃ h, headGo fuel r buf nread = .ret h ∧ HeadOk (buf ++ rem r) (fin r) (meas r) h := by
  induction fuel generalizing r buf nread with
  | zero => left; exact ⟨rfl, by omega⟩
  | succ fuel ih =>
    obtain ⟨r', p, hp, ho⟩ := LawfulBufRead.fill_ok r
    simp only [headGo]
    rw [hp]
    simp only [Run.ret_bind]
    cases ho with
    | pending a b c => exact .inr ⟨_, rfl, .pending hb (by rw [a]) b c⟩
    | err a b => exact .inr ⟨_, rfl, .lost (by rw [a]; simpa using hb) b⟩
    | data a b c d e f =>
      rename_i bs
      dsimp only
      cases hl : lineOf bs with
      | some line =>
        dsimp only
        obtain ⟨q, rest, h1, h2, h3⟩ := lineOf_some hl
        have hle : line.length ≤ bs.length := by rw [h1]; simp
        obtain ⟨g1, g2, g3⟩ := f _ hle
        have hrem : rem r = line ++ rem (consume r' line.length) := by
          obtain ⟨z, hz⟩ := d
          rw [g1, ← hz, h1]; simp
        split
        · rename_i hend
          rw [endsHead_iff] at hend
          refine .inr ⟨_, rfl, .head ⟨⟨rem (consume r' line.length), by rw [hrem]; simp⟩, hend, ?_⟩ (by rw [hrem]; simp) g2 g3⟩
          intro p hp he
          rw [h2] at hp ⊢
          exact prefix_line h3 hb hp he
        · rename_i hend
          rw [endsHead_iff] at hend
          have hnb : NoHead (buf ++ line) := by rw [h2] at hend ⊢; exact NoHead.line h3 hb hend
          have hlen : 1 ≤ line.length := by rw [h2]; simp
          rcases ih (consume r' line.length) (buf ++ line) 0 hnb with ⟨k1, k2⟩ | ⟨h, k1, k2⟩
          · refine .inl ⟨k1, ?_⟩
            rintro (k3 | ⟨k3, _⟩)
            · apply k2; left
              rw [hrem, List.length_append] at k3; omega
            · rw [hrem] at k3; simp at k3; rw [k3.1] at hlen; simp at hlen
          · refine .inr ⟨h, k1, ?_⟩
            rw [List.append_assoc, ← hrem, g2] at k2
            exact k2.mono g3
      | none =>
        dsimp only
        have hno := lineOf_none hl
        by_cases hbs : bs = []
        · subst hbs
          obtain ⟨e1, e2⟩ := e rfl
          simp only [if_true]
          split
          · rename_i hn
            exact .inr ⟨_, rfl, .none (by rw [e1]; simpa using hb) e2 (by rw [a, e1]) b c⟩
          · rename_i hn
            have hne : ¬ EndsBlank buf := hb buf (List.prefix_refl _)
            have hne' : ¬ endsHead buf = true := by rw [endsHead_iff]; exact hne
            rw [if_neg hne']
            rcases ih r' buf 0 hb with ⟨k1, k2⟩ | ⟨h, k1, k2⟩
            · refine .inl ⟨k1, ?_⟩
              rintro (k3 | ⟨_, k3, _⟩)
              · apply k2; right; exact ⟨by rw [a, e1], rfl, by omega⟩
              · exact hn k3
            · refine .inr ⟨h, k1, ?_⟩
              rw [a, b] at k2
              exact k2.mono c
        · rw [if_neg hbs]
          obtain ⟨g1, g2, g3⟩ := f _ (Nat.le_refl _)
          have hrem : rem r = bs ++ rem (consume r' bs.length) := by
            obtain ⟨z, hz⟩ := d
            rw [g1, ← hz]; simp
          have hlen : 1 ≤ bs.length := List.length_pos_iff.2 hbs
          rcases ih (consume r' bs.length) (buf ++ bs) (nread + bs.length) (hb.append hno) with ⟨k1, k2⟩ | ⟨h, k1, k2⟩
          · refine .inl ⟨k1, ?_⟩
            rintro (k3 | ⟨k3, _⟩)
            · apply k2; left
              rw [hrem, List.length_append] at k3; omega
            · rw [hrem] at k3; simp at k3; exact hbs k3.1
          · refine .inr ⟨h, k1, ?_⟩
            rw [List.append_assoc, ← hrem, g2] at k2
            exact k2.mono g3

end

/-! ## Writing the interim response -/

theorem Writer.Reliable.suffix {w w' : Writer} {used : List WEv} (h : w.Reliable) (hs : w.script = used ++ w'.script) :
    w'.Reliable := fun e he => h e (by rw [hs]; simp [he])

/-- What writing `todo` may do. -/
inductive WriteOk (w : Writer) (todo : Bytes) : Writer → WriteAll → Prop
  | pending {w' x todo' used} : w'.got = w.got ++ x → todo = x ++ todo' → w.script = used ++ w'.script → used ≠ [] →
      WriteOk w todo w' (.pending todo')
  | err {w' x y e used} : w'.got = w.got ++ x → todo = x ++ y → y ≠ [] → w.script = used ++ w'.script → ¬ w.Reliable →
      WriteOk w todo w' (.err e)
  | done {w' used} : w'.got = w.got ++ todo → w.script = used ++ w'.script → WriteOk w todo w' .done

theorem writeAllGo_spec (fuel : Nat) (w : Writer) (todo : Bytes) (hf : todo.length < fuel) :
    ∃ w' x, writeAllGo fuel w todo = .ret (w', x) ∧ WriteOk w todo w' x := by
  induction fuel generalizing w todo with
  | zero => omega
  | succ fuel ih =>
    simp only [writeAllGo]
    by_cases ht : todo = []
    · rw [if_pos ht]; exact ⟨w, .done, rfl, .done (used := []) (by simp [ht]) rfl⟩
    · rw [if_neg ht]
      have hpos : 0 < todo.length := List.length_pos_iff.2 ht
      rcases hs : w.script with _ | ⟨e, s⟩
      · have hw : w.write todo = ({ w with got := w.got ++ todo }, .ready todo.length) := by simp [Writer.write, hs]
        rw [hw]
        simp only [Nat.pos_iff_ne_zero.1 hpos, if_false, List.drop_length]
        cases fuel with
        | zero => omega
        | succ fuel =>
          refine ⟨{ w with got := w.got ++ todo }, .done, by simp [writeAllGo], .done (used := []) rfl rfl⟩
      · cases e with
        | accept n =>
          have hw : w.write todo = ({ w with script := s, got := w.got ++ todo.take n }, .ready (min n todo.length)) := by
            simp [Writer.write, hs]
          rw [hw]
          dsimp only
          by_cases hn : n = 0
          · subst hn
            refine ⟨_, _, by rw [if_pos (by simp)], .err (used := [.accept 0]) (x := []) (y := todo) (by simp) rfl ht (by simp [hs]) ?_⟩
            intro hr
            exact (hr (.accept 0) (by simp [hs])).1 rfl
          · rw [if_neg (by omega)]
            obtain ⟨w', x, h1, h2⟩ := ih { w with script := s, got := w.got ++ todo.take n } (todo.drop (min n todo.length))
              (by simp; omega)
            refine ⟨w', x, h1, ?_⟩
            have hsplit : todo = todo.take n ++ todo.drop (min n todo.length) := by
              rcases Nat.le_total n todo.length with h | h
              · rw [Nat.min_eq_left h]; simp
              · rw [Nat.min_eq_right h]; simp [List.take_of_length_le h]
            cases h2 with
            | pending a b c d =>
              rename_i x todo' used
              refine .pending (x := todo.take n ++ x) (used := .accept n :: used) (by simp [a]) ?_ (by rw [hs, List.cons_append, ← c]) (by simp)
              rw [List.append_assoc, ← b]; exact hsplit
            | err a b y0 c d =>
              rename_i x y e used
              refine .err (x := todo.take n ++ x) (y := y) (used := .accept n :: used) (by simp [a]) ?_ y0 (by rw [hs, List.cons_append, ← c]) ?_
              · rw [List.append_assoc, ← b]; exact hsplit
              · intro hr; apply d; intro e he; exact hr e (by simp [hs]; exact .inr he)
            | done a b =>
              rename_i used
              refine .done (used := .accept n :: used) ?_ (by rw [hs, List.cons_append, ← b])
              rw [a]; simp only [List.append_assoc]; rw [← hsplit]
        | pending =>
          have hw : w.write todo = ({ w with script := s }, .pending) := by simp [Writer.write, hs]
          rw [hw]
          exact ⟨_, _, rfl, .pending (x := []) (used := [.pending]) (by simp) rfl (by simp [hs]) (by simp)⟩
        | err e =>
          have hw : w.write todo = ({ w with script := s }, .err e) := by simp [Writer.write, hs]
          rw [hw]
          refine ⟨_, _, rfl, .err (x := []) (y := todo) (used := [.err e]) (by simp) rfl ht (by simp [hs]) ?_⟩
          intro hr
          exact (hr (.err e) (by simp [hs])).2 e rfl

theorem writeAll_spec (w : Writer) (todo : Bytes) : ∃ w' x, writeAll w todo = .ret (w', x) ∧ WriteOk w todo w' x :=
  writeAllGo_spec _ _ _ (by omega)

/-! ## Polling -/

section
variable {ρ : Type} [AsyncRead ρ] [LawfulRead ρ]

/-- How `decode` can end on a connection delivering `s` and then ending with `e`, with the write half going from `w0`
to `w`. -/
inductive DecOut (uriOk : Bytes → Bool) (pool : Pool) (s : Bytes) (e : Option IoErr) (m : Nat) (w0 w : Writer) : DecRes ρ → Prop
  | none {io} : NoHead s → e = none → w = w0 → rem io = [] → fin io = e → meas io ≤ m → DecOut uriOk pool s e m w0 w (.none io)
  | lost {x io} : NoHead s → e = some x → w = w0 → DecOut uriOk pool s e m w0 w (.fail (.connectionLost x) io)
  | bad {h f} {r : BufRd ρ} : FirstHead s h → parseHead h = .fail f → w = w0 → s = h ++ rem r → fin r = e → meas r ≤ m →
      DecOut uriOk pool s e m w0 w (.fail f r.inner)
  | cut {h p x y c used} {r : BufRd ρ} : FirstHead s h → parseHead h = .ok p → interimBytes p = x ++ y → y ≠ [] → w.got = w0.got ++ x →
      w0.script = used ++ w.script → ¬ w0.Reliable → s = h ++ rem r → fin r = e → meas r ≤ m →
      DecOut uriOk pool s e m w0 w (.fail (.connectionLost c) r.inner)
  | done {h p used} {r : BufRd ρ} : FirstHead s h → parseHead h = .ok p → s = h ++ rem r → fin r = e → meas r ≤ m →
      w.got = w0.got ++ interimBytes p → w0.script = used ++ w.script →
      DecOut uriOk pool s e m w0 w (finishDecode uriOk pool r p)

/-- Where `decode` can be suspended; `m` bounds the number of times it will be from here on. -/
inductive DecInv (s : Bytes) (e : Option IoErr) (m : Nat) (w0 w : Writer) : DecFut ρ → Prop
  | head {r buf nread} : NoHead buf → buf ++ rem r = s → fin r = e → meas r + w.script.length ≤ m → w = w0 →
      DecInv s e m w0 w (.head r buf nread)
  | interim {r p h x todo used} : FirstHead s h → parseHead h = .ok p → s = h ++ rem r → fin r = e →
      meas r + w.script.length ≤ m → interimBytes p = x ++ todo → w.got = w0.got ++ x → w0.script = used ++ w.script →
      DecInv s e m w0 w (.interim r p todo)

theorem pollInterim_spec {uriOk : Bytes → Bool} {pool : Pool} {s : Bytes} {e : Option IoErr} {m0 m : Nat} {w0 w : Writer} {r : BufRd ρ} {p : Parsed}
    {h x todo : Bytes} {used : List WEv} (h1 : FirstHead s h) (h2 : parseHead h = .ok p) (h3 : s = h ++ rem r) (h4 : fin r = e)
    (h5 : meas r + w.script.length ≤ m) (h5' : meas r ≤ m0) (h6 : interimBytes p = x ++ todo) (h7 : w.got = w0.got ++ x)
    (h8 : w0.script = used ++ w.script) :
    ∃ w' d, pollInterim uriOk pool r p todo w = .ret (w', d) ∧
      match d with
      | .pending f => ∃ m', m' < m ∧ DecInv s e m' w0 w' f
      | .ready res => DecOut uriOk pool s e m0 w0 w' res := by
  unfold pollInterim
  obtain ⟨w', y, k1, k2⟩ := writeAll_spec w todo
  rw [k1]
  simp only [Run.ret_bind]
  cases k2 with
  | pending a b c d =>
    rename_i x' todo' used'
    refine ⟨w', _, rfl, meas r + w'.script.length, ?_, ?_⟩
    · have : w.script.length = used'.length + w'.script.length := by rw [c]; simp
      have := List.length_pos_iff.2 d
      omega
    · exact .interim (x := x ++ x') (used := used ++ used') h1 h2 h3 h4 (Nat.le_refl _) (by rw [h6, b]; simp) (by rw [a, h7]; simp)
        (by rw [h8, c]; simp)
  | err a b y0 c d =>
    rename_i x' y' e' used'
    refine ⟨w', _, rfl, .cut (x := x ++ x') (y := y') (used := used ++ used') h1 h2 (by rw [h6, b]; simp) y0 (by rw [a, h7]; simp)
      (by rw [h8, c]; simp) ?_ h3 h4 h5'⟩
    intro hr; exact d (hr.suffix h8)
  | done a b =>
    rename_i used'
    exact ⟨w', _, rfl, .done (used := used ++ used') h1 h2 h3 h4 h5' (by rw [a, h7, h6]; simp) (by rw [h8, b]; simp)⟩

theorem poll_spec {uriOk : Bytes → Bool} {pool : Pool} {s : Bytes} {e : Option IoErr} {m : Nat} {w0 w : Writer} {f : DecFut ρ}
    (fuel : Nat) (hi : DecInv s e m w0 w f) :
    (f.poll uriOk pool fuel w = .diverge ∧ fuel < s.length + 2) ∨
    ∃ w' d, f.poll uriOk pool fuel w = .ret (w', d) ∧
      match d with
      | .pending f => ∃ m', m' < m ∧ DecInv s e m' w0 w' f
      | .ready res => DecOut uriOk pool s e m w0 w' res := by
  cases hi with
  | interim h1 h2 h3 h4 h5 h6 h7 h8 => exact .inr (pollInterim_spec h1 h2 h3 h4 h5 (by omega) h6 h7 h8)
  | head h1 h2 h3 h4 h5 =>
    rename_i r buf nread
    subst h5
    simp only [DecFut.poll]
    rcases headGo_spec fuel r buf nread h1 with ⟨k1, k2⟩ | ⟨hp, k1, k2⟩
    · left
      rw [k1]
      refine ⟨rfl, ?_⟩
      have : (rem r).length ≤ s.length := by rw [← h2]; simp
      omega
    · right
      rw [k1]
      simp only [Run.ret_bind]
      rw [h2, h3] at k2
      cases k2 with
      | pending a b c d => exact ⟨w, _, rfl, _, by omega, .head a b c (Nat.le_refl _) rfl⟩
      | lost a b => exact ⟨w, _, rfl, .lost a b rfl⟩
      | none a b c d f =>
        rename_i r'
        have hc : r'.buf ++ rem r'.inner = [] := c
        exact ⟨w, _, rfl, .none a b rfl (List.append_eq_nil_iff.1 hc).2 d (by have : meas r'.inner = meas r' := rfl; omega)⟩
      | head a b c d =>
        rename_i r' buf'
        dsimp only
        cases hq : parseHead buf' with
        | fail f => exact ⟨w, _, rfl, .bad a hq rfl b c (by omega)⟩
        | ok p => exact pollInterim_spec (x := []) (used := []) a hq b c (by omega) (by omega) rfl (by simp) rfl

/-- What `awaitDecode` may give. -/
inductive AwaitOk (uriOk : Bytes → Bool) (pool : Pool) (timeout : Bool) (s : Bytes) (e : Option IoErr) (m : Nat) (w0 w : Writer) (clock clock' : List Bool) :
    Await ρ → Prop
  | ready {r ticks} : DecOut uriOk pool s e m w0 w r → clock = ticks ++ clock' → (∀ t ∈ ticks, t = false) → (timeout = false → ticks = []) →
      AwaitOk uriOk pool timeout s e m w0 w clock clock' (.ready r)
  | timedOut {f : DecFut ρ} {ticks m'} : timeout = true → clock = ticks ++ true :: clock' → (∀ t ∈ ticks, t = false) → m' < m →
      DecInv s e m' w0 w f → AwaitOk uriOk pool timeout s e m w0 w clock clock' (.timedOut f.io)

theorem awaitDecode_spec {env : Env} {opts : ServerOpts} {pool : Pool} {s : Bytes} {e : Option IoErr} {m : Nat} {w0 w : Writer} {f : DecFut ρ}
    (fuel n : Nat) (clock : List Bool) (hi : DecInv s e m w0 w f) :
    (awaitDecode env opts fuel pool n f w clock = .diverge ∧ (fuel < s.length + 2 ∨ n ≤ m)) ∨
    ∃ w' clock' a, awaitDecode env opts fuel pool n f w clock = .ret (w', clock', a) ∧
      AwaitOk env.uriOk pool opts.timeout s e m w0 w' clock clock' a := by
  induction n generalizing m w f clock with
  | zero => left; exact ⟨rfl, .inr (by omega)⟩
  | succ n ih =>
    simp only [awaitDecode]
    rcases poll_spec (uriOk := env.uriOk) (pool := pool) fuel hi with ⟨k1, k2⟩ | ⟨w', d, k1, k2⟩
    · left; rw [k1]; exact ⟨rfl, .inl k2⟩
    · rw [k1]
      simp only [Run.ret_bind]
      cases d with
      | ready r => exact .inr ⟨w', clock, _, rfl, .ready (ticks := []) k2 rfl (by simp) (by simp)⟩
      | pending f' =>
        obtain ⟨m', hm, hi'⟩ := k2
        dsimp only
        have mono : ∀ {a : Await ρ} {w' : Writer} {c1 c2 : List Bool}, AwaitOk env.uriOk pool opts.timeout s e m' w0 w' c1 c2 a →
            AwaitOk env.uriOk pool opts.timeout s e m w0 w' c1 c2 a := by
          intro a w' c1 c2 h
          cases h with
          | ready a b c d =>
            refine .ready ?_ b c d
            cases a with
            | none a b c d f g => exact .none a b c d f (by omega)
            | lost a b c => exact .lost a b c
            | bad a b c d f g => exact .bad a b c d f (by omega)
            | cut a b c y0 d f g h i j => exact .cut a b c y0 d f g h i (by omega)
            | done a b c d f g h => exact .done a b c d (by omega) g h
          | timedOut a b c d f => exact .timedOut a b c (by omega) f
        by_cases ht : opts.timeout = true
        · simp only [ht, if_true] at *
          rcases clock with _ | ⟨t, clock⟩
          · dsimp only
            rcases ih [] hi' with ⟨g1, g2⟩ | ⟨w2, c2, a, g1, g2⟩
            · exact .inl ⟨g1, by omega⟩
            · exact .inr ⟨w2, c2, a, g1, mono g2⟩
          · cases t with
            | true => exact .inr ⟨w', clock, _, rfl, .timedOut (ticks := []) rfl rfl (by simp) hm hi'⟩
            | false =>
              dsimp only
              rcases ih clock hi' with ⟨g1, g2⟩ | ⟨w2, c2, a, g1, g2⟩
              · exact .inl ⟨g1, by omega⟩
              · refine .inr ⟨w2, c2, a, g1, ?_⟩
                cases mono g2 with
                | ready a b c d => exact .ready (ticks := false :: _) a (by rw [b]; rfl) (by simpa using c) (by simp)
                | timedOut a b c d f => exact .timedOut (ticks := false :: _) a (by rw [b]; rfl) (by simpa using c) d f
        · have ht' : opts.timeout = false := by simpa using ht
          simp only [ht', Bool.false_eq_true, if_false] at *
          rcases ih clock hi' with ⟨g1, g2⟩ | ⟨w2, c2, a, g1, g2⟩
          · exact .inl ⟨g1, by omega⟩
          · exact .inr ⟨w2, c2, a, g1, mono g2⟩

theorem decInv_start (io : ρ) (w : Writer) :
    DecInv (rem io) (fin io) (meas io + w.script.length) w w (DecFut.start io) :=
  .head noHead_nil rfl rfl (Nat.le_refl _) rfl

end

end Tophat
