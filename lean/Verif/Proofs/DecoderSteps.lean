import Verif.Model.ChunkedDecoder
import Verif.Proofs.Httparse
import Verif.Proofs.Copy
/-!
The decoder refines a transition system on plain byte strings (`Trans`).  Invariants are then proved
about the transition system only.
-/

set_option linter.unusedSectionVars false

namespace Tophat
open Tophat.Spec Tophat.Httparse

namespace Dec

/-- Abstract state: buffered bytes `win`, bytes still to come `R`, how the transport ends `fin`, and
the position `start` of the buffered bytes in a buffer of length `size` and capacity `cap`. -/
structure G where
  st : DState
  win : Bytes
  R : Bytes
  fin : Option IoErr
  start : Nat
  size : Nat
  cap : Nat
  hasSender : Bool
  sent : List HeaderMap

/-- The buffered bytes do not allow a step. -/
def Stuck (st : DState) (win : Bytes) : Prop :=
  match st with
  | .init => parseChunkSize win = .part
  | .chunkEnd => win.length < 2
  | .trailer => parseHeaders 16 win = .part
  | .done => True
  | _ => False

/-- The header map with the given fields. -/
def fieldMap (fs : List (Bytes × Bytes)) : HeaderMap := fs.foldl (fun m f => m.append (lower f.1) f.2) []

/-- The state after `cur` of `len` bytes of a chunk. -/
def chunkState (cur len : Nat) : DState := if cur = len then .chunkEnd else .chunk cur len

inductive Trans : G → Bytes → G → Prop
  | grow {g} (c : Nat) : Stuck g.st g.win → g.cap ≤ g.win.length → g.cap + 1024 ≤ c → g.cap + 1024 ≤ maxCapacity →
      Trans g [] { g with size := g.cap + 1024, cap := c }
  | refill {g} (bs R' : Bytes) : Stuck g.st g.win → g.R = bs ++ R' → bs ≠ [] →
      g.start + g.win.length + bs.length ≤ g.size →
      Trans g [] { g with win := g.win ++ bs, R := R' }
  | eof {g} : Stuck g.st g.win → (g.R = [] ∧ g.fin = none ∨ g.start + g.win.length = g.size ∧ g.win.length < g.cap) →
      Trans g [] { g with st := .done }
  | size {g} (l w : Bytes) (n : Nat) : g.st = .init → g.win = l ++ w → SizeLine l n →
      Trans g [] { g with st := if n = 0 then .trailer else .chunk 0 n, win := w, start := g.start + l.length }
  | drain {g} (cur len : Nat) (x w : Bytes) : g.st = .chunk cur len → g.win = x ++ w → x ≠ [] →
      cur + x.length ≤ len →
      Trans g x { g with st := chunkState (cur + x.length) len, win := w,
                         start := if w = [] then 0 else g.start + x.length }
  | direct {g} (cur len : Nat) (x R' : Bytes) : g.st = .chunk cur len → g.win = [] → g.R = x ++ R' → x ≠ [] →
      cur + x.length ≤ len →
      Trans g x { g with st := chunkState (cur + x.length) len, R := R' }
  | cut {g} (cur len : Nat) : g.st = .chunk cur len → g.win = [] → g.R = [] → g.fin = none →
      Trans g [] { g with st := .done }
  | chunkEnd {g} (w : Bytes) : g.st = .chunkEnd → g.win = 13 :: 10 :: w →
      Trans g [] { g with st := .init, win := w, start := g.start + 2 }
  | trailer {g} (l w : Bytes) (fs : List (Bytes × Bytes)) : g.st = .trailer → g.win = l ++ w →
      FieldSection l fs → fs.length ≤ 16 →
      Trans g [] { g with st := .trailerDone (fieldMap fs), win := w, start := g.start + l.length }
  | take {g} (h : HeaderMap) : g.st = .trailerDone h →
      Trans g [] { g with st := .trailerSending h, hasSender := false }
  | send {g} (h : HeaderMap) : g.st = .trailerSending h →
      Trans g [] { g with st := .done, sent := g.sent ++ [h] }

/-- Any number of steps, with all that is handed out. -/
inductive Steps : G → Bytes → G → Prop
  | refl {g} : Steps g [] g
  | tail {g x g' y g''} : Steps g x g' → Trans g' y g'' → Steps g (x ++ y) g''

theorem Steps.one {g x g'} (h : Trans g x g') : Steps g x g' := by
  have := Steps.tail .refl h; simpa using this

theorem Steps.trans {g x g' y g''} (h : Steps g x g') (h' : Steps g' y g'') : Steps g (x ++ y) g'' := by
  induction h' with
  | refl => simpa using h
  | tail _ ht ih => rw [← List.append_assoc]; exact .tail ih ht

theorem Steps.cons {g x g' y g''} (h : Trans g x g') (h' : Steps g' y g'') : Steps g (x ++ y) g'' :=
  (Steps.one h).trans h'

/-- Why a poll can return an error. -/
inductive Fails : G → IoErr → Prop
  | transport {g e} : g.R = [] → g.fin = some e →
      (Stuck g.st g.win ∨ g.win = [] ∧ ∃ c l, g.st = .chunk c l) → Fails g e
  | size {g pe} : g.st = .init → parseChunkSize g.win = .err pe → Fails g .chunkSize
  | chunkEnd {g} : g.st = .chunkEnd → 2 ≤ g.win.length → g.win.take 2 ≠ [13, 10] → Fails g .invalidData
  | trailer {g pe} : g.st = .trailer → parseHeaders 16 g.win = .err pe → Fails g .trailer
  | tooLarge {g} : g.cap ≤ g.win.length → maxCapacity < g.cap + 1024 → Fails g .tooLarge

/-! ## The concrete side -/

/-- The buffered bytes. -/
def window (data : Bytes) (start stop : Nat) : Bytes := (data.take stop).drop start

variable {ρ : Type} [AsyncRead ρ] [LawfulRead ρ]

/-- Abstraction of the local variables of a poll. -/
def conf (d : ChunkedDecoder ρ) (buffer : Block) (start stop : Nat) : G where
  st := d.state
  win := window buffer.data start stop
  R := rem d.inner
  fin := fin d.inner
  start := start
  size := buffer.data.length
  cap := buffer.cap
  hasSender := d.hasSender
  sent := d.sent

/-- Abstraction of a decoder between polls. -/
def abs (d : ChunkedDecoder ρ) : G := conf d d.buffer d.start d.stop

structure Geo (buffer : Block) (start stop : Nat) : Prop where
  le : start ≤ stop
  len : stop ≤ buffer.data.length
  cap : buffer.data.length ≤ buffer.cap
  max : buffer.data.length ≤ maxCapacity
  pos : initialCapacity ≤ buffer.data.length

structure StOk (st : DState) (hasSender : Bool) : Prop where
  sender : hasSender = true ∨ st = .done ∨ ∃ h, st = .trailerSending h
  chunk : ∀ {cur len}, st = .chunk cur len → cur < len

/-- Between polls. -/
structure DecInv (d : ChunkedDecoder ρ) : Prop where
  geo : Geo d.buffer d.start d.stop
  ok : StOk d.state d.hasSender
  rest : (∀ h, d.state ≠ .trailerDone h) ∧ (∀ h, d.state ≠ .trailerSending h)
  stuck : d.initialDecode = false → Stuck d.state (window d.buffer.data d.start d.stop)
  pool : d.pool.Ok

theorem window_length {data : Bytes} {start stop : Nat} (h : start ≤ stop) (h' : stop ≤ data.length) :
    (window data start stop).length = stop - start := by
  simp [window]; omega

theorem slice_window {data : Bytes} {start stop : Nat} (h : start ≤ stop) (h' : stop ≤ data.length) :
    slice data start stop = .ret (window data start stop) := by
  simp [slice, h, h', window]

theorem window_split {data : Bytes} {start stop n : Nat} (h : n ≤ stop - start) (h' : start ≤ stop)
    (hl : stop ≤ data.length) :
    window data start stop = window data start (start + n) ++ window data (start + n) stop := by
  have e : (data.take stop).take (start + n) = data.take (start + n) := by
    rw [List.take_take, Nat.min_eq_left (by omega)]
  have := List.take_append_drop n ((data.take stop).drop start)
  rw [List.drop_drop] at this
  rw [window, window, window, ← e, ← this]
  congr 1
  conv => rhs; rw [List.drop_take, Nat.add_sub_cancel_left]

/-- If the window starts with `l`, moving `start` by the length of `l` leaves the rest. -/
theorem window_drop {data l w : Bytes} {start stop : Nat} (h : window data start stop = l ++ w) :
    window data (start + l.length) stop = w := by
  have : (window data start stop).drop l.length = w := by rw [h]; simp
  rw [← this, window, window, List.drop_drop]

theorem chunkState_eq (cur len : Nat) :
    (if cur = len then DState.chunkEnd else .chunk cur len) = chunkState cur len := rfl

theorem chunkState_ok {cur len : Nat} {hs : Bool} (h : cur ≤ len) (hs' : hs = true) : StOk (chunkState cur len) hs := by
  constructor
  · exact .inl hs'
  · intro c l e
    unfold chunkState at e
    split at e
    · cases e
    · injection e with e1 e2; subst e1 e2; omega

/-- `appendTrailers` accepts every field section and collects its fields. -/
theorem appendTrailers_ok {l : Bytes} {fs : List (Bytes × Bytes)} (h : FieldSection l fs) (m : HeaderMap) :
    ChunkedDecoder.appendTrailers m fs = some (fs.foldl (fun m f => m.append (lower f.1) f.2) m) := by
  induction h generalizing m with
  | blank _ => rfl
  | @field l r n v fs hl _ ih =>
    obtain ⟨ws, e, _, h1, h2, _, h4, _⟩ := hl
    have hn : headerNameFromBytes n = some (lower n) := by
      rw [headerNameFromBytes, if_pos ⟨h1, List.all_eq_true.2 fun b hb => (isTokenByte_iff b).2 (h2 b hb)⟩]
    have hv : headerValueFromBytes v = some v := by
      rw [headerValueFromBytes, if_pos]
      rw [List.all_eq_true]
      intro b hb
      have := h4 b hb
      simp [valueByte] at this
      simp [headerValueByte]
      omega
    simp only [ChunkedDecoder.appendTrailers, hn, hv, List.foldl_cons, ih]

/-- Order in which the states follow each other inside one poll. -/
def rank : DState → Nat
  | .chunkEnd => 6
  | .init => 5
  | .chunk _ _ => 4
  | .trailer => 3
  | .trailerDone _ => 2
  | .trailerSending _ => 1
  | .done => 0

/-- Outcome of `poll_read_inner`. -/
inductive InnerOut (d : ChunkedDecoder ρ) (buffer : Block) (start stop k : Nat) :
    ChunkedDecoder ρ → DStep → Prop
  | err {d' e} : Fails (conf d buffer start stop) e → d.state ≠ .done → d'.sent = d.sent → InnerOut d buffer start stop k d' (.err e)
  | none : Stuck d.state (window buffer.data start stop) → d.state ≠ .done →
      InnerOut d buffer start stop k d (.res .none)
  | pending {i st} : rem i = rem d.inner → fin i = fin d.inner → meas i < meas d.inner →
      d.state = st → window buffer.data start stop = [] → (∃ c l, st = .chunk c l) →
      InnerOut d buffer start stop k { d with inner := i } (.res (.some [] st start stop true))
  | done : d.state = .done → InnerOut d buffer start stop k d (.res (.some [] .done start stop false))
  | some {d' read st s e} :
      Trans (conf d buffer start stop) read (conf { d' with state := st } buffer s e) →
      Geo buffer s e → StOk st d'.hasSender → meas d'.inner ≤ meas d.inner → read.length ≤ k →
      d'.buffer = d.buffer → d'.pool = d.pool → d'.initialDecode = d.initialDecode →
      (read = [] → st ≠ .done → e = stop ∧ rank st < rank d.state ∧ (∀ c l, d.state ≠ .chunk c l) ∧
        (0 < s ∨ s = start ∧ ∃ h, d.state = .trailerDone h)) →
      (read ≠ [] → st ≠ .done ∧ (∀ h, st ≠ .trailerDone h) ∧ (∀ h, st ≠ .trailerSending h)) →
      InnerOut d buffer start stop k d' (.res (.some read st s e false))

theorem Geo.advance {buffer : Block} {start stop n : Nat} (h : Geo buffer start stop) (hn : n ≤ stop - start) :
    Geo buffer (start + n) stop := ⟨by have := h.le; omega, h.len, h.cap, h.max, h.pos⟩

theorem Geo.zero {buffer : Block} {start stop : Nat} (h : Geo buffer start stop) : Geo buffer 0 0 :=
  ⟨Nat.le_refl _, Nat.zero_le _, h.cap, h.max, h.pos⟩

theorem StOk.of_sender {st : DState} {hs : Bool} (h : hs = true) (hc : ∀ c l, st ≠ .chunk c l) : StOk st hs :=
  ⟨.inl h, fun e => absurd e (hc _ _)⟩

theorem StOk.hasSender {st : DState} {hs : Bool} (h : StOk st hs) (h1 : st ≠ .done) (h2 : ∀ h, st ≠ .trailerSending h) :
    hs = true := by
  rcases h.sender with h | h | ⟨x, h⟩
  · exact h
  · exact absurd h h1
  · exact absurd h (h2 x)

theorem sizeLine_pos {l : Bytes} {n : Nat} (h : SizeLine l n) (s : Nat) : 0 < s + l.length := by
  obtain ⟨_, _, _, rfl, _⟩ := h; simp; omega

theorem section_pos {l : Bytes} {fs : List (Bytes × Bytes)} (h : FieldSection l fs) (s : Nat) : 0 < s + l.length := by
  cases h with
  | blank he => rcases he with rfl | rfl <;> simp
  | field hl _ => obtain ⟨b, r, rfl, _⟩ := fieldLine_first hl; simp; omega

theorem inner_spec (d : ChunkedDecoder ρ) (buffer : Block) (start stop k : Nat) (hk : 0 < k)
    (hg : Geo buffer start stop) (ho : StOk d.state d.hasSender) :
    ∃ d' r, d.pollReadInner buffer start stop k = .ret (d', r) ∧ InnerOut d buffer start stop k d' r := by
  have hwl := window_length hg.le hg.len
  unfold ChunkedDecoder.pollReadInner
  rcases hst : d.state with _ | ⟨cur, len⟩ | _ | _ | h | h | _
  · -- init
    have hs := ho.hasSender (by rw [hst]; simp) (by rw [hst]; simp)
    simp only [ChunkedDecoder.decodeInit, slice_window hg.le hg.len, Run.ret_bind]
    cases hp : parseChunkSize (window buffer.data start stop) with
    | part => exact ⟨_, _, rfl, .none (by rw [hst]; exact hp) (by rw [hst]; simp)⟩
    | err pe => exact ⟨_, _, rfl, .err (.size hst hp) (by rw [hst]; simp) rfl⟩
    | ok rest n =>
      obtain ⟨l, hl, hsl⟩ := (parseChunkSize_ok _ _ _).1 hp
      have hlen : (window buffer.data start stop).length - rest.length = l.length := by rw [hl]; simp
      have hll : l.length ≤ stop - start := by rw [← hwl, hl]; simp
      simp only [hlen]
      refine ⟨_, _, rfl, .some (d' := d) ?_ (hg.advance hll) ?_ (Nat.le_refl _) (by simp) rfl rfl rfl ?_ (by simp)⟩
      · have := Trans.size (g := conf d buffer start stop) l rest n hst hl hsl
        have e : window buffer.data (start + l.length) stop = rest := window_drop hl
        simpa only [conf, e] using this
      · refine ⟨.inl hs, fun {c l} e => ?_⟩
        split at e
        · cases e
        · injection e with e1 e2; omega
      · intro _ _; refine ⟨rfl, ?_, by rw [hst]; simp, .inl (sizeLine_pos hsl start)⟩; rw [hst]; split <;> simp [rank]
  · -- chunk
    have hs := ho.hasSender (by rw [hst]; simp) (by rw [hst]; simp)
    have hcl := ho.chunk hst
    simp only [ChunkedDecoder.pollReadChunk]
    by_cases hw : stop - start > 0
    · obtain ⟨m, hm⟩ : ∃ m, m = min (min (len - cur) k) (stop - start) := ⟨_, rfl⟩
      rw [if_pos hw, ← hm]
      have hm0 : 0 < m := by omega
      have hm1 : m ≤ stop - start := by omega
      have hsl : slice buffer.data start (start + m) = .ret (window buffer.data start (start + m)) :=
        slice_window (by omega) (by have := hg.len; omega)
      have hsp := window_split (n := m) hm1 hg.le hg.len
      have hxl : (window buffer.data start (start + m)).length = m := by
        rw [window_length (by omega) (by have := hg.len; omega)]; omega
      have hwl2 : (window buffer.data (start + m) stop).length = stop - (start + m) := by
        rw [window_length (by omega) hg.len]
      simp only [hsl, Run.ret_bind]
      have htr := Trans.drain (g := conf d buffer start stop) cur len _ _ hst hsp
        (by intro h; rw [h] at hxl; simp at hxl; omega) (by rw [hxl]; omega)
      rw [hxl] at htr
      have hne : window buffer.data start (start + m) ≠ [] := by intro h; rw [h] at hxl; simp at hxl; omega
      have hst' : StOk (if cur + m = len then DState.chunkEnd else .chunk (cur + m) len) d.hasSender :=
        chunkState_ok (by omega) hs
      have hend : ∀ (p : Prop), p → (window buffer.data start (start + m) ≠ [] →
          (if cur + m = len then DState.chunkEnd else .chunk (cur + m) len) ≠ .done ∧
          (∀ h, (if cur + m = len then DState.chunkEnd else .chunk (cur + m) len) ≠ .trailerDone h) ∧
          (∀ h, (if cur + m = len then DState.chunkEnd else .chunk (cur + m) len) ≠ .trailerSending h)) := by
        intro _ _ _; split <;> simp
      by_cases he : start + m = stop
      · simp only [he, if_true]
        rw [he] at htr hne hend
        rw [he] at hxl
        refine ⟨_, _, rfl, .some (d' := d) ?_ hg.zero hst' (Nat.le_refl _) (by rw [hxl]; omega) rfl rfl rfl
          (fun h => absurd h hne) (hend True trivial)⟩
        have e0 : window buffer.data stop stop = [] := by rw [← List.length_eq_zero_iff, window_length (Nat.le_refl _) hg.len]; omega
        have e1 : window buffer.data 0 0 = [] := by simp [window]
        simp only [e0, if_true] at htr
        simpa only [conf, e1, chunkState] using htr
      · simp only [he, if_false]
        refine ⟨_, _, rfl, .some (d' := d) ?_ (hg.advance hm1) hst' (Nat.le_refl _) (by rw [hxl]; omega) rfl rfl rfl
          (fun h => absurd h hne) (hend True trivial)⟩
        have e0 : window buffer.data (start + m) stop ≠ [] := by
          intro h; rw [h] at hwl2; simp at hwl2; omega
        simp only [e0, if_false] at htr
        simpa only [conf, chunkState] using htr
    · rw [if_neg hw]
      have hwin : window buffer.data start stop = [] := by rw [← List.length_eq_zero_iff, hwl]; omega
      obtain ⟨i, p, hp, hr⟩ := LawfulRead.read_ok d.inner (min (len - cur) k)
      rw [hp, Run.ret_bind]
      cases hr with
      | pending h1 h2 h3 => exact ⟨_, _, rfl, .pending h1 h2 h3 hst hwin ⟨_, _, rfl⟩⟩
      | err h1 h2 => exact ⟨_, _, rfl, .err (.transport h1 h2 (.inr ⟨hwin, _, _, hst⟩)) (by rw [hst]; simp) rfl⟩
      | data h1 h2 h3 h4 h5 =>
        rename_i bs
        by_cases hb : bs = []
        · subst hb
          obtain ⟨h6, h7⟩ := h5 (by omega) rfl
          have : ¬ cur = len := by omega
          simp only [List.length_nil, Nat.add_zero, this, if_true, if_false]
          refine ⟨_, _, rfl, .some ?_ hg ⟨.inr (.inl rfl), by simp⟩ h4 (by simp) rfl rfl rfl (by simp) (by simp)⟩
          have := Trans.cut (g := conf d buffer start stop) cur len hst hwin h6 h7
          simp only [List.nil_append] at h2
          simpa only [conf, ← h2, h3] using this
        · have hbl : bs.length ≠ 0 := by simpa using hb
          simp only [hbl, if_false]
          refine ⟨_, _, rfl, .some ?_ hg (chunkState_ok (by omega) hs) h4 (by omega) rfl rfl rfl
            (fun h => absurd h hb) (fun _ => by split <;> simp)⟩
          have := Trans.direct (g := conf d buffer start stop) cur len bs (rem i) hst hwin h2 hb (by omega)
          simpa only [conf, chunkState, h3] using this
  · -- chunkEnd
    have hs := ho.hasSender (by rw [hst]; simp) (by rw [hst]; simp)
    simp only [ChunkedDecoder.decodeChunkEnd]
    split
    · rename_i h2
      exact ⟨_, _, rfl, .none (by rw [hst]; simp only [Stuck, hwl]; omega) (by rw [hst]; simp)⟩
    · rename_i h2
      have hsl : slice buffer.data start (start + 2) = .ret (window buffer.data start (start + 2)) :=
        slice_window (by omega) (by have := hg.len; omega)
      have hsp := window_split (n := 2) (by omega) hg.le hg.len
      have hxl : (window buffer.data start (start + 2)).length = 2 := by
        rw [window_length (by omega) (by have := hg.len; omega)]; omega
      simp only [hsl, Run.ret_bind]
      split
      · rename_i hc
        refine ⟨_, _, rfl, .some (d' := d) ?_ (hg.advance (by omega)) (.of_sender hs (by simp)) (Nat.le_refl _) (by simp)
          rfl rfl rfl (fun _ _ => ⟨rfl, by rw [hst]; simp [rank], by rw [hst]; simp, .inl (by omega)⟩) (by simp)⟩
        exact Trans.chunkEnd (g := conf d buffer start stop) _ hst (by rw [hc] at hsp; exact hsp)
      · rename_i hc
        refine ⟨_, _, rfl, .err (.chunkEnd hst (by simp only [conf, hwl]; omega) ?_) (by rw [hst]; simp) rfl⟩
        simp only [conf]
        rw [hsp, List.take_append_of_le_length (by omega), List.take_of_length_le (by omega)]
        exact hc
  · -- trailer
    have hs := ho.hasSender (by rw [hst]; simp) (by rw [hst]; simp)
    simp only [ChunkedDecoder.decodeTrailer, slice_window hg.le hg.len, Run.ret_bind]
    cases hp : parseHeaders 16 (window buffer.data start stop) with
    | part => exact ⟨_, _, rfl, .none (by rw [hst]; exact hp) (by rw [hst]; simp)⟩
    | err pe => exact ⟨_, _, rfl, .err (.trailer hst hp) (by rw [hst]; simp) rfl⟩
    | ok rest fs =>
      obtain ⟨l, hl, hsl, hfl⟩ := (parseHeaders_ok _ _ _ _).1 hp
      have hlen : (window buffer.data start stop).length - rest.length = l.length := by rw [hl]; simp
      have hll : l.length ≤ stop - start := by rw [← hwl, hl]; simp
      simp only [appendTrailers_ok hsl [], hlen]
      refine ⟨_, _, rfl, .some (d' := d) ?_ (hg.advance hll) (.of_sender hs (by simp)) (Nat.le_refl _) (by simp)
        rfl rfl rfl (fun _ _ => ⟨rfl, by rw [hst]; simp [rank], by rw [hst]; simp, .inl (section_pos hsl start)⟩) (by simp)⟩
      have := Trans.trailer (g := conf d buffer start stop) l rest fs hst hl hsl hfl
      have e : window buffer.data (start + l.length) stop = rest := window_drop hl
      simpa only [conf, e, fieldMap] using this
  · -- trailerDone
    have hs := ho.hasSender (by rw [hst]; simp) (by rw [hst]; simp)
    simp only [hs, if_true]
    refine ⟨_, _, rfl, .some ?_ hg ⟨.inr (.inr ⟨h, rfl⟩), by simp⟩ (Nat.le_refl _) (by simp) rfl rfl rfl
      (fun _ _ => ⟨rfl, by rw [hst]; simp [rank], by rw [hst]; simp, .inr ⟨rfl, h, hst⟩⟩) (by simp)⟩
    exact Trans.take (g := conf d buffer start stop) h hst
  · -- trailerSending
    refine ⟨_, _, rfl, .some ?_ hg ⟨.inr (.inl rfl), by simp⟩ (Nat.le_refl _) (by simp) rfl rfl rfl (by simp) (by simp)⟩
    exact Trans.send (g := conf d buffer start stop) h hst
  · -- done
    exact ⟨_, _, rfl, .done hst⟩

/-- Outcome of a poll that started in the abstract state `g` with the transport `m` (its measure). -/
inductive PollOut (g : G) (m k : Nat) : ChunkedDecoder ρ → RPoll → Prop
  | pending {d'} : Steps g [] (abs d') → DecInv d' → meas d'.inner < m →
      (d'.state = .done → g.st = .done) → PollOut g m k d' .pending
  | data {d' bs} : Steps g bs (abs d') → DecInv d' → meas d'.inner ≤ m → bs.length ≤ k →
      (bs = [] ↔ d'.state = .done) → PollOut g m k d' (.data bs)
  | err {d' e g'} : Steps g [] g' → Fails g' e → d'.sent = g'.sent → (g'.st = .done → g.st = .done) → PollOut g m k d' (.err e)

theorem PollOut.step {g g' : G} {m m' k : Nat} {d' : ChunkedDecoder ρ} {p : RPoll} (ht : Steps g [] g')
    (hs : g'.st = .done → g.st = .done) (hm : m' ≤ m) (h : PollOut g' m' k d' p) : PollOut g m k d' p := by
  cases h with
  | pending h1 h2 h3 h4 => exact .pending (ht.trans h1) h2 (by omega) (fun h => hs (h4 h))
  | data h1 h2 h3 h4 h5 => exact .data (ht.trans h1) h2 (by omega) h4 h5
  | err h1 h2 h3 h4 => exact .err (ht.trans h1) h2 h3 (fun h => hs (h4 h))

theorem stuck_not {st : DState} {w : Bytes} (h : Stuck st w) :
    (∀ h, st ≠ .trailerDone h) ∧ (∀ h, st ≠ .trailerSending h) ∧ (∀ c l, st ≠ .chunk c l) := by
  cases st <;> simp [Stuck] at h ⊢

/-- Iterations still possible. -/
def work (st : DState) (stop : Nat) (needsRead : Bool) : Nat :=
  16 * (maxCapacity - stop) + 2 * rank st + (if needsRead then 0 else 1)

/-- Outcome of the read step. -/
inductive FillOut (d : ChunkedDecoder ρ) (buffer : Block) (start stop k : Nat) : ChunkedDecoder.Fill ρ → Prop
  | quit {d' p} : PollOut (conf d buffer start stop) (meas d.inner) k d' p → FillOut d buffer start stop k (.quit d' p)
  | go {d' buffer' stop'} : Trans (conf d buffer start stop) [] (conf d' buffer' start stop') →
      Geo buffer' start stop' → StOk d'.state d'.hasSender → meas d'.inner ≤ meas d.inner →
      d'.buffer = d.buffer → d'.pool = d.pool →
      (d'.state = .done ∨ d'.state = d.state ∧ stop < stop') → FillOut d buffer start stop k (.go d' buffer' stop')

theorem readMore_spec (d : ChunkedDecoder ρ) (buffer : Block) (start stop k : Nat)
    (hg : Geo buffer start stop) (ho : StOk d.state d.hasSender) (hpool : d.pool.Ok)
    (hst : Stuck d.state (window buffer.data start stop)) (hroom : stop - start < buffer.cap) :
    ∃ f, d.readMore buffer start stop = .ret f ∧ FillOut d buffer start stop k f := by
  have hwl := window_length hg.le hg.len
  unfold ChunkedDecoder.readMore
  rw [if_pos hg.len]
  obtain ⟨i, p, hp, hr⟩ := LawfulRead.read_ok d.inner (buffer.data.length - stop)
  rw [hp, Run.ret_bind]
  cases hr with
  | pending h1 h2 h3 =>
    refine ⟨_, rfl, .quit (.pending ?_ ?_ h3 id)⟩
    · have e : abs { d with inner := i, initialDecode := false, buffer := buffer, start := start, stop := stop } =
          conf d buffer start stop := by simp only [abs, conf, h1, h2]
      rw [e]; exact .refl
    · exact ⟨hg, ho, ⟨(stuck_not hst).1, (stuck_not hst).2.1⟩, fun _ => hst, hpool⟩
  | err h1 h2 => exact ⟨_, rfl, .quit (.err .refl (.transport h1 h2 (.inl hst)) rfl id)⟩
  | data h1 h2 h3 h4 h5 =>
    rename_i bs
    obtain ⟨data, hd, hdl, hdt⟩ := writeAt_ok (buf := buffer.data) (bs := bs) (off := stop) (by have := hg.len; omega)
    simp only [hd, Run.ret_bind]
    have hwin : window data start (stop + bs.length) = window buffer.data start stop ++ bs := by
      rw [window, window, hdt, List.drop_append_of_le_length (by rw [List.length_take]; have := hg.len; have := hg.le; omega)]
    have hg' : Geo { buffer with data := data } start (stop + bs.length) :=
      ⟨by have := hg.le; omega, by simp only [hdl]; have := hg.len; omega, by simp only [hdl]; exact hg.cap,
        by simp only [hdl]; exact hg.max, by simp only [hdl]; exact hg.pos⟩
    by_cases hb : bs = []
    · subst hb
      simp only [List.length_nil, if_true, Nat.add_zero]
      have hw0 : window data start stop = window buffer.data start stop := by simpa using hwin
      have hrem : rem d.inner = rem i := by simpa using h2
      refine ⟨_, rfl, .go ?_ (by simpa using hg') ⟨.inr (.inl rfl), by simp⟩ h4 rfl rfl (.inl rfl)⟩
      have := Trans.eof (g := conf d buffer start stop) hst (by
        simp only [conf, hwl]
        by_cases hz : buffer.data.length - stop = 0
        · exact .inr ⟨by have := hg.len; have := hg.le; omega, hroom⟩
        · exact .inl (h5 (by omega) rfl))
      simpa only [conf, hw0, hdl, ← hrem, h3] using this
    · have hbl : bs.length ≠ 0 := by simpa using hb
      simp only [hbl, if_false]
      refine ⟨_, rfl, .go ?_ hg' ho h4 rfl rfl (.inr ⟨rfl, by omega⟩)⟩
      have := Trans.refill (g := conf d buffer start stop) bs (rem i) hst h2 hb (by
        simp only [conf, hwl]; have := hg.len; have := hg.le; omega)
      simpa only [conf, hwin, hdl, h3] using this

theorem Geo.realloc {buffer : Block} {start stop : Nat} {pool : Pool} (h : Geo buffer start stop) (hp : pool.Ok)
    (hm : buffer.cap + 1024 ≤ maxCapacity) :
    (buffer.realloc pool).data.length = buffer.cap + 1024 ∧ Geo (buffer.realloc pool) start stop ∧
      window (buffer.realloc pool).data start stop = window buffer.data start stop := by
  have h1 : (buffer.realloc pool).data.length = buffer.cap + 1024 := by
    simp [Block.realloc]; have := h.cap; omega
  refine ⟨h1, ⟨h.le, ?_, ?_, ?_, ?_⟩, ?_⟩
  · rw [h1]; have := h.len; have := h.cap; omega
  · rw [h1]; exact hp.grow _
  · rw [h1]; exact hm
  · rw [h1]; have := h.pos; have := h.cap; omega
  · simp only [Block.realloc, window]
    rw [List.take_append_of_le_length h.len]

theorem loop_spec (k : Nat) (hk : 0 < k) : ∀ (fuel : Nat) (d : ChunkedDecoder ρ) (buffer : Block) (start stop : Nat)
    (needsRead : Bool), Geo buffer start stop → StOk d.state d.hasSender → d.pool.Ok →
    d.buffer.data.length ≠ 0 →
    (needsRead = true → Stuck d.state (window buffer.data start stop)) →
    (needsRead = false → d.state ≠ .done ∧ ((∃ c l, d.state = .chunk c l) ∨ 0 < stop) ∧ (start = stop ∨ 0 < start)) →
    work d.state stop needsRead < fuel →
    ∃ d' p, ChunkedDecoder.loop fuel d buffer start stop needsRead k = .ret (d', p) ∧
      PollOut (conf d buffer start stop) (meas d.inner) k d' p := by
  intro fuel
  induction fuel with
  | zero => intro d buffer start stop nr _ _ _ _ _ _ h; omega
  | succ fuel ih =>
    intro d buffer start stop nr hg ho hpool hfresh hnr hnr' hw
    have hwl := window_length hg.le hg.len
    unfold ChunkedDecoder.loop
    split
    · rename_i hfull
      refine ⟨_, _, rfl, .err .refl (.tooLarge (g := conf d buffer start stop) ?_ ?_) rfl id⟩
      · simp only [conf, hwl]; omega
      · simp only [conf]; omega
    · rename_i hfull
      -- the buffer after growing
      obtain ⟨buffer2, hb2⟩ : ∃ b, b = (if stop - start ≥ buffer.cap then buffer.realloc d.pool else buffer) := ⟨_, rfl⟩
      rw [← hb2]
      have hgrow : Geo buffer2 start stop ∧ window buffer2.data start stop = window buffer.data start stop ∧ stop - start < buffer2.cap ∧
          Steps (conf d buffer start stop) [] (conf d buffer2 start stop) := by
        by_cases hc : stop - start ≥ buffer.cap
        · rw [if_pos hc] at hb2
          obtain ⟨g1, g2, g3⟩ := hg.realloc hpool (by omega)
          subst hb2
          refine ⟨g2, g3, ?_, ?_⟩
          · have h5 : buffer.cap + 1024 ≤ (buffer.realloc d.pool).cap := hpool.grow _
            have := hg.len; have := hg.cap; omega
          have hnrt : nr = true := by
            cases nr with
            | true => rfl
            | false =>
              have := (hnr' rfl).2.2
              have := hg.cap; have := hg.len; have := hg.pos; have := hg.le
              have h4 : initialCapacity = 4096 := rfl
              omega
          have := Trans.grow (g := conf d buffer start stop) (d.pool.grow buffer.cap) (hnr hnrt) (by simp only [conf, hwl]; omega)
            (hpool.grow _) (by simp only [conf]; omega)
          refine .one ?_
          have e : (buffer.realloc d.pool).cap = d.pool.grow buffer.cap := rfl
          simpa only [conf, g3, g1, e] using this
        · rw [if_neg hc] at hb2
          subst hb2
          exact ⟨hg, rfl, by omega, .refl⟩
      obtain ⟨hg2, hwin2, hroom2, hsteps2⟩ := hgrow
      -- the read step
      have hfill : ∃ f, d.fill buffer2 start stop nr = .ret f ∧
          ((∃ d' p, f = .quit d' p ∧ PollOut (conf d buffer2 start stop) (meas d.inner) k d' p) ∨
           ∃ d2 buffer3 stop3, f = .go d2 buffer3 stop3 ∧
            Steps (conf d buffer2 start stop) [] (conf d2 buffer3 start stop3) ∧
            Geo buffer3 start stop3 ∧ StOk d2.state d2.hasSender ∧ meas d2.inner ≤ meas d.inner ∧
            d2.buffer = d.buffer ∧ d2.pool = d.pool ∧
            (d2.state = .done ∨ d2.state = d.state ∧ (nr = true ∧ stop < stop3 ∨
              nr = false ∧ stop3 = stop ∧ ((∃ c l, d.state = .chunk c l) ∨ 0 < stop)))) := by
        cases nr with
        | true =>
          obtain ⟨f, hf, hfo⟩ := readMore_spec d buffer2 start stop k hg2 ho hpool (by rw [hwin2]; exact hnr rfl) hroom2
          refine ⟨f, hf, ?_⟩
          cases hfo with
          | quit h => exact .inl ⟨_, _, rfl, h⟩
          | go h1 h2 h3 h4 h5 h6 h7 =>
            refine .inr ⟨_, _, _, rfl, .one h1, h2, h3, h4, h5, h6, ?_⟩
            rcases h7 with h7 | ⟨h7, h8⟩
            · exact .inl h7
            · exact .inr ⟨h7, .inl ⟨rfl, h8⟩⟩
        | false =>
          refine ⟨_, rfl, .inr ⟨_, _, _, rfl, .refl, hg2, ho, Nat.le_refl _, rfl, rfl, .inr ⟨rfl, .inr ⟨rfl, rfl, (hnr' rfl).2.1⟩⟩⟩⟩
      obtain ⟨f, hf, hfo⟩ := hfill
      simp only [hf, Run.ret_bind]
      rcases hfo with ⟨d', p, rfl, hpo⟩ | ⟨d2, buffer3, stop3, rfl, hsteps3, hg3, ho3, hm3, hbuf3, hpool3, hprog⟩
      · exact ⟨_, _, rfl, .step hsteps2 (fun h => h) (Nat.le_refl _) hpo⟩
      · have hsteps : Steps (conf d buffer start stop) [] (conf d2 buffer3 start stop3) := hsteps2.trans hsteps3
        obtain ⟨d3, r, hr, hro⟩ := inner_spec d2 buffer3 start stop3 k hk hg3 ho3
        simp only [hr, Run.ret_bind]
        cases hro with
        | err h h' h'' => exact ⟨_, _, rfl, .err hsteps h h'' (fun hx => absurd hx h')⟩
        | none hstk hnd =>
          have hprog' : d2.state = d.state ∧ (nr = true ∧ stop < stop3 ∨
              nr = false ∧ stop3 = stop ∧ ((∃ c l, d.state = .chunk c l) ∨ 0 < stop)) := by
            rcases hprog with h | h
            · exact absurd h hnd
            · exact h
          have hpos : 0 < stop3 := by
            rcases hprog'.2 with ⟨_, h⟩ | ⟨_, h, ⟨c, l, hcl⟩ | h'⟩
            · omega
            · rw [hprog'.1] at hstk; exact absurd hcl ((stuck_not hstk).2.2 c l)
            · omega
          have hcond : ¬ (d2.buffer.data.length = 0 ∨ start = 0 ∧ stop3 = 0) := by
            rw [hbuf3]; omega
          rw [if_neg hcond]
          have hmax := hg3.max
          have hlen := hg3.len
          obtain ⟨d', p, h1, h2⟩ := ih d2 buffer3 start stop3 true hg3 ho3 (hpool3 ▸ hpool) (hbuf3 ▸ hfresh)
            (fun _ => hstk) (by simp) (by
              have hw' := hw
              simp only [work] at hw' ⊢
              rw [hprog'.1]
              rcases hprog'.2 with ⟨h, h'⟩ | ⟨h, h', _⟩
              · simp only [h, if_true] at hw' ⊢; omega
              · simp only [h, h'] at hw' ⊢; simp at hw' ⊢; omega)
          exact ⟨d', p, h1, .step hsteps (fun hx => absurd hx hnd) hm3 h2⟩
        | pending h1 h2 h3 h4 h5 h6 =>
          obtain ⟨c, l, hcl⟩ := h6
          subst hcl
          simp only [List.length_nil]
          refine ⟨_, _, rfl, .pending ?_ ?_ (by simp only; omega) (by simp)⟩
          · refine hsteps.trans (y := []) ?_
            rename_i i
            have e : abs { d2 with inner := i, initialDecode := true, state := .chunk c l, start := start, stop := stop3,
                                   buffer := buffer3 } = conf d2 buffer3 start stop3 := by
              simp only [abs, conf, h1, h2, h4]
            rw [e]; exact .refl
          · exact ⟨hg3, h4 ▸ ho3, by simp, by simp, hpool3 ▸ hpool⟩
        | done h1 =>
          refine ⟨_, _, rfl, .data ?_ ?_ hm3 (by simp) (by simp)⟩
          · have e : abs { d2 with initialDecode := true, state := .done, start := start, stop := stop3, buffer := buffer3 } =
                conf d2 buffer3 start stop3 := by
              simp only [abs, conf, h1]
            rw [e]; exact hsteps
          · exact ⟨hg3, h1 ▸ ho3, by simp, by simp, hpool3 ▸ hpool⟩
        | some h1 h2 h3 h4 h5 h6 h7 h8 h9 h10 =>
          rename_i read st s e
          have hst1 : Steps (conf d buffer start stop) read (conf { d3 with state := st } buffer3 s e) := by
            have := hsteps.trans (.one h1); simpa using this
          simp only
          have habs : ∀ b, abs { d3 with initialDecode := b, state := st, start := s, stop := e, buffer := buffer3 } =
              conf { d3 with state := st } buffer3 s e := fun b => by simp only [abs, conf]
          split
          · rename_i hd
            by_cases hread : read = []
            · refine ⟨_, _, rfl, .data (by rw [habs]; exact hst1) ?_ (by simp only; omega) h5 (by simp [hd, hread])⟩
              exact ⟨h2, h3, by simp [hd], by simp, by simp only [h7, hpool3]; exact hpool⟩
            · exact absurd hd (h10 hread).1
          · rename_i hd
            split
            · rename_i hl
              have hread : read ≠ [] := by rintro rfl; simp at hl
              refine ⟨_, _, rfl, .data (by rw [habs]; exact hst1) ?_ (by simp only; omega) h5 (by simp [hread, (h10 hread).1])⟩
              exact ⟨h2, h3, (h10 hread).2, by simp, by simp only [h7, hpool3]; exact hpool⟩
            · rename_i hl
              have hread : read = [] := List.length_eq_zero_iff.1 (by omega)
              subst hread
              obtain ⟨he, hrank, hnc, hspos⟩ := h9 rfl hd
              subst he
              have hmax := hg3.max
              have hlen := hg3.len
              simp only [Bool.false_eq_true, if_false]
              have hnd : d2.state ≠ .done := by intro h; rw [h] at hrank; simp [rank] at hrank
              have hprog' : d2.state = d.state ∧ (nr = true ∧ stop < e ∨
                  nr = false ∧ e = stop ∧ ((∃ c l, d.state = .chunk c l) ∨ 0 < stop)) := by
                rcases hprog with h | h
                · exact absurd h hnd
                · exact h
              obtain ⟨d', p, g1, g2⟩ := ih { d3 with initialDecode := true, state := st, start := s, stop := e } buffer3 s e false
                h2 h3 (by simp only [h7, hpool3]; exact hpool) (by simp only [h6, hbuf3]; exact hfresh) (by simp)
                (fun _ => ⟨hd, by
                  rcases hprog'.2 with ⟨_, h⟩ | ⟨_, h, ⟨c, l, hcl⟩ | h'⟩
                  · exact .inr (by omega)
                  · -- a chunk step without data cannot happen here
                    rw [← hprog'.1] at hcl
                    exact absurd hcl (hnc c l)
                  · exact .inr (by omega), by
                  rcases hspos with h | ⟨h, m, hm⟩
                  · exact .inr h
                  · rcases hprog'.2 with ⟨h', _⟩ | ⟨h', h'', _⟩
                    · rw [hprog'.1] at hm; exact absurd hm ((stuck_not (hnr h')).1 m)
                    · have := (hnr' h').2.2; omega⟩)
                (by
                  simp only [work] at hw ⊢
                  rw [← hprog'.1] at hw
                  rcases hprog'.2 with ⟨h, h'⟩ | ⟨h, h', _⟩
                  · simp only [h, if_true] at hw; simp; omega
                  · simp only [h, h'] at hw ⊢; simp at hw ⊢; omega)
              refine ⟨d', p, g1, .step hst1 (fun hx => absurd hx hd) (Nat.le_trans h4 hm3) ?_⟩
              exact g2

theorem rank_le (st : DState) : rank st ≤ 6 := by cases st <;> simp [rank]

theorem work_lt (st : DState) (stop : Nat) (nr : Bool) : work st stop nr < ChunkedDecoder.loopFuel := by
  have := rank_le st
  unfold work ChunkedDecoder.loopFuel
  split <;> omega

/-- One poll with a non-empty buffer. -/
theorem poll_spec (d : ChunkedDecoder ρ) (k : Nat) (hk : 0 < k) (hd : DecInv d) :
    ∃ d' p, pollRead d k = .ret (d', p) ∧ PollOut (abs d) (meas d.inner) k d' p := by
  show ∃ d' p, d.pollFuel ChunkedDecoder.loopFuel k = .ret (d', p) ∧ PollOut (abs d) (meas d.inner) k d' p
  have hwl := window_length hd.geo.le hd.geo.len
  obtain ⟨d0, hd0⟩ : ∃ d0 : ChunkedDecoder ρ, d0 =
      { d with start := 0, stop := 0, buffer := d.pool.alloc, pool := { d.pool with next := d.pool.next + 1 } } := ⟨_, rfl⟩
  have hpool0 : d0.pool.Ok := by rw [hd0]; exact ⟨hd.pool.len, hd.pool.grow⟩
  have hfresh : d0.buffer.data.length ≠ 0 := by
    rw [hd0]; simp only [Pool.alloc, hd.pool.len]; decide
  have hconf : conf d0 d.buffer d.start d.stop = abs d := by rw [hd0]; rfl
  have hstate : d0.state = d.state := by rw [hd0]
  have hsender : d0.hasSender = d.hasSender := by rw [hd0]
  have hinner : d0.inner = d.inner := by rw [hd0]
  have hok0 : StOk d0.state d0.hasSender := by rw [hstate, hsender]; exact hd.ok
  unfold ChunkedDecoder.pollFuel
  simp only [← hd0]
  -- the loop, from a window without a possible step
  have hloop : ∀ nr, nr = (match d.state with | .chunk _ _ => false | _ => true) →
      (nr = true → Stuck d0.state (window d.buffer.data d.start d.stop)) →
      ((∃ c l, d.state = .chunk c l) → d.start = d.stop) →
      ∃ d' p, ChunkedDecoder.loop ChunkedDecoder.loopFuel d0 d.buffer d.start d.stop nr k = .ret (d', p) ∧
        PollOut (abs d) (meas d.inner) k d' p := by
    intro nr hnr hst hne
    rw [← hconf, ← hinner]
    refine loop_spec k hk _ d0 d.buffer d.start d.stop nr hd.geo hok0 hpool0 hfresh hst ?_ (work_lt _ _ _)
    intro h
    rw [h] at hnr
    rw [hstate]
    have hchunk : ∃ c l, d.state = .chunk c l := by
      rcases hs : d.state with _ | ⟨c, l⟩ | _ | _ | _ | _ | _ <;> rw [hs] at hnr <;> simp at hnr ⊢
    obtain ⟨c, l, hcl⟩ := hchunk
    refine ⟨by rw [hcl]; simp, .inl ⟨c, l, hcl⟩, ?_⟩
    by_cases hse : d.start = d.stop
    · exact .inl hse
    · exact absurd (hne ⟨c, l, hcl⟩) hse
  split
  · rename_i hc
    obtain ⟨d3, r, hr, hro⟩ := inner_spec d0 d.buffer d.start d.stop k hk hd.geo hok0
    simp only [hr, Run.ret_bind]
    cases hro with
    | err h h' h'' => exact ⟨_, _, rfl, .err .refl (hconf ▸ h) (by rw [h'', hd0]; rfl) id⟩
    | none hstk hnd => exact hloop _ rfl (fun _ => hstk) (by rintro ⟨c, l, h⟩; rw [← hstate] at h; exact absurd h ((stuck_not hstk).2.2 c l))
    | pending h1 h2 h3 h4 h5 h6 => rw [← List.length_eq_zero_iff, hwl] at h5; omega
    | done h1 =>
      refine ⟨_, _, rfl, .data ?_ ?_ (by simp [hinner]) (by simp) (by simp)⟩
      · rw [← hconf]
        have e : abs { d0 with state := .done, start := d.start, stop := d.stop, buffer := d.buffer } =
            conf d0 d.buffer d.start d.stop := by simp only [abs, conf, h1]
        rw [e]; exact .refl
      · exact ⟨hd.geo, h1 ▸ hok0, by simp, by simp [Stuck], hpool0⟩
    | some h1 h2 h3 h4 h5 h6 h7 h8 h9 h10 =>
      rename_i read st s e
      rw [hconf] at h1
      have hid : d3.initialDecode = true := h8.trans (by rw [hd0]; exact hc.2)
      have habs : abs { d3 with state := st, start := s, stop := e, buffer := d.buffer } =
          conf { d3 with state := st } d.buffer s e := rfl
      simp only [Bool.false_eq_true, if_false]
      split
      · rename_i hdn
        by_cases hread : read = []
        · refine ⟨_, _, rfl, .data (by rw [habs]; exact .one h1) ?_ (by simp only [← hinner]; exact h4) h5 (by simp [hdn, hread])⟩
          exact ⟨h2, h3, by simp [hdn], by simp [hdn, Stuck], by simp only [h7]; exact hpool0⟩
        · exact absurd hdn (h10 hread).1
      · rename_i hdn
        split
        · rename_i hl
          have hread : read ≠ [] := by rintro rfl; simp at hl
          refine ⟨_, _, rfl, .data (by rw [habs]; exact .one h1) ?_ (by simp only [← hinner]; exact h4) h5 (by simp [hread, (h10 hread).1])⟩
          exact ⟨h2, h3, (h10 hread).2, by simp [hid], by simp only [h7]; exact hpool0⟩
        · rename_i hl
          have hread : read = [] := List.length_eq_zero_iff.1 (by omega)
          subst hread
          obtain ⟨he, hrank, hnc, hspos⟩ := h9 rfl hdn
          subst he
          obtain ⟨d', p, g1, g2⟩ := loop_spec k hk ChunkedDecoder.loopFuel
            { d3 with state := st, start := s, stop := d.stop } d.buffer s d.stop false h2 h3
            (by simp only [h7]; exact hpool0) (by simp only [h6]; exact hfresh) (by simp)
            (fun _ => ⟨hdn, .inr (by omega), by
              rcases hspos with h | ⟨h, m, hm⟩
              · exact .inr h
              · rw [hstate] at hm; exact absurd hm (hd.rest.1 m)⟩) (work_lt _ _ _)
          exact ⟨d', p, g1, .step (.one h1) (fun hx => absurd hx hdn) (by rw [← hinner]; exact h4) g2⟩
  · rename_i hc
    refine hloop _ rfl ?_ (by
      rintro ⟨c, l, h⟩
      by_cases hi : d.initialDecode = true
      · have hz : ¬ d.stop - d.start > 0 := fun h => hc ⟨h, hi⟩
        have := hd.geo.le; omega
      · have := hd.stuck (by simpa using hi)
        rw [h] at this; exact absurd this (by simp [Stuck]))
    intro hnr
    rw [hstate]
    by_cases hi : d.initialDecode = true
    · have hz : ¬ d.stop - d.start > 0 := fun h => hc ⟨h, hi⟩
      have hwin : window d.buffer.data d.start d.stop = [] := by rw [← List.length_eq_zero_iff, hwl]; omega
      rw [hwin]
      rcases hs : d.state with _ | ⟨c, l⟩ | _ | _ | h | h | _
      · rfl
      · rw [hs] at hnr; simp at hnr
      · simp [Stuck]
      · rfl
      · exact absurd hs (hd.rest.1 h)
      · exact absurd hs (hd.rest.2 h)
      · trivial
    · exact hd.stuck (by simpa using hi)

theorem decInv_new (inner : ρ) (pool : Pool) (hp : pool.Ok) : DecInv (ChunkedDecoder.new inner pool) := by
  constructor
  · refine ⟨Nat.le_refl _, Nat.zero_le _, ?_, ?_, ?_⟩ <;> simp only [ChunkedDecoder.new, Pool.alloc, hp.len] <;> decide
  · exact ⟨.inl rfl, by simp [ChunkedDecoder.new]⟩
  · simp [ChunkedDecoder.new]
  · intro _; simp only [ChunkedDecoder.new, window]; rfl
  · exact ⟨hp.len, hp.grow⟩

end Dec
end Tophat
