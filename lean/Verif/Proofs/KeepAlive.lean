import Verif.Spec.KeepAlive
import Verif.Spec.Endpoint
import Verif.Proofs.Conversation
import Verif.Proofs.Eaten
import Mathlib.Data.List.Forall2
/-! Requests that reach the server one at a time. -/

set_option linter.unusedSectionVars false
set_option synthInstance.maxSize 1000

namespace Tophat
open Spec

/-! ## Concatenated scripts -/

theorem Script.bytes_append (g : Script) (h : Script.ending g = none) (s : Script) : Script.bytes (g ++ s) = Script.bytes g ++ Script.bytes s := by
  induction g with
  | nil => rfl
  | cons e g ih => cases e <;> simp_all [Script.bytes, Script.ending]

theorem Script.ending_append (g : Script) (h : Script.ending g = none) (s : Script) : Script.ending (g ++ s) = Script.ending s := by
  induction g with
  | nil => rfl
  | cons e g ih => cases e <;> simp_all [Script.ending]

theorem Script.pendings_append (g : Script) (h : Script.ending g = none) (s : Script) : Script.pendings (g ++ s) = Script.pendings g + Script.pendings s := by
  induction g with
  | nil => simp [Script.pendings]
  | cons e g ih => cases e <;> simp_all [Script.ending, Script.pendings] <;> omega

/-- Reading from the first of two parts, as long as it has bytes left. -/
theorem Script.read_front (g : Script) (h : Script.ending g = none) (hb : Script.bytes g ≠ []) (s : Script) (k : Nat) (hk : 0 < k) :
    ∃ g', Script.read (g ++ s) k = (g' ++ s, (Script.read g k).2) ∧ Script.ending g' = none ∧
      (((Script.read g k).2 = .pending ∧ Script.bytes g' = Script.bytes g ∧ Script.pendings g' < Script.pendings g) ∨
       ∃ bs, (Script.read g k).2 = .data bs ∧ bs ≠ [] ∧ bs.length ≤ k ∧ Script.bytes g = bs ++ Script.bytes g' ∧ Script.pendings g' ≤ Script.pendings g) := by
  induction g with
  | nil => simp [bytes] at hb
  | cons e g ih =>
    cases e with
    | pending => exact ⟨g, rfl, h, .inl ⟨rfl, rfl, by simp [pendings]⟩⟩
    | err e => simp [ending] at h
    | data bs =>
      have h' : Script.ending g = none := h
      by_cases hbs : bs = []
      · subst hbs
        have hb' : Script.bytes g ≠ [] := hb
        obtain ⟨g', a, b, c⟩ := ih h' hb'
        have e1 : Script.read (.data [] :: g) k = Script.read g k := by simp [read]
        have e2 : Script.read ((.data [] :: g) ++ s) k = Script.read (g ++ s) k := by simp [read]
        rw [e1, e2]
        exact ⟨g', a, b, c⟩
      · by_cases hl : bs.length ≤ k
        · refine ⟨g, by simp [read, hbs, hl], h', .inr ⟨bs, by simp [read, hbs, hl], hbs, hl, rfl, Nat.le_refl _⟩⟩
        · refine ⟨.data (bs.drop k) :: g, by simp [read, hbs, hl], h', .inr ⟨bs.take k, by simp [read, hbs, hl], ?_, ?_, ?_, Nat.le_refl _⟩⟩
          · intro h0
            have := congrArg List.length h0
            simp at this
            rcases this with h1 | h1
            · omega
            · exact hbs h1
          · simp; omega
          · simp [bytes, ← List.append_assoc]

/-! ## The buffer in front -/

/-- Of the bytes before `rest`, exactly `x` have not been consumed; none of `rest` is in the buffer. -/
def Al (rest : Script) (m : Nat) (x : Bytes) (r : BufRd Script) : Prop :=
  ∃ g, r.inner = g ++ rest ∧ Script.ending g = none ∧ Script.pendings g ≤ m ∧ r.buf ++ Script.bytes g = x

theorem Al.mono {rest : Script} {m m' : Nat} {x : Bytes} {r : BufRd Script} (h : Al rest m x r) (hm : m ≤ m') : Al rest m' x r := by
  obtain ⟨g, a, b, c, d⟩ := h
  exact ⟨g, a, b, by omega, d⟩

theorem Al.fill {rest : Script} {m : Nat} {x : Bytes} {r r' : BufRd Script} {p : RPoll} (h : Al rest m x r) (hx : x ≠ [])
    (hp : pollFill r = .ret (r', p)) :
    (p = .pending ∧ 0 < m ∧ Al rest (m - 1) x r') ∨ ∃ bs, p = .data bs ∧ bs ≠ [] ∧ r'.buf = bs ∧ bs <+: x ∧ Al rest m x r' := by
  obtain ⟨g, a, b, c, d⟩ := h
  have hp' : r.fill = .ret (r', p) := hp
  unfold BufRd.fill at hp'
  split at hp'
  · rename_i hb
    rw [hb, List.nil_append] at d
    obtain ⟨g', e1, e2, e3⟩ := Script.read_front g b (by rw [d]; exact hx) rest bufRdCap (by decide)
    have : pollRead r.inner bufRdCap = .ret (g' ++ rest, (Script.read g bufRdCap).2) := by
      show Run.ret (Script.read r.inner bufRdCap) = _
      rw [a, e1]
    rw [this] at hp'
    simp only [Run.ret_bind, Run.ret.injEq] at hp'
    rcases e3 with ⟨f1, f2, f3⟩ | ⟨bs, f1, f2, f3, f4, f5⟩
    · rw [f1] at hp'
      simp only [BufRd.filled, Prod.mk.injEq] at hp'
      obtain ⟨rfl, rfl⟩ := hp'
      refine .inl ⟨rfl, by omega, g', rfl, e2, by omega, by rw [← d, f2]; rfl⟩
    · rw [f1] at hp'
      simp only [BufRd.filled, Prod.mk.injEq] at hp'
      obtain ⟨rfl, rfl⟩ := hp'
      refine .inr ⟨bs, rfl, f2, rfl, ⟨Script.bytes g', by rw [← d, f4]⟩, g', rfl, e2, by omega, by rw [← d, f4]⟩
  · rename_i hb
    simp only [Run.ret.injEq, Prod.mk.injEq] at hp'
    obtain ⟨rfl, rfl⟩ := hp'
    exact .inr ⟨r.buf, rfl, hb, rfl, ⟨_, d⟩, g, a, b, c, d⟩

theorem Al.consume {rest : Script} {m n : Nat} {x : Bytes} {r : BufRd Script} (h : Al rest m x r) (hn : n ≤ r.buf.length) :
    Al rest m (x.drop n) (consume r n) := by
  obtain ⟨g, a, b, c, d⟩ := h
  refine ⟨g, a, b, c, ?_⟩
  rw [← d, List.drop_append_of_le_length hn]
  rfl

theorem Al.read {rest : Script} {m k : Nat} {x : Bytes} {r r' : BufRd Script} {p : RPoll} (h : Al rest m x r) (hx : x ≠ []) (hk : 0 < k)
    (hp : pollRead r k = .ret (r', p)) :
    (p = .pending ∧ 0 < m ∧ Al rest (m - 1) x r') ∨
    ∃ bs, p = .data bs ∧ bs ≠ [] ∧ bs.length ≤ k ∧ bs <+: x ∧ Al rest m (x.drop bs.length) r' := by
  have hp' : r.read k = .ret (r', p) := hp
  unfold BufRd.read at hp'
  split at hp'
  · rename_i hb
    obtain ⟨g, a, b, c, d⟩ := h
    rw [hb.1, List.nil_append] at d
    obtain ⟨g', e1, e2, e3⟩ := Script.read_front g b (by rw [d]; exact hx) rest k hk
    have : pollRead r.inner k = .ret (g' ++ rest, (Script.read g k).2) := by
      show Run.ret (Script.read r.inner k) = _
      rw [a, e1]
    rw [this] at hp'
    simp only [Run.ret_bind, Run.ret.injEq, Prod.mk.injEq] at hp'
    obtain ⟨rfl, rfl⟩ := hp'
    rcases e3 with ⟨f1, f2, f3⟩ | ⟨bs, f1, f2, f3, f4, f5⟩
    · exact .inl ⟨f1, by omega, g', rfl, e2, by omega, by rw [← d, f2]; rfl⟩
    · exact .inr ⟨bs, f1, f2, f3, ⟨Script.bytes g', by rw [← d, f4]⟩, g', rfl, e2, by omega, by rw [← d, f4]; simp⟩
  · obtain ⟨⟨r1, q⟩, h1, h2⟩ := Run.bind_eq_ret.1 hp'
    simp only [Run.ret.injEq] at h2
    rcases h.fill hx h1 with ⟨rfl, a2, a3⟩ | ⟨bs, rfl, a2, a3, a4, a5⟩
    · simp only [BufRd.copyOut, Prod.mk.injEq] at h2
      obtain ⟨rfl, rfl⟩ := h2
      exact .inl ⟨rfl, a2, a3⟩
    · simp only [BufRd.copyOut, Prod.mk.injEq] at h2
      obtain ⟨rfl, rfl⟩ := h2
      refine .inr ⟨bs.take k, rfl, ?_, by simp; omega, (List.take_prefix _ _).trans a4, ?_⟩
      · intro h0
        have := congrArg List.length h0
        simp at this
        rcases this with h1 | h1
        · omega
        · exact a2 h1
      · obtain ⟨g, b1, b2, b3, b4⟩ := a5
        refine ⟨g, b1, b2, b3, ?_⟩
        rw [← b4]
        show r1.buf.drop k ++ _ = _
        rw [a3, List.drop_append_of_le_length (by simp; omega)]
        congr 1
        by_cases hl : bs.length ≤ k
        · rw [List.take_of_length_le hl, List.drop_of_length_le hl, List.drop_of_length_le (Nat.le_refl _)]
        · rw [List.length_take, Nat.min_eq_left (by omega)]

/-! ## Reading the head -/

/-- Nothing behind `h ++ body` is touched while `h` is read. -/
theorem headGo_al {rest : Script} {h body : Bytes} (hh : FirstHead h h) (fuel : Nat) : ∀ {m nread : Nat} {r : BufRd Script} {buf y : Bytes} {hp : HeadPoll Script},
    h = buf ++ y → y ≠ [] → Al rest m (y ++ body) r → headGo fuel r buf nread = .ret hp →
    (∃ r' buf' nread' y', hp = .pending r' buf' nread' ∧ h = buf' ++ y' ∧ y' ≠ [] ∧ 0 < m ∧ Al rest (m - 1) (y' ++ body) r') ∨
    ∃ r', hp = .head r' h ∧ Al rest m body r' := by
  induction fuel with
  | zero => intro m nread r buf y hp _ _ _ hg; simp [headGo] at hg
  | succ fuel ih =>
    intro m nread r buf y hp hy hne ha hg
    simp only [headGo] at hg
    obtain ⟨⟨r1, p⟩, h1, h2⟩ := Run.bind_eq_ret.1 hg
    rcases ha.fill (by simp [hne]) h1 with ⟨rfl, a2, a3⟩ | ⟨bs, rfl, a2, a3, a4, a5⟩
    · simp only [Run.ret.injEq] at h2
      subst h2
      exact .inl ⟨r1, buf, nread, y, rfl, hy, hne, a2, a3⟩
    · have hmin : ∀ z, z <+: h → EndsBlank z → z = h := by
        intro z hz he
        exact hh.2.2 z hz he
      -- the head ends with a line feed, so a line does not go beyond it
      have hend : ∃ z, h = z ++ [10] := by
        obtain ⟨q, hq⟩ := hh.2.1
        exact ⟨q ++ [13, 10, 13], by rw [hq]; simp⟩
      obtain ⟨z, hz⟩ := hend
      have hylf : (10 : UInt8) ∈ y := by
        have : y ≠ [] := hne
        have h3 : y.getLast? = some 10 := by
          have h4 : (buf ++ y).getLast? = some 10 := by rw [← hy, hz]; simp
          rw [List.getLast?_append] at h4
          cases hq : y.getLast? with
          | none => rw [List.getLast?_eq_none_iff] at hq; exact absurd hq hne
          | some v => rw [hq] at h4; simpa using h4
        exact List.mem_of_getLast? h3
      -- the first line lies inside y
      have inside : ∀ line, line <+: y ++ body → (∀ a b, line = a ++ b → b ≠ [] → (10 : UInt8) ∉ a) → line <+: y := by
        intro line hl hno
        rcases List.prefix_or_prefix_of_prefix hl (List.prefix_append y body) with g | ⟨t, g⟩
        · exact g
        · by_cases ht : t = []
          · rw [ht] at g; rw [← g]; simp
          · exact absurd hylf (hno y t g.symm ht)
      dsimp only at h2
      split at h2
      · rename_i line hl
        obtain ⟨q, tl, g1, g2, g3⟩ := lineOf_some hl
        have hle : line.length ≤ r1.buf.length := by rw [a3, g1]; simp
        have hpre : line <+: y := by
          refine inside line (((by rw [g1]; simp : line <+: bs)).trans a4) ?_
          intro a b hab hb hmem
          rw [g2] at hab
          have : b = b.dropLast ++ [b.getLast hb] := (List.dropLast_concat_getLast hb).symm
          rw [this, ← List.append_assoc] at hab
          have := (List.append_inj' hab rfl).1
          exact g3 (by rw [this]; simp [hmem])
        obtain ⟨t, ht⟩ := hpre
        have hal : Al rest m (t ++ body) (consume r1 line.length) := by
          have := a5.consume hle
          rw [← ht] at this
          simpa using this
        split at h2
        · rename_i hE
          rw [endsHead_iff] at hE
          have : buf ++ line = h := hmin _ ⟨t, by rw [hy, ← ht]; simp⟩ hE
          have ht0 : t = [] := by
            have h5 := congrArg List.length this
            have h6 := congrArg List.length hy
            rw [← ht] at h6
            simp at h5 h6
            exact List.length_eq_zero_iff.1 (by omega)
          simp only [Run.ret.injEq] at h2
          subst h2
          rw [this]
          rw [ht0] at hal
          exact .inr ⟨_, rfl, hal⟩
        · rename_i hE
          rw [endsHead_iff] at hE
          have htne : t ≠ [] := by
            rintro rfl
            apply hE
            rw [List.append_nil] at ht
            rw [ht, ← hy]
            exact hh.2.1
          exact ih (by rw [hy, ← ht]; simp) htne hal h2
      · rename_i hl
        have hno := lineOf_none hl
        rw [if_neg a2] at h2
        have hpre : bs <+: y := by
          refine inside bs a4 ?_
          intro a b hab hb hmem
          exact hno (by rw [hab]; simp [hmem])
        obtain ⟨t, ht⟩ := hpre
        have hal : Al rest m (t ++ body) (consume r1 bs.length) := by
          have := a5.consume (n := bs.length) (by rw [a3]; exact Nat.le_refl _)
          rw [← ht] at this
          simpa using this
        have htne : t ≠ [] := by
          rintro rfl
          rw [List.append_nil] at ht
          rw [ht] at hno
          exact hno hylf
        exact ih (by rw [hy, ← ht]; simp) htne hal h2

/-- The state of `decode`. -/
def FutAl (rest : Script) (m : Nat) (h body : Bytes) : DecFut Script → Prop
  | .head r buf _ => ∃ y, h = buf ++ y ∧ y ≠ [] ∧ Al rest m (y ++ body) r
  | .interim r _ _ => Al rest m body r

theorem finishDecode_buf {uriOk : Bytes → Bool} {pool : Pool} {r : BufRd Script} {p : Parsed} {req : Request Script}
    (h : finishDecode uriOk pool r p = .request req) : req.body.buf = r := by
  unfold finishDecode at h
  split at h
  · dsimp only at h
    split at h
    · split at h
      · injection h with h; rw [← h]; rfl
      · injection h with h; rw [← h]; rfl
    · cases h
  · cases h

theorem finishDecode_fixed {uriOk : Bytes → Bool} {pool : Pool} {r : BufRd Script} {p : Parsed} {req : Request Script} {n : Nat}
    (h : finishDecode uriOk pool r p = .request req) (hl : req.length = some n) : ∃ t, req.body = .fixed t ∧ t.limit = n := by
  unfold finishDecode at h
  split at h
  · dsimp only at h
    split at h
    · split at h
      · injection h with h; rw [← h] at hl; cases hl
      · injection h with h
        rw [← h] at hl ⊢
        injection hl with hl
        exact ⟨_, rfl, hl⟩
    · cases h
  · cases h

theorem pollInterim_al {uriOk : Bytes → Bool} {pool : Pool} {rest : Script} {m : Nat} {h body : Bytes} {r : BufRd Script} {p : Parsed} {todo : Bytes} {w w' : Writer}
    {d : DecPoll Script} (ha : Al rest m body r) (hd : pollInterim uriOk pool r p todo w = .ret (w', d)) :
    (∀ f, d = .pending f → FutAl rest m h body f) ∧ ∀ req, d = .ready (.request req) → Al rest m body req.body.buf := by
  unfold pollInterim at hd
  obtain ⟨⟨w1, x⟩, _, h2⟩ := Run.bind_eq_ret.1 hd
  cases x with
  | pending t =>
    simp only [Run.ret.injEq, Prod.mk.injEq] at h2
    rw [← h2.2]
    exact ⟨fun f hf => by injection hf with hf; rw [← hf]; exact ha, by simp⟩
  | err e =>
    simp only [Run.ret.injEq, Prod.mk.injEq] at h2
    rw [← h2.2]; exact ⟨by simp, by simp⟩
  | done =>
    simp only [Run.ret.injEq, Prod.mk.injEq] at h2
    rw [← h2.2]
    refine ⟨by simp, fun req hr => ?_⟩
    injection hr with hr
    rw [finishDecode_buf hr]; exact ha

theorem decFut_poll_al {uriOk : Bytes → Bool} {pool : Pool} {rest : Script} {m fuel : Nat} {h body : Bytes} (hh : FirstHead h h) {f : DecFut Script} {w w' : Writer}
    {d : DecPoll Script} (ha : FutAl rest m h body f) (hd : f.poll uriOk pool fuel w = .ret (w', d)) :
    (∀ f, d = .pending f → FutAl rest m h body f) ∧ ∀ req, d = .ready (.request req) → Al rest m body req.body.buf := by
  cases f with
  | interim r p todo =>
    simp only [DecFut.poll] at hd
    exact pollInterim_al ha hd
  | head r buf nread =>
    simp only [DecFut.poll] at hd
    obtain ⟨hp, h1, h2⟩ := Run.bind_eq_ret.1 hd
    obtain ⟨y, a1, a2, a3⟩ := ha
    rcases headGo_al hh fuel a1 a2 a3 h1 with ⟨r', buf', n', y', rfl, b2, b3, _, b4⟩ | ⟨r', rfl, b2⟩
    · simp only [Run.ret.injEq, Prod.mk.injEq] at h2
      rw [← h2.2]
      exact ⟨fun f hf => by injection hf with hf; rw [← hf]; exact ⟨y', b2, b3, b4.mono (by omega)⟩, by simp⟩
    · dsimp only at h2
      split at h2
      · simp only [Run.ret.injEq, Prod.mk.injEq] at h2
        rw [← h2.2]; exact ⟨by simp, by simp⟩
      · exact pollInterim_al b2 h2

theorem awaitDecode_al {env : Env} {opts : ServerOpts} {fuel : Nat} {pool : Pool} {rest : Script} {m : Nat} {h body : Bytes} (hh : FirstHead h h) (n : Nat) :
    ∀ {f : DecFut Script} {w w' : Writer} {clock clock' : List Bool} {req : Request Script}, FutAl rest m h body f →
    awaitDecode env opts fuel pool n f w clock = .ret (w', clock', .ready (.request req)) → Al rest m body req.body.buf := by
  induction n with
  | zero => intro f w w' clock clock' req _ h; simp [awaitDecode] at h
  | succ n ih =>
    intro f w w' clock clock' req ha hd
    simp only [awaitDecode] at hd
    obtain ⟨⟨w1, p⟩, h1, h2⟩ := Run.bind_eq_ret.1 hd
    obtain ⟨g1, g2⟩ := decFut_poll_al hh ha h1
    cases p with
    | ready r =>
      simp only [Run.ret.injEq, Prod.mk.injEq, Await.ready.injEq] at h2
      exact g2 req (by rw [h2.2.2])
    | pending f1 =>
      have ha1 := g1 f1 rfl
      dsimp only at h2
      split at h2
      · split at h2
        · simp at h2
        · exact ih ha1 h2
        · exact ih ha1 h2
      · exact ih ha1 h2

/-! ## Running an endpoint that reads all of the body -/

theorem fixed_read_al {rest : Script} {m k : Nat} {x : Bytes} {t : Take (BufRd Script)} {b' : ReqBody Script} {p : RPoll} (ha : Al rest m x t.inner) (hl : t.limit = x.length)
    (hk : 0 < k ∨ x = []) (h : pollRead (ReqBody.fixed t) k = .ret (b', p)) :
    (p = .pending ∧ 0 < m ∧ ∃ t', b' = .fixed t' ∧ Al rest (m - 1) x t'.inner ∧ t'.limit = x.length) ∨
    ∃ bs t', p = .data bs ∧ (bs ≠ [] ∨ x = []) ∧ bs <+: x ∧ b' = .fixed t' ∧ Al rest m (x.drop bs.length) t'.inner ∧ t'.limit = (x.drop bs.length).length := by
  have h1 : (pollRead t k >>= ReqBody.ofFixed) = .ret (b', p) := h
  obtain ⟨⟨t1, p'⟩, h3, h4⟩ := Run.bind_eq_ret.1 h1
  simp only [ReqBody.ofFixed, Run.ret.injEq, Prod.mk.injEq] at h4
  obtain ⟨rfl, rfl⟩ := h4
  have h5 : t.read k = .ret (t1, p') := h3
  unfold Take.read at h5
  split at h5
  · rename_i h0
    simp only [Run.ret.injEq, Prod.mk.injEq] at h5
    obtain ⟨rfl, rfl⟩ := h5
    have hx : x = [] := List.length_eq_zero_iff.1 (by omega)
    subst hx
    exact .inr ⟨[], t, rfl, .inr rfl, by simp, rfl, by simpa using ha, by simpa using hl⟩
  · rename_i h0
    have hx : x ≠ [] := by rintro rfl; exact h0 hl
    have hk' : 0 < k := by
      rcases hk with hk | hk
      · exact hk
      · exact absurd hk hx
    obtain ⟨⟨i, q⟩, h6, h7⟩ := Run.bind_eq_ret.1 h5
    simp only [Run.ret.injEq] at h7
    rcases ha.read hx (by omega) h6 with ⟨rfl, a2, a3⟩ | ⟨bs, rfl, a2, a3, a4, a5⟩
    · simp only [Take.counted, Prod.mk.injEq] at h7
      obtain ⟨rfl, rfl⟩ := h7
      exact .inl ⟨rfl, a2, _, rfl, a3, hl⟩
    · simp only [Take.counted, Prod.mk.injEq] at h7
      obtain ⟨rfl, rfl⟩ := h7
      exact .inr ⟨bs, _, rfl, .inl a2, a4, rfl, a5, by simp [hl]⟩

theorem runAfter_al {rest : Script} {m : Nat} {b : Bool} (a : After b) : ∀ (t : Take (BufRd Script)) (body' : ReqBody Script) (ev : List Event) (g : Option Glitch),
    Al rest m [] t.inner → t.limit = 0 → runAfter a (.fixed t) = .ret (body', ev, g) →
    Al rest m [] body'.buf ∧ received ((bodyReads ev).map (·.2)) = [] := by
  induction a with
  | read k next ih =>
    intro t body' ev g ha hl h
    simp only [runAfter] at h
    obtain ⟨⟨b1, p⟩, h1, h2⟩ := Run.bind_eq_ret.1 h
    dsimp only at h2
    obtain ⟨⟨b2, ev2, g2⟩, h3, h4⟩ := Run.bind_eq_ret.1 h2
    simp only [Run.ret.injEq, Prod.mk.injEq] at h4
    obtain ⟨rfl, rfl, rfl⟩ := h4
    rcases fixed_read_al ha (by simpa using hl) (.inr rfl) h1 with ⟨rfl, _, t', rfl, a1, a2⟩ | ⟨bs, t', rfl, _, a1, rfl, a2, a3⟩
    · obtain ⟨c1, c2⟩ := ih _ _ _ _ _ (a1.mono (by omega)) (by simpa using a2) h3
      exact ⟨c1, by simpa [bodyReads, received] using c2⟩
    · have : bs = [] := List.prefix_nil.1 a1
      subst this
      obtain ⟨c1, c2⟩ := ih _ _ _ _ _ (by simpa using a2) (by simpa using a3) h3
      exact ⟨c1, by simpa [bodyReads, received] using c2⟩
  | ok =>
    intro t body' ev g ha hl h
    simp only [runAfter, Run.ret.injEq, Prod.mk.injEq] at h
    obtain ⟨rfl, rfl, rfl⟩ := h
    exact ⟨ha, rfl⟩
  | glitch =>
    intro t body' ev g ha hl h
    simp only [runAfter, Run.ret.injEq, Prod.mk.injEq] at h
    obtain ⟨rfl, rfl, rfl⟩ := h
    exact ⟨ha, rfl⟩

section
variable {σ : Type} [AsyncBufRead σ]

theorem runProg_al {env : Env} {fuel n : Nat} {rest : Script} (a : Prog σ) : ∀ (m : Nat) (x : Bytes) (t : Take (BufRd Script)) (body' : ReqBody Script) (w w' : Writer) (ev : List Event)
    (g : Option Glitch), a.Drains m x.length → Al rest m x t.inner → t.limit = x.length → runProg env fuel n a (.fixed t) w = .ret (body', w', ev, g) →
    Al rest m [] body'.buf ∧ received ((bodyReads ev).map (·.2)) = x := by
  induction a with
  | read k next ih =>
    intro m x t body' w w' ev g hd ha hl h
    simp only [runProg] at h
    obtain ⟨⟨b1, p⟩, h1, h2⟩ := Run.bind_eq_ret.1 h
    dsimp only at h2
    obtain ⟨⟨b2, w2, ev2, g2⟩, h3, h4⟩ := Run.bind_eq_ret.1 h2
    simp only [Run.ret.injEq, Prod.mk.injEq] at h4
    obtain ⟨rfl, rfl, rfl, rfl⟩ := h4
    obtain ⟨d1, d2, d3⟩ := hd
    rcases fixed_read_al ha hl (.inl d1) h1 with ⟨rfl, a0, t', rfl, a1, a2⟩ | ⟨bs, t', rfl, a0, a1, rfl, a2, a3⟩
    · obtain ⟨c1, c2⟩ := ih _ _ _ _ _ _ _ _ _ (d2 a0) a1 a2 h3
      exact ⟨c1.mono (by omega), by simpa [bodyReads, received] using c2⟩
    · obtain ⟨z, rfl⟩ := a1
      have hfit : bs.length ≤ k := by
        obtain ⟨_, _, q1, _, q2⟩ := body_total (B := (rem t).length) (ReqBody.fixed t) (Nat.le_refl _) k
        rw [q1] at h1
        simp only [Run.ret.injEq, Prod.mk.injEq] at h1
        rw [h1.2] at q2
        exact q2.1
      have hd' := d3 bs (by simpa using a0) (by simp) hfit
      have e : (bs ++ z).length - bs.length = z.length := by simp
      rw [e] at hd'
      simp only [List.drop_left] at a2 a3
      obtain ⟨c1, c2⟩ := ih _ _ _ _ _ _ _ _ _ hd' a2 a3 h3
      exact ⟨c1, by simp [bodyReads, received, c2]⟩
  | send resp onOk onErr =>
    intro m x t body' w w' ev g hd ha hl h
    have hx : x = [] := List.length_eq_zero_iff.1 hd
    subst hx
    simp only [runProg] at h
    obtain ⟨⟨w1, r⟩, h1, h2⟩ := Run.bind_eq_ret.1 h
    dsimp only at h2
    cases r with
    | running => cases h2
    | err e =>
      obtain ⟨⟨b2, ev2, g2⟩, h3, h4⟩ := Run.bind_eq_ret.1 h2
      simp only [Run.ret.injEq, Prod.mk.injEq] at h4
      obtain ⟨rfl, rfl, rfl, rfl⟩ := h4
      exact runAfter_al _ _ _ ev2 _ ha hl h3
    | ok amt =>
      obtain ⟨⟨b2, ev2, g2⟩, h3, h4⟩ := Run.bind_eq_ret.1 h2
      simp only [Run.ret.injEq, Prod.mk.injEq] at h4
      obtain ⟨rfl, rfl, rfl, rfl⟩ := h4
      exact runAfter_al _ _ _ ev2 _ ha hl h3
  | sendFor steps resp onOk onErr onDrop =>
    intro m x t body' w w' ev g hd ha hl h
    have hx : x = [] := List.length_eq_zero_iff.1 hd
    subst hx
    simp only [runProg] at h
    obtain ⟨⟨w1, r⟩, h1, h2⟩ := Run.bind_eq_ret.1 h
    dsimp only at h2
    cases r with
    | running =>
      obtain ⟨⟨b2, ev2, g2⟩, h3, h4⟩ := Run.bind_eq_ret.1 h2
      simp only [Run.ret.injEq, Prod.mk.injEq] at h4
      obtain ⟨rfl, rfl, rfl, rfl⟩ := h4
      exact runAfter_al _ _ _ ev2 _ ha hl h3
    | err e =>
      obtain ⟨⟨b2, ev2, g2⟩, h3, h4⟩ := Run.bind_eq_ret.1 h2
      simp only [Run.ret.injEq, Prod.mk.injEq] at h4
      obtain ⟨rfl, rfl, rfl, rfl⟩ := h4
      exact runAfter_al _ _ _ ev2 _ ha hl h3
    | ok amt =>
      obtain ⟨⟨b2, ev2, g2⟩, h3, h4⟩ := Run.bind_eq_ret.1 h2
      simp only [Run.ret.injEq, Prod.mk.injEq] at h4
      obtain ⟨rfl, rfl, rfl, rfl⟩ := h4
      exact runAfter_al _ _ _ ev2 _ ha hl h3
  | glitch =>
    intro m x t body' w w' ev g hd ha hl h
    have hx : x = [] := List.length_eq_zero_iff.1 hd
    subst hx
    simp only [runProg, Run.ret.injEq, Prod.mk.injEq] at h
    obtain ⟨rfl, rfl, rfl, rfl⟩ := h
    exact ⟨ha, rfl⟩

/-! ## One request -/

theorem finishDecode_chunked {uriOk : Bytes → Bool} {pool : Pool} {r : BufRd Script} {p : Parsed} {req : Request Script}
    (h : finishDecode uriOk pool r p = .request req) (hl : req.length = none) : ∃ r, req.body = .chunked (BufRd.new (ChunkedDecoder.new r pool)) := by
  unfold finishDecode at h
  split at h
  · dsimp only at h
    split at h
    · split at h
      · injection h with h; rw [← h]; exact ⟨_, rfl⟩
      · injection h with h
        rw [← h] at hl
        cases hl
    · cases h
  · cases h

/-- A request that comes in packets of its own is handed to the endpoint, and nothing behind it has been read. -/
theorem acceptStep_al {env : Env} (hx : HexLenOk env.hexLen) {opts : ServerOpts} {endpoint : Endpoint σ} {fuel n m : Nat} {c c' : Conn Script} {ev : List Event}
    {res : Option AcceptRes} {g rest : Script} {hd0 body : Bytes} {i : Bool} {method target : Bytes} {fs : List (Bytes × Bytes)} {len : Option Nat}
    (hc : c.rd = g ++ rest) (he : Script.ending g = none) (hb : Script.bytes g = hd0 ++ body) (hf : FirstHead hd0 hd0)
    (hj : Judged env.uriOk hd0 (.serve i method target fs len)) (hm : Script.pendings g ≤ m) (hr : c.wr.Reliable) (ht : NoTimeout opts c)
    (h : acceptStep env opts endpoint fuel n c = .ret (c', ev, res)) :
    res = none ∧ NoTimeout opts c' ∧ c'.wr.Reliable ∧ ∃ hmap, MapOf hmap fs ∧ calls ev = [(⟨method, target, hmap⟩, len)] ∧
      ∃ (b0 b1 : ReqBody Script) (w1 w2 : Writer) (ev1 : List Event) (g1 : Option Glitch), Al rest m body b0.buf ∧
        (∀ k, len = some k → ∃ t, b0 = .fixed t ∧ t.limit = k) ∧ (len = none → ∃ r, b0 = .chunked (BufRd.new (ChunkedDecoder.new r (env.pool n)))) ∧
        runProg env fuel n (endpoint ⟨method, target, hmap⟩ len) b0 w1 = .ret (b1, w2, ev1, g1) ∧ bodyReads ev = bodyReads ev1 ∧ c'.rd = b1.io := by
  have hrem : rem c.rd = hd0 ++ (body ++ Script.bytes rest) := by
    show Script.bytes c.rd = _
    rw [hc, Script.bytes_append _ he, hb]; simp
  have hfirst : FirstHead (rem c.rd) hd0 := ⟨⟨_, hrem.symm⟩, hf.2.1, hf.2.2⟩
  obtain ⟨hres, hm', hs⟩ := served_inv (acceptStep_spec hx h) hfirst hj (fun _ => hr) ht
  have hcalls : calls ev = [(⟨method, target, hm'⟩, len)] := by
    rcases calls_inv (acceptStep_spec hx h) with h0 | ⟨_, _, hd', _, len', h1, _, _⟩
    · obtain ⟨_, _, _, _, _, _, _, _, _, _, _, _, _, _, h2⟩ := hs.run
      have : (⟨method, target, hm'⟩, len) ∈ calls ev := by rw [mem_calls, h2]; simp
      rw [h0] at this; cases this
    · obtain ⟨_, _, _, _, _, _, _, _, _, _, _, _, _, _, h2⟩ := hs.run
      have : (⟨method, target, hm'⟩, len) ∈ calls ev := by rw [mem_calls, h2]; simp
      rw [h1] at this
      rw [h1]
      rw [List.mem_singleton.1 this]
  have hgrew := (acceptStep_told h).1
  unfold acceptStep at h
  obtain ⟨⟨w, clock, a⟩, h1, h2⟩ := Run.bind_eq_ret.1 h
  rcases awaitDecode_spec (env := env) (opts := opts) (pool := env.pool n) fuel fuel c.clock (decInv_start c.rd c.wr) with
    ⟨k1, _⟩ | ⟨w', clock', a', k1, k2⟩
  · rw [k1] at h1; cases h1
  rw [h1] at k1
  injection k1 with k1
  injection k1 with k1 k3
  injection k3 with k3 k4
  subst k1 k3 k4
  cases a with
  | timedOut io =>
    simp only [Run.ret.injEq, Prod.mk.injEq] at h2
    rw [hres] at h2; simp at h2
  | ready q =>
    cases q with
    | none io =>
      simp only [Run.ret.injEq, Prod.mk.injEq] at h2
      rw [hres] at h2; simp at h2
    | fail f io =>
      exfalso
      dsimp only at h2
      obtain ⟨⟨w', ev'⟩, h3, h4⟩ := Run.bind_eq_ret.1 h2
      simp only [Run.ret.injEq, Prod.mk.injEq] at h4
      rw [← h4.2.1, calls_append, calls_interimEvent] at hcalls
      unfold answerFail at h3
      split at h3
      · simp only [Run.ret.injEq, Prod.mk.injEq] at h3
        rw [← h3.2] at hcalls; simp [calls] at hcalls
      · obtain ⟨⟨w2, r2⟩, _, h6⟩ := Run.bind_eq_ret.1 h3
        simp only [Run.ret.injEq, Prod.mk.injEq] at h6
        rw [← h6.2] at hcalls; simp [calls, wroteSince] at hcalls
    | request req =>
      dsimp only at h2
      obtain ⟨⟨body1, w1, ev1, g1⟩, h3, h4⟩ := Run.bind_eq_ret.1 h2
      dsimp only at h4
      obtain ⟨⟨w2, ev2⟩, h5, h6⟩ := Run.bind_eq_ret.1 h4
      simp only [Run.ret.injEq, Prod.mk.injEq] at h6
      obtain ⟨rfl, rfl, rfl⟩ := h6
      have hcl : NoTimeout opts (⟨body1.io, w2, clock⟩ : Conn Script) := by
        rcases ht with ht | ht
        · exact .inl ht
        · refine .inr fun t htm => ?_
          cases k2 with
          | ready a b cc d =>
            apply ht
            rw [b]; simp only [List.mem_append]; exact .inr htm
      have hlen : req.head = ⟨method, target, hm'⟩ ∧ req.length = len := by
        rw [calls_append, calls_interimEvent, calls] at hcalls
        simp only [List.nil_append, List.cons.injEq, Prod.mk.injEq] at hcalls
        exact hcalls.1
      have hal : Al rest m body req.body.buf := by
        refine awaitDecode_al (h := hd0) hf fuel (f := DecFut.start c.rd) (m := m) ⟨hd0, rfl, ?_, g, hc, he, hm, ?_⟩ h1
        · intro h0
          obtain ⟨q, hq⟩ := hf.2.1
          rw [h0] at hq; simp at hq
        · rw [hb]; rfl
      have hfin : ∃ r p, finishDecode env.uriOk (env.pool n) r p = .request req := by
        cases k2 with
        | ready a b cc d =>
          generalize hq : DecRes.request req = q at a
          cases a with
          | none => cases hq
          | lost => cases hq
          | bad => cases hq
          | cut => cases hq
          | done => exact ⟨_, _, rfl⟩
      obtain ⟨r0, p0, hfin⟩ := hfin
      rw [hlen.2, hlen.1] at h3
      refine ⟨rfl, hcl, hgrew.reliable hr, hm', hs.headers, hcalls, req.body, body1, _, w1, ev1, g1, hal, ?_, ?_, h3, ?_, rfl⟩
      · intro k hk
        exact finishDecode_fixed hfin (hlen.2.trans hk)
      · intro hk
        exact finishDecode_chunked hfin (hlen.2.trans hk)
      · rw [bodyReads_append, bodyReads_interimEvent, bodyReads, bodyReads_append, answerGlitch_reads h5]
        · simp
        all_goals simp

end

/-! ## Chunked bodies -/

theorem Script.read_more (g : Script) (k : Nat) (rest : Script) {g' : Script} {p : RPoll} (h : g.read k = (g', p)) (hp : p ≠ .data []) : (g ++ rest).read k = (g' ++ rest, p) := by
  induction g with
  | nil => simp only [Script.read, Prod.mk.injEq] at h; exact absurd h.2.symm hp
  | cons e g ih =>
    cases e with
    | pending =>
      simp only [Script.read, Prod.mk.injEq] at h
      obtain ⟨rfl, rfl⟩ := h
      rfl
    | err e =>
      simp only [Script.read, Prod.mk.injEq] at h
      obtain ⟨rfl, rfl⟩ := h
      rfl
    | data bs =>
      simp only [Script.read, List.cons_append] at h ⊢
      by_cases hb : bs = []
      · rw [if_pos hb] at h ⊢; exact ih h
      · rw [if_neg hb] at h ⊢
        by_cases hk : bs.length ≤ k
        · rw [if_pos hk] at h ⊢
          simp only [Prod.mk.injEq] at h ⊢
          exact ⟨by rw [h.1], h.2⟩
        · rw [if_neg hk] at h ⊢
          simp only [Prod.mk.injEq] at h ⊢
          exact ⟨by rw [← h.1]; rfl, h.2⟩

/-- More data behind. -/
theorem thru_more (rest : Script) : Thru (fun g : Script => g ++ rest) where
  read := by
    intro r k r' p h hp
    have h' : Run.ret (r.read k) = .ret (r', p) := h
    injection h' with h'
    show Run.ret ((r ++ rest).read k) = _
    rw [Script.read_more r k rest h' hp]

/-- A chunked body of which everything has arrived, of which `left` bytes have not been handed out yet. -/
structure Midway (pool : Pool) (r : BufRd Script) (p : Bytes) (t : BufRd (ChunkedDecoder (BufRd Script))) (left : Nat) : Prop where
  hist : ∃ ks ps, (∀ k ∈ ks, 0 < k) ∧ polls (BufRd.new (ChunkedDecoder.new r pool)) ks = .ret (t, ps) ∧ ¬ SawEof ps ∧ (∀ e, .err e ∉ ps) ∧ (received ps).length + left = p.length
  inv : Dec.DecInv t.inner
  sane : ChunkedDecoder.Sane t.inner
  sent : t.inner.sent = []
  faith : Faithful t.inner

theorem polls_append_any {δ : Type} [AsyncRead δ] {d d1 d2 : δ} {ks : List Nat} {ps : List RPoll} {k : Nat} {p : RPoll} (h1 : polls d ks = .ret (d1, ps)) (he : ∀ e, .err e ∉ ps)
    (h2 : pollRead d1 k = .ret (d2, p)) : polls d (ks ++ [k]) = .ret (d2, ps ++ [p]) := by
  induction ks generalizing d ps with
  | nil =>
    simp only [polls, Run.ret.injEq, Prod.mk.injEq] at h1
    obtain ⟨rfl, rfl⟩ := h1
    simp only [List.nil_append, polls, h2, Run.ret_bind]
    cases p <;> rfl
  | cons j ks ih =>
    have h1' := h1
    simp only [polls] at h1'
    obtain ⟨⟨b1, q⟩, g1, g2⟩ := Run.bind_eq_ret.1 h1'
    have hq : ∀ e, q ≠ .err e := by
      rintro e rfl
      simp only [Run.ret.injEq, Prod.mk.injEq] at g2
      exact he e (by rw [← g2.2]; simp)
    rw [polls_cons_data g1 hq] at h1
    obtain ⟨⟨b2, ps1⟩, g3, g4⟩ := Run.bind_eq_ret.1 h1
    simp only [Run.ret.injEq, Prod.mk.injEq] at g4
    obtain ⟨rfl, rfl⟩ := g4
    simp only [List.cons_append]
    rw [polls_cons_data g1 hq, ih g3 (fun e x => he e (List.mem_cons_of_mem _ x))]
    rfl

/-- One read. -/
theorem midway_read {pool : Pool} (hp : pool.Ok) {r : BufRd Script} {b p : Bytes} {fs : List (Bytes × Bytes)} (hb : Roomy b p fs) (hn : fs.length ≤ 16) (hs : rem r = b) (rest : Script)
    {t : BufRd (ChunkedDecoder (BufRd Script))} {left k : Nat} (h : Midway pool r p t left) (hk : 0 < k) {b' : ReqBody Script} {q : RPoll}
    (hr : pollRead ((ReqBody.chunked t).on (· ++ rest)) k = .ret (b', q)) :
    ∃ t', b' = (ReqBody.chunked t').on (· ++ rest) ∧ Reach t.inner.inner t'.inner.inner ∧
      ((q = .pending ∧ meas t'.inner.inner < meas t.inner.inner ∧ Midway pool r p t' left) ∨
       (∃ bs, q = .data bs ∧ bs ≠ [] ∧ bs.length ≤ left ∧ bs.length ≤ k ∧ meas t'.inner.inner ≤ meas t.inner.inner ∧ Midway pool r p t' (left - bs.length)) ∨
       (q = .data [] ∧ left = 0 ∧ rem t'.inner.inner = [])) := by
  obtain ⟨t', q', h1, h2⟩ := bufDec_poll t h.inv k
  have h1' : pollRead (ReqBody.chunked t) k = .ret (.chunked t', q') := by
    show (pollRead t k >>= ReqBody.ofChunked) = _
    rw [h1]; rfl
  have hreach : Reach t.inner.inner t'.inner.inner := body_reach h1'
  obtain ⟨ks, ps, i1, i2, i3, i4, i5⟩ := h.hist
  have hk1 : ∀ j ∈ ks ++ [k], 0 < j := by
    intro j hj
    rcases List.mem_append.1 hj with hj | hj
    · exact i1 j hj
    · rw [List.mem_singleton.1 hj]; exact hk
  have hh := polls_append_any i2 i4 h1
  have hs' : rem r = b ++ [] := by simpa using hs
  have hroom := chunked_roomy hp hk1 hh hb hn hs'
  have noErr : ∀ e, q' ≠ .err e := by
    rintro e rfl
    have := chunked_no_err hp hk1 hh hb hn hs' (e := e) (by simp)
    simp only [SawEof, List.mem_append, List.mem_singleton, reduceCtorEq, or_false] at this
    exact i3 this
  have step : ∀ (rs : List (Nat × RPoll)), StopsAtEnd ((((k, q') :: rs).map (·.2))) → (∀ x ∈ rs, 0 < x.1) →
      pollRead ((ReqBody.chunked t).on (· ++ rest)) k = .ret ((ReqBody.chunked t').on (· ++ rest), q') ∧ ArrivedC (ReqBody.chunked t') rs := by
    intro rs hst hpos
    refine alike_arrivedC (thru_more rest) (.chunked t) k q' rs (.chunked t') (.inr ⟨t, rfl, h.sane, h.sent, h.faith, ?_, hst⟩) h1'
    intro x hx
    rcases List.mem_cons.1 hx with rfl | hx
    · exact hk
    · exact hpos x hx
  have one : StopsAtEnd ((((k, q') :: ([] : List (Nat × RPoll))).map (·.2))) := by
    intro a y z e _
    rcases a with _ | ⟨_, a⟩
    · simp only [List.map_cons, List.map_nil, List.nil_append, List.cons.injEq] at e; exact e.2.symm
    · simp at e
  have hsame := (step [] one (by simp)).1
  rw [hr] at hsame
  injection hsame with hsame; injection hsame with e1 e2
  subst e1 e2
  have keep : q ≠ .data [] → ChunkedDecoder.Sane t'.inner ∧ t'.inner.sent = [] ∧ Faithful t'.inner := by
    intro hq
    have two : StopsAtEnd ((((k, q) :: [((1 : Nat), RPoll.pending)]).map (·.2))) := by
      intro a y z e hy
      rcases a with _ | ⟨_, _ | ⟨_, a⟩⟩
      · simp only [List.map_cons, List.map_nil, List.nil_append, List.cons.injEq] at e
        rcases hy with hy | ⟨x, hy⟩
        · exact absurd (e.1.trans hy) hq
        · exact absurd (e.1.trans hy) (noErr x)
      · simp only [List.map_cons, List.map_nil, List.cons_append, List.nil_append, List.cons.injEq] at e; exact e.2.2.symm
      · simp at e
    rcases (step _ two (by simp)).2 with h0 | ⟨t2, e, g1, g2, g3, _⟩
    · cases h0
    · injection e with e; subst e; exact ⟨g1, g2, g3⟩
  refine ⟨t', rfl, hreach, ?_⟩
  cases q with
  | err e => exact absurd rfl (noErr e)
  | pending =>
    obtain ⟨g1, g2, g3⟩ := keep (by simp)
    refine .inl ⟨rfl, h2.2, ⟨⟨_, _, hk1, hh, ?_, ?_, ?_⟩, h2.1, g1, g2, g3⟩⟩
    · simpa [SawEof] using i3
    · intro e; simpa using i4 e
    · rw [received_append]; simpa [received] using i5
  | data bs =>
    by_cases hbs : bs = []
    · subst hbs
      have hsaw : SawEof (ps ++ [RPoll.data []]) := by simp [SawEof]
      have e := hroom.2.1 (.inl hsaw)
      rw [received_append] at e
      simp only [received, List.append_nil] at e
      refine .inr (.inr ⟨rfl, by rw [e] at i5; omega, ?_⟩)
      have := chunked_eaten' hp hk1 hh hb hn hs' hsaw (by intro e; simpa using i4 e)
      exact List.suffix_nil.1 this
    · obtain ⟨g1, g2, g3⟩ := keep (by simp [hbs])
      have hle := hroom.1.length_le
      rw [received_append] at hle
      simp only [received, List.append_nil, List.length_append] at hle
      refine .inr (.inl ⟨bs, rfl, hbs, by omega, h2.2.2, h2.2.1, ⟨⟨_, _, hk1, hh, ?_, ?_, ?_⟩, h2.1, g1, g2, g3⟩⟩)
      · simp only [SawEof, List.mem_append, List.mem_singleton, RPoll.data.injEq]
        rintro (h | h)
        · exact i3 h
        · exact hbs h.symm
      · intro e; simpa using i4 e
      · rw [received_append]
        simp only [received, List.append_nil, List.length_append]
        omega

theorem runAfter_shut {b : Bool} {a : After b} {body body' : ReqBody Script} {ev : List Event} {g : Option Glitch} (ha : a.Shut) (h : runAfter a body = .ret (body', ev, g)) :
    body' = body ∧ bodyReads ev = [] := by
  cases a with
  | read => exact ha.elim
  | ok => simp only [runAfter, Run.ret.injEq, Prod.mk.injEq] at h; obtain ⟨rfl, rfl, _⟩ := h; exact ⟨rfl, rfl⟩
  | glitch => simp only [runAfter, Run.ret.injEq, Prod.mk.injEq] at h; obtain ⟨rfl, rfl, _⟩ := h; exact ⟨rfl, rfl⟩

section
variable {σ : Type} [AsyncBufRead σ]

theorem runProg_shut {env : Env} {fuel n : Nat} {a : Prog σ} {body body' : ReqBody Script} {w w' : Writer} {ev : List Event} {g : Option Glitch} (ha : a.Shut)
    (h : runProg env fuel n a body w = .ret (body', w', ev, g)) : body' = body ∧ bodyReads ev = [] := by
  cases a with
  | read => exact ha.elim
  | glitch => simp only [runProg, Run.ret.injEq, Prod.mk.injEq] at h; obtain ⟨rfl, _, rfl, _⟩ := h; exact ⟨rfl, rfl⟩
  | send resp onOk onErr =>
    simp only [runProg] at h
    obtain ⟨⟨w1, r⟩, h1, h2⟩ := Run.bind_eq_ret.1 h
    dsimp only at h2
    cases r with
    | running => cases h2
    | err e =>
      obtain ⟨⟨b2, ev2, g2⟩, h3, h4⟩ := Run.bind_eq_ret.1 h2
      simp only [Run.ret.injEq, Prod.mk.injEq] at h4
      obtain ⟨rfl, rfl, rfl, rfl⟩ := h4
      exact runAfter_shut (ha.2 _) (ev := ev2) h3
    | ok amt =>
      obtain ⟨⟨b2, ev2, g2⟩, h3, h4⟩ := Run.bind_eq_ret.1 h2
      simp only [Run.ret.injEq, Prod.mk.injEq] at h4
      obtain ⟨rfl, rfl, rfl, rfl⟩ := h4
      exact runAfter_shut (ha.1 _) (ev := ev2) h3
  | sendFor steps resp onOk onErr onDrop =>
    simp only [runProg] at h
    obtain ⟨⟨w1, r⟩, h1, h2⟩ := Run.bind_eq_ret.1 h
    dsimp only at h2
    cases r with
    | running =>
      obtain ⟨⟨b2, ev2, g2⟩, h3, h4⟩ := Run.bind_eq_ret.1 h2
      simp only [Run.ret.injEq, Prod.mk.injEq] at h4
      obtain ⟨rfl, rfl, rfl, rfl⟩ := h4
      exact runAfter_shut ha.2.2 (ev := ev2) h3
    | err e =>
      obtain ⟨⟨b2, ev2, g2⟩, h3, h4⟩ := Run.bind_eq_ret.1 h2
      simp only [Run.ret.injEq, Prod.mk.injEq] at h4
      obtain ⟨rfl, rfl, rfl, rfl⟩ := h4
      exact runAfter_shut (ha.2.1 _) (ev := ev2) h3
    | ok amt =>
      obtain ⟨⟨b2, ev2, g2⟩, h3, h4⟩ := Run.bind_eq_ret.1 h2
      simp only [Run.ret.injEq, Prod.mk.injEq] at h4
      obtain ⟨rfl, rfl, rfl, rfl⟩ := h4
      exact runAfter_shut (ha.1 _) (ev := ev2) h3

theorem runProg_alC {env : Env} {fuel n : Nat} {pool : Pool} (hp : pool.Ok) {r : BufRd Script} {b p : Bytes} {fs : List (Bytes × Bytes)} (hb : Roomy b p fs) (hn : fs.length ≤ 16)
    (hs : rem r = b) (rest : Script) (a : Prog σ) : ∀ (m left : Nat) (t : BufRd (ChunkedDecoder (BufRd Script))) (body' : ReqBody Script) (w w' : Writer) (ev : List Event)
    (g : Option Glitch), a.ReadsOut m left → Midway pool r p t left → meas t.inner.inner ≤ m → runProg env fuel n a ((ReqBody.chunked t).on (· ++ rest)) w = .ret (body', w', ev, g) →
    ∃ t', body' = (ReqBody.chunked t').on (· ++ rest) ∧ Reach t.inner.inner t'.inner.inner ∧ rem t'.inner.inner = [] ∧ SawEof ((bodyReads ev).map (·.2)) ∧
      (∀ x ∈ bodyReads ev, 0 < x.1) ∧ (received ((bodyReads ev).map (·.2))).length = left ∧ ¬ ∃ e j, (j, .err e) ∈ bodyReads ev := by
  induction a with
  | read k next ih =>
    intro m left t body' w w' ev g hd hm hmeas h
    simp only [runProg] at h
    obtain ⟨⟨b1, q⟩, h1, h2⟩ := Run.bind_eq_ret.1 h
    dsimp only at h2
    obtain ⟨⟨b2, w2, ev2, g2⟩, h3, h4⟩ := Run.bind_eq_ret.1 h2
    simp only [Run.ret.injEq, Prod.mk.injEq] at h4
    obtain ⟨rfl, rfl, rfl, rfl⟩ := h4
    obtain ⟨d1, d2, d3, d4⟩ := hd
    obtain ⟨t', rfl, hr, hcase⟩ := midway_read hp hb hn hs rest hm d1 h1
    rcases hcase with ⟨rfl, i1, i2⟩ | ⟨bs, rfl, i1, i2, i0, i3, i4⟩ | ⟨rfl, i1, i2⟩
    · obtain ⟨t2, e1, e2, e3, e4, e5, e6, e7⟩ := ih _ _ _ _ _ _ _ _ _ (d2 (by omega)) i2 (by omega) h3
      refine ⟨t2, e1, hr.trans e2, e3, ?_, ?_, ?_, ?_⟩
      · simpa [bodyReads, SawEof] using e4
      · intro x hx
        rcases List.mem_cons.1 hx with rfl | hx
        · exact d1
        · exact e5 x hx
      · simpa [bodyReads, received] using e6
      · simpa [bodyReads] using e7
    · obtain ⟨t2, e1, e2, e3, e4, e5, e6, e7⟩ := ih _ _ _ _ _ _ _ _ _ (d3 bs i1 i2 i0) i4 (by omega) h3
      refine ⟨t2, e1, hr.trans e2, e3, List.mem_cons_of_mem _ e4, ?_, ?_, ?_⟩
      · intro x hx
        rcases List.mem_cons.1 hx with rfl | hx
        · exact d1
        · exact e5 x hx
      · simp only [bodyReads, List.map_cons, received, List.length_append, e6]; omega
      · simpa [bodyReads] using e7
    · obtain ⟨rfl, e2⟩ := runProg_shut (d4 i1) h3
      refine ⟨t', rfl, hr, i2, ?_, ?_, ?_, ?_⟩
      · simp [bodyReads, SawEof]
      · intro x hx
        rw [bodyReads, e2] at hx
        rw [List.mem_singleton.1 hx]; exact d1
      · simp [bodyReads, e2, received, i1]
      · simp [bodyReads, e2]
  | send => intro m left t body' w w' ev g hd; exact hd.elim
  | sendFor => intro m left t body' w w' ev g hd; exact hd.elim
  | glitch => intro m left t body' w w' ev g hd; exact hd.elim

theorem acceptStep_alone {env : Env} (hx : HexLenOk env.hexLen) (hp : ∀ n, (env.pool n).Ok) {opts : ServerOpts} {endpoint : Endpoint σ} {fuel n m : Nat} {c c' : Conn Script} {ev : List Event}
    {res : Option AcceptRes} {g rest : Script} {r : Sent} (hc : c.rd = g ++ rest) (hg : Delivers env.uriOk g r) (hm : Script.pendings g ≤ m)
    (hd : ∀ hmap, MapOf hmap r.fields → r.TakenBy (endpoint ⟨r.method, r.target, hmap⟩ r.length) m) (hr : c.wr.Reliable) (ht : NoTimeout opts c)
    (h : acceptStep env opts endpoint fuel n c = .ret (c', ev, res)) :
    res = none ∧ ServesIt r ev ∧ NoTimeout opts c' ∧ c'.wr.Reliable ∧
      ∃ g', c'.rd = g' ++ rest ∧ Script.ending g' = none ∧ Script.bytes g' = [] ∧ Script.pendings g' ≤ m := by
  obtain ⟨he, hd0, i, b, hb, hf, hj, hcar⟩ := hg
  obtain ⟨e1, e2, e3, hmap, e4, e5, b0, b1, w1, w2, ev1, g1, e6, e7, e8, e9, e10, e11⟩ := acceptStep_al hx hc he hb hf hj hm hr ht h
  have hd' := hd hmap e4
  unfold Sent.TakenBy at hd'
  unfold Sent.Carried at hcar
  cases hch : r.chunked with
  | false =>
    have hlen : r.length = some r.body.length := by unfold Sent.length; rw [hch]; rfl
    rw [hch] at hd' hcar
    simp only [Bool.false_eq_true, if_false] at hd' hcar
    subst hcar
    obtain ⟨t, rfl, ht2⟩ := e7 _ hlen
    obtain ⟨z1, z2⟩ := runProg_al _ m r.body t _ _ _ _ _ hd' e6 ht2 e9
    refine ⟨e1, ⟨⟨hmap, e4, e5⟩, by rw [e10]; exact z2⟩, e2, e3, ?_⟩
    obtain ⟨g', y1, y2, y3, y4⟩ := z1
    refine ⟨g', ?_, y2, ?_, y3⟩
    · rw [e11, ← y1]; exact ReqBody.io_eq b1
    · exact (List.append_eq_nil_iff.1 y4).2
  | true =>
    have hlen : r.length = none := by unfold Sent.length; rw [hch]; rfl
    rw [hch] at hd' hcar
    simp only [if_true] at hd' hcar
    obtain ⟨fs, hroomy, hfs⟩ := hcar
    obtain ⟨r0, rfl⟩ := e8 hlen
    obtain ⟨g0, y1, y2, y3, y4⟩ := e6
    have y1' : r0.inner = g0 ++ rest := y1
    have y4' : r0.buf ++ Script.bytes g0 = b := y4
    have hr0 : ReqBody.chunked (BufRd.new (ChunkedDecoder.new r0 (env.pool n))) =
        (ReqBody.chunked (BufRd.new (ChunkedDecoder.new (⟨g0, r0.buf⟩ : BufRd Script) (env.pool n)))).on (· ++ rest) := by
      obtain ⟨i0, b0⟩ := r0
      simp only at y1' ⊢
      subst y1'
      rfl
    rw [hr0] at e9
    have hmid : Midway (env.pool n) ⟨g0, r0.buf⟩ r.body (BufRd.new (ChunkedDecoder.new (⟨g0, r0.buf⟩ : BufRd Script) (env.pool n))) r.body.length :=
      ⟨⟨[], [], by simp, rfl, by simp [SawEof], by simp, by simp [received]⟩, Dec.decInv_new _ _ (hp n), trivial, rfl,
        faithful_new (hp n) hroomy hfs (x := []) (by rw [List.append_nil]; exact y4')⟩
    obtain ⟨t', f1, f2, f3, f4, f5, f6, f7⟩ := runProg_alC (hp n) hroomy hfs y4' rest _ m _ _ _ _ _ _ _ hd' hmid y3 e9
    subst f1
    have hl := f2.lawful (show fin (⟨g0, r0.buf⟩ : BufRd Script) = none from y2)
    refine ⟨e1, ⟨⟨hmap, e4, e5⟩, ?_⟩, e2, e3, t'.inner.inner.inner, e11, hl.2.1, (List.append_eq_nil_iff.1 f3).2, Nat.le_trans hl.2.2 y3⟩
    rw [e10]
    have hcr : (Event.call ⟨r.method, r.target, hmap⟩ none) ∈ ev := by
      rw [← mem_calls, e5, hlen]; exact List.mem_cons_self
    have hrem : rem c.rd = hd0 ++ (b ++ Script.bytes rest) := by
      show Script.bytes c.rd = _
      rw [hc, Script.bytes_append _ he, hb]; simp
    have hfirst : FirstHead (rem c.rd) hd0 := ⟨⟨_, hrem.symm⟩, hf.2.1, hf.2.2⟩
    obtain ⟨_, h', i', gs, hsv⟩ := call_inv (acceptStep_spec hx h) hcr
    have := hsv.firstHead.unique hfirst; subst this
    obtain ⟨body, b3, k1, k2⟩ := hsv.reads
    obtain ⟨r3, t3, k3, _, _, k4⟩ := k1.chunked_polls k2
    have key := chunked_roomy (hp n) (by
      intro j hj
      obtain ⟨x, hx, rfl⟩ := List.mem_map.1 hj
      rw [e10] at hx
      exact f5 x (untilErr_mem _ x hx)) k4 hroomy hfs (x := Script.bytes rest) (by rw [k3, hrem]; simp)
    rw [e10] at key
    rw [untilErr_eq _ f7] at key
    exact key.1.eq_of_length f6

/-! ## All requests -/

theorem Prog.Drains.mono {p : Prog σ} : ∀ {m m' left : Nat}, p.Drains m left → m' ≤ m → p.Drains m' left := by
  induction p with
  | read k next ih =>
    intro m m' left h hm
    exact ⟨h.1, fun h0 => ih _ (h.2.1 (by omega)) (by omega), fun bs h1 h2 h3 => ih _ (h.2.2 bs h1 h2 h3) hm⟩
  | send => intro m m' left h hm; exact h
  | sendFor => intro m m' left h hm; exact h
  | glitch => intro m m' left h hm; exact h


theorem Prog.ReadsOut.mono {p : Prog σ} : ∀ {m m' left : Nat}, p.ReadsOut m left → m' ≤ m → p.ReadsOut m' left := by
  induction p with
  | read k next ih =>
    intro m m' left h hm
    exact ⟨h.1, fun h0 => ih _ (h.2.1 (by omega)) (by omega), fun bs h1 h2 h3 => ih _ (h.2.2.1 bs h1 h2 h3) hm, h.2.2.2⟩
  | send => intro m m' left h hm; exact h
  | sendFor => intro m m' left h hm; exact h
  | glitch => intro m m' left h hm; exact h

theorem Spec.Sent.TakenBy.mono {r : Sent} {p : Prog σ} {m m' : Nat} (h : r.TakenBy p m) (hm : m' ≤ m) : r.TakenBy p m' := by
  unfold Sent.TakenBy at h ⊢
  split
  · rename_i hc; rw [if_pos hc] at h; exact h.mono hm
  · rename_i hc; rw [if_neg hc] at h; exact h.mono hm

theorem acceptGo_alone {env : Env} (hx : HexLenOk env.hexLen) (hp : ∀ n, (env.pool n).Ok) {opts : ServerOpts} {endpoint : Endpoint σ} {fuel m : Nat} {gs : List Script} {reqs : List Sent}
    (hg : List.Forall₂ (Delivers env.uriOk) gs reqs) : ∀ {n : Nat} {c c' : Conn Script} {ev : List Event} {res : AcceptRes} {g0 : Script},
    c.rd = g0 ++ gs.flatten → Script.ending g0 = none → Script.bytes g0 = [] → Script.pendings c.rd ≤ m →
    (∀ r ∈ reqs, ∀ head, r.TakenBy (endpoint head r.length) m) → c.wr.Reliable → NoTimeout opts c →
    acceptGo env opts endpoint fuel (reqs.length + 1) n c = .ret (c', ev, res) →
    res = .ok ∧ ∃ evs, ev = evs.flatten ∧ List.Forall₂ ServesIt reqs evs := by
  induction hg with
  | nil =>
    intro n c c' ev res g0 hc he hb hm hd hr ht h
    simp only [List.flatten_nil, List.append_nil] at hc
    simp only [List.length_nil, acceptGo] at h
    obtain ⟨⟨c1, ev1, r1⟩, h1, h2⟩ := Run.bind_eq_ret.1 h
    have hrem : rem c.rd = [] := by show Script.bytes c.rd = []; rw [hc, hb]
    have hno : NoHead (rem c.rd) := by rw [hrem]; exact noHead_nil
    have hfin : fin c.rd = none := by show Script.ending c.rd = none; rw [hc, he]
    have hfirst : ∀ h, ¬ FirstHead (rem c.rd) h := fun h hh => hh.not_noHead hno
    have := acceptStep_spec hx h1
    cases this with
    | closed a b cc d =>
      simp only [Run.ret.injEq, Prod.mk.injEq] at h2
      obtain ⟨_, rfl, rfl⟩ := h2
      exact ⟨rfl, [], rfl, .nil⟩
    | timedOut a b => exact (ht.not_fired a b).elim
    | lost a b => rw [hfin] at b; cases b
    | cut a => exact absurd a (hfirst _)
    | refused a => exact absurd a (hfirst _)
    | gaveUp a => exact absurd a (hfirst _)
    | served a => exact absurd a (hfirst _)
  | cons h1 h2 ih =>
    rename_i g r gs reqs
    intro n c c' ev res g0 hc he hb hm hd hr ht h
    simp only [List.length_cons, acceptGo] at h
    obtain ⟨⟨c1, ev1, r1⟩, k1, k2⟩ := Run.bind_eq_ret.1 h
    have hdel : Delivers env.uriOk (g0 ++ g) r := by
      obtain ⟨a, hd0, i, b0, b, cc⟩ := h1
      exact ⟨by rw [Script.ending_append _ he, a], hd0, i, b0, by rw [Script.bytes_append _ he, hb, b]; rfl, cc⟩
    have hc' : c.rd = (g0 ++ g) ++ gs.flatten := by rw [hc]; simp
    have hpend : Script.pendings c.rd = Script.pendings (g0 ++ g) + Script.pendings gs.flatten := by
      rw [hc', Script.pendings_append _ hdel.1]
    have hpg : Script.pendings (g0 ++ g) ≤ m := by omega
    obtain ⟨e1, e2, e3, e4, g', f1, f2, f3, f4⟩ := acceptStep_alone hx hp hc' hdel (Nat.le_refl _) (fun hmap _ => (hd r List.mem_cons_self _).mono hpg) hr ht k1
    subst e1
    obtain ⟨⟨c2, ev2, r2⟩, k3, k4⟩ := Run.bind_eq_ret.1 k2
    simp only [Run.ret.injEq, Prod.mk.injEq] at k4
    obtain ⟨rfl, rfl, rfl⟩ := k4
    have hp1 : Script.pendings c1.rd ≤ m := by
      rw [f1, Script.pendings_append _ f2]; omega
    obtain ⟨z1, evs, z2, z3⟩ := ih f1 f2 f3 hp1 (fun r hr => hd r (List.mem_cons_of_mem _ hr)) e4 e3 k3
    exact ⟨z1, ev1 :: evs, by rw [z2]; rfl, .cons e2 z3⟩

end

end Tophat
