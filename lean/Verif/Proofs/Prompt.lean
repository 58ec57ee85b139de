import Verif.Spec.Stall
import Verif.Spec.Connection
import Verif.Proofs.CopyEncoder
/-! `io::copy` from a source that falls silent: everything that came before is written. -/

set_option linter.unusedSectionVars false

namespace Tophat

section
variable {ε : Type} {poll : ε → Bytes → Run (ε × Bytes × EPoll)}

theorem copyGo_poll {fuel : Nat} {s : CopyState ε} (h : s.pos ≥ s.cap) :
    copyGo poll (fuel + 1) s = (poll s.enc s.buf >>= fun x =>
      match x with
      | (enc, buf, r) => match r with
        | .pending => copyGo poll fuel { s with enc := enc, buf := buf }
        | .err e => .ret ({ s with enc := enc, buf := buf }, .err e)
        | .ready n =>
          if n = 0 then
            match s.writer.flush with
            | (w, p) => match p with
              | .pending => copyGo poll fuel { s with enc := enc, buf := buf, pos := 0, cap := n, writer := w }
              | .err e => .ret ({ s with enc := enc, buf := buf, pos := 0, cap := n, writer := w }, .err e)
              | .ready _ => .ret ({ s with enc := enc, buf := buf, pos := 0, cap := n, writer := w }, .ok s.amt)
          else copyGo poll fuel { s with enc := enc, buf := buf, pos := 0, cap := n }) := by
  conv => lhs; unfold copyGo
  rw [if_pos h]
  rfl

theorem copyGo_write {fuel : Nat} {s : CopyState ε} (h : s.pos < s.cap) (hb : s.cap ≤ s.buf.length) :
    copyGo poll (fuel + 1) s =
      match s.writer.write ((s.buf.take s.cap).drop s.pos) with
      | (w, p) => match p with
        | .pending => copyGo poll fuel { s with writer := w }
        | .err e => .ret ({ s with writer := w }, .err e)
        | .ready i =>
          if i = 0 then .ret ({ s with writer := w }, .err .writeZero)
          else copyGo poll fuel { s with writer := w, amt := s.amt + i, pos := min (s.pos + i) s.cap } := by
  conv => lhs; unfold copyGo
  rw [if_neg (by omega), slice_ok (by omega), Run.ret_bind]
  rfl

/-- `J k e out`: the encoder has handed out `out`, and for `k` polls it will not come to an end; `left` is what it has to do before it is idle. -/
structure Dozes (poll : ε → Bytes → Run (ε × Bytes × EPoll)) (J : Nat → ε → Bytes → Prop) (left : ε → Bytes → Nat) : Prop where
  step : ∀ k e out buf, J (k + 1) e out → buf.length = copyBufLen → ∀ e' buf' r, poll e buf = .ret (e', buf', r) →
    buf'.length = copyBufLen ∧
    match r with
    | .pending => J k e' out ∧ (left e' out < left e out ∨ left e out = 0 ∧ left e' out = 0)
    | .err _ => False
    | .ready n => 0 < n ∧ n ≤ copyBufLen ∧ J k e' (out ++ buf'.take n) ∧ left e' (out ++ buf'.take n) < left e out
  total : ∀ k e out buf, J (k + 1) e out → buf.length = copyBufLen → ∃ x, poll e buf = .ret x

theorem copyGo_total {J : Nat → ε → Bytes → Prop} {left : ε → Bytes → Nat} (hJ : Dozes poll J left) (hmono : ∀ k e out, J (k + 1) e out → J k e out) (fuel : Nat) :
    ∀ (k : Nat) (s : CopyState ε) (out : Bytes), J (k + fuel) s.enc out → s.buf.length = copyBufLen → s.cap ≤ copyBufLen → ∃ x, copyGo poll fuel s = .ret x := by
  induction fuel with
  | zero => intro k s out _ _ _; exact ⟨_, rfl⟩
  | succ fuel ih =>
    intro k s out h1 hb hcap
    by_cases hpos : s.pos ≥ s.cap
    · rw [copyGo_poll hpos]
      obtain ⟨⟨e', buf', p⟩, hp⟩ := hJ.total (k + fuel) _ _ _ h1 hb
      obtain ⟨hb', hst⟩ := hJ.step (k + fuel) _ _ _ h1 hb _ _ _ hp
      rw [hp, Run.ret_bind]
      cases p with
      | err x => exact hst.elim
      | pending => exact ih k _ out hst.1 hb' hcap
      | ready n =>
        simp only [] at hst ⊢
        rw [if_neg (by omega)]
        exact ih k _ _ hst.2.2.1 hb' hst.2.1
    · rw [copyGo_write (by omega) (by omega)]
      generalize s.writer.write ((s.buf.take s.cap).drop s.pos) = x
      obtain ⟨w, p⟩ := x
      cases p with
      | err x => exact ⟨_, rfl⟩
      | pending => exact ih k _ out (hmono _ _ _ h1) hb hcap
      | ready i =>
        simp only []
        split
        · exact ⟨_, rfl⟩
        · exact ih k _ out (hmono _ _ _ h1) hb hcap

theorem copyGo_dozes {J : Nat → ε → Bytes → Prop} {left : ε → Bytes → Nat} (hJ : Dozes poll J left) (hmono : ∀ k e out, J (k + 1) e out → J k e out) (fuel : Nat) :
    ∀ (k : Nat) (s : CopyState ε) (out sent g : Bytes), J (k + fuel) s.enc out → s.buf.length = copyBufLen → s.pos ≤ s.cap → s.cap ≤ copyBufLen →
      s.writer.Reliable → s.writer.got = g ++ sent → out = sent ++ (s.buf.take s.cap).drop s.pos →
      ∀ s' r, copyGo poll fuel s = .ret (s', r) →
        r = .running ∧ ∃ out' sent', J k s'.enc out' ∧ s'.writer.got = g ++ sent' ∧ sent' <+: out' ∧
          (2 * left s.enc out + s.writer.script.length + (if s.pos < s.cap then 1 else 0) < fuel ∨ left s.enc out = 0 ∧ s.pos = s.cap → left s'.enc out' = 0 ∧ sent' = out') := by
  induction fuel with
  | zero =>
    intro k s out sent g h1 hb hpc hcap hrel hg ho s' r h
    simp only [copyGo, Run.ret.injEq, Prod.mk.injEq] at h
    obtain ⟨rfl, rfl⟩ := h
    refine ⟨rfl, out, sent, h1, hg, by rw [ho]; exact List.prefix_append _ _, fun h => ?_⟩
    rcases h with h | ⟨h, h'⟩
    · omega
    · refine ⟨h, ?_⟩
      rw [ho, h']
      simp [List.drop_take]
  | succ fuel ih =>
    intro k s out sent g h1 hb hpc hcap hrel hg ho s' r h
    by_cases hpos : s.pos ≥ s.cap
    · have hpeq : s.pos = s.cap := by omega
      have hout : out = sent := by rw [ho, hpeq]; simp [List.drop_take]
      subst hout
      rw [copyGo_poll hpos] at h
      obtain ⟨⟨e', buf', p⟩, hp, h⟩ := Run.bind_eq_ret.1 h
      obtain ⟨hb', hst⟩ := hJ.step (k + fuel) _ _ _ h1 hb _ _ _ hp
      cases p with
      | err x => exact hst.elim
      | pending =>
        simp only [] at h hst
        obtain ⟨a, b⟩ := hst
        obtain ⟨rfl, out', sent', g1, g2, g3, g4⟩ := ih k { s with enc := e', buf := buf' } out out g a hb' hpc hcap hrel hg (by
            simp only [hpeq, List.drop_take]; simp) s' r h
        refine ⟨rfl, out', sent', g1, g2, g3, fun hh => g4 ?_⟩
        rw [if_neg (by omega)] at hh
        simp only []
        rw [if_neg (by omega)]
        rcases b with b | ⟨b1, b2⟩
        · rcases hh with hh | hh
          · exact .inl (by omega)
          · omega
        · exact .inr ⟨b2, hpeq⟩
      | ready n =>
        simp only [] at h hst
        obtain ⟨a, b, c, d⟩ := hst
        rw [if_neg (by omega)] at h
        obtain ⟨rfl, out', sent', g1, g2, g3, g4⟩ := ih k { s with enc := e', buf := buf', pos := 0, cap := n } _ out g c hb' (Nat.zero_le _) b hrel hg (by simp) s' r h
        refine ⟨rfl, out', sent', g1, g2, g3, fun hh => g4 (.inl ?_)⟩
        rw [if_neg (by omega)] at hh
        simp only []
        rw [if_pos a]
        rcases hh with hh | hh <;> omega
    · have hlt : s.pos < s.cap := by omega
      have hJ' : J (k + fuel) s.enc out := hmono _ _ _ h1
      rw [copyGo_write hlt (by omega)] at h
      rw [if_pos hlt]
      generalize hd : (s.buf.take s.cap).drop s.pos = data at ho h
      have hdl : data.length = s.cap - s.pos := by rw [← hd]; simp; omega
      -- after a write of `i` bytes
      have cont : ∀ (i : Nat) (sc : List WEv) (pre : List WEv), 0 < i → i ≤ data.length → s.writer.script = pre ++ sc → (pre = [] → i = data.length) →
          copyGo poll fuel { s with writer := { s.writer with script := sc, got := s.writer.got ++ data.take i }, amt := s.amt + i, pos := min (s.pos + i) s.cap } = .ret (s', r) →
          r = .running ∧ ∃ out' sent', J k s'.enc out' ∧ s'.writer.got = g ++ sent' ∧ sent' <+: out' ∧
            (2 * left s.enc out + s.writer.script.length + 1 < fuel + 1 ∨ left s.enc out = 0 ∧ s.pos = s.cap → left s'.enc out' = 0 ∧ sent' = out') := by
        intro i sc pre hi hil hsc hprei h
        have hmin : min (s.pos + i) s.cap = s.pos + i := by omega
        obtain ⟨hr, out', sent', g1, g2, g3, g4⟩ := ih k { s with writer := { s.writer with script := sc, got := s.writer.got ++ data.take i }, amt := s.amt + i, pos := min (s.pos + i) s.cap }
          out (sent ++ data.take i) g hJ' hb (by simp only []; omega) hcap
          (fun e he => hrel e (by rw [hsc]; exact List.mem_append_right _ he)) (by simp only [hg, List.append_assoc])
          (by
            simp only [hmin]
            rw [ho, List.append_assoc]
            congr 1
            rw [← List.drop_drop, hd, List.take_append_drop]) s' r h
        refine ⟨hr, out', sent', g1, g2, g3, fun hh => g4 ?_⟩
        simp only [hmin]
        have hlen : s.writer.script.length = pre.length + sc.length := by rw [hsc]; simp
        rcases hh with hh | hh
        · by_cases hp0 : pre = []
          · left
            rw [if_neg (by have := hprei hp0; omega)]
            omega
          · have : 0 < pre.length := by rwa [List.length_pos_iff]
            left
            split <;> omega
        · omega
      rcases hsc : s.writer.script with _ | ⟨ev, sc⟩
      · rw [show s.writer.write data = ({ s.writer with got := s.writer.got ++ data }, .ready data.length) by simp only [Writer.write, hsc]] at h
        simp only [] at h
        rw [if_neg (by omega)] at h
        have := cont data.length [] [] (by omega) (Nat.le_refl _) (by rw [hsc]; rfl) (fun _ => rfl)
        rw [List.take_length] at this
        rw [hsc] at this h
        exact this h
      · rw [hsc] at cont
        have hev : ev ∈ s.writer.script := by rw [hsc]; exact List.mem_cons_self
        rcases ev with m | _ | x
        · rw [show s.writer.write data = ({ s.writer with script := sc, got := s.writer.got ++ data.take m }, .ready (min m data.length)) by simp only [Writer.write, hsc]] at h
          simp only [] at h
          have hm : m ≠ 0 := fun hm => (hrel _ hev).1 (by rw [hm])
          rw [if_neg (by omega)] at h
          have := cont (min m data.length) sc [.accept m] (by omega) (by omega) rfl (by simp)
          have ht : data.take (min m data.length) = data.take m := by rw [← List.take_take, List.take_length]
          rw [ht] at this
          exact this h
        · rw [show s.writer.write data = ({ s.writer with script := sc }, .pending) by simp only [Writer.write, hsc]] at h
          simp only [] at h
          obtain ⟨hr, out', sent', g1, g2, g3, g4⟩ := ih k { s with writer := { s.writer with script := sc } } out sent g hJ' hb hpc hcap
            (fun e he => hrel e (by rw [hsc]; exact List.mem_cons_of_mem _ he)) hg (by rw [ho, hd]) s' r h
          refine ⟨hr, out', sent', g1, g2, g3, fun hh => g4 ?_⟩
          simp only [List.length_cons] at hh ⊢
          rw [if_pos hlt]
          rcases hh with hh | hh
          · exact .inl (by omega)
          · omega
        · exact absurd rfl ((hrel _ hev).2 x)

end

/-! ## A body that falls silent -/

section
variable {ρ : Type} [AsyncBufRead ρ] [LawfulBufRead ρ]

/-- A reader that falls silent.  `D k s`: in state `s` there will be no end and no error for `k` polls; `Q s`: the silence has begun. -/
structure Naps (N : Nat) (D : Nat → ρ → Prop) (Q : ρ → Prop) : Prop where
  mono : ∀ {k s}, D (k + 1) s → D k s
  fill : ∀ {k s}, D (k + 1) s → fin s = none → ∃ s' p, pollFill s = .ret (s', p) ∧ (p = .pending ∧ D k s' ∨ ∃ bs, p = .data bs ∧ bs ≠ [] ∧ ¬ Q s ∧ D k s' ∧ ∀ m, m ≤ bs.length → D k (consume s' m))
  read : ∀ {k s}, D (k + 1) s → fin s = none → ∀ {m}, 0 < m → ∃ s' p, pollRead s m = .ret (s', p) ∧ (p = .pending ∧ D k s' ∨
      ∃ bs, p = .data bs ∧ bs ≠ [] ∧ bs.length ≤ m ∧ D (k + 1) s' ∧ rem s = bs ++ rem s' ∧ fin s' = none)
  loud : ∀ {k s}, D k s → ¬ Q s → N ≤ meas s
  silent : ∀ {k s}, D k s → Q s → rem s = []

variable {N : Nat} {D : Nat → ρ → Prop} {Q : ρ → Prop}

namespace ChunkedEncoder

theorem encode_live {hexLen : Nat → Nat} {e : ChunkedEncoder} {body : ρ} {buf : Bytes} (h : e.state = .start ∨ e.state = .encodeChunks) :
    e.encode hexLen body buf = (⟨0, .encodeChunks⟩ : ChunkedEncoder).encodeChunks hexLen body buf := by
  rcases h with h | h
  · simp [encode, h, init, setState, allowed]
  · obtain ⟨b, st⟩ := e
    simp only at h
    subst h
    simp [encode]

end ChunkedEncoder

variable (hN : Naps N D Q)
include hN

namespace ChunkedEncoder

theorem encode_dull {hexLen : Nat → Nat} {e : ChunkedEncoder} {body : ρ} {buf : Bytes} {k : Nat} (h : e.state = .start ∨ e.state = .encodeChunks) (hd : D (k + 1) body)
    (hf : fin body = none) {e' : ChunkedEncoder} {body' : ρ} {buf' : Bytes} {r : EPoll} (hr : e.encode hexLen body buf = .ret (e', body', buf', r)) :
    D k body' ∧ (∀ x, r ≠ .err x) ∧ e'.state = .encodeChunks ∧ (Q body → r = .pending) := by
  rw [encode_live h] at hr
  obtain ⟨s', p, hp, ok⟩ := hN.fill hd hf
  unfold encodeChunks at hr
  rw [hp, Run.ret_bind] at hr
  rcases ok with ⟨rfl, hd'⟩ | ⟨bs, rfl, hb, hq, hd0, hd'⟩
  · simp only [if_true, Run.ret.injEq, Prod.mk.injEq] at hr
    obtain ⟨rfl, rfl, rfl, rfl⟩ := hr
    exact ⟨hd', by simp, rfl, fun _ => rfl⟩
  · have hbl : bs.length ≠ 0 := by simpa using hb
    simp only [if_neg hbl] at hr
    have nohush : ∀ x : Prop, Q body → x := fun x h => absurd h hq
    split at hr
    · simp only [Run.ret.injEq, Prod.mk.injEq] at hr
      obtain ⟨rfl, rfl, rfl, rfl⟩ := hr
      exact ⟨hd0, by simp, rfl, nohush _⟩
    · obtain ⟨b1, -, hr⟩ := Run.bind_eq_ret.1 hr
      obtain ⟨b2, -, hr⟩ := Run.bind_eq_ret.1 hr
      obtain ⟨b3, -, hr⟩ := Run.bind_eq_ret.1 hr
      obtain ⟨b4, -, hr⟩ := Run.bind_eq_ret.1 hr
      simp only [Run.ret.injEq, Prod.mk.injEq] at hr
      obtain ⟨rfl, rfl, rfl, rfl⟩ := hr
      exact ⟨hd' _ (by omega), by simp, rfl, nohush _⟩

end ChunkedEncoder

theorem ChunkedEncoder.encode_total {hexLen : Nat → Nat} (hx : HexLenOk hexLen) {e : ChunkedEncoder} {body : ρ} {buf : Bytes} {k : Nat} (h : e.state = .start ∨ e.state = .encodeChunks) (hd : D (k + 1) body)
    (hf : fin body = none) : ∃ x, e.encode hexLen body buf = .ret x := by
  have hi : ChunkedEncoder.Inv e body := h.elim .inl fun h => .inr (.inl h)
  rcases ChunkedEncoder.encode_step hx buf hi with ⟨_, _, _, _, h1, -⟩ | ⟨h1, h2, h3, -⟩
  · exact ⟨_, h1⟩
  · exfalso
    rw [ChunkedEncoder.encode_live h] at h1
    unfold ChunkedEncoder.encodeChunks at h1
    obtain ⟨s', p, hp, ok⟩ := hN.fill hd hf
    rw [hp, Run.ret_bind] at h1
    rcases ok with ⟨rfl, hd'⟩ | ⟨bs, rfl, hb, -⟩
    · simp at h1
    · obtain ⟨s2, p2, hp2, ok2⟩ := LawfulBufRead.fill_ok body
      rw [hp] at hp2
      simp only [Run.ret.injEq, Prod.mk.injEq] at hp2
      obtain ⟨rfl, rfl⟩ := hp2
      cases ok2 with
      | data a b c d e f =>
        rw [h3, List.prefix_nil] at d
        exact hb d

namespace Encoder

theorem encodeFixedBody_dull {k n : Nat} (fuel : Nat) : ∀ (e : Encoder ρ) (buf : Bytes), D (k + 1) e.resp.body → fin e.resp.body = none → e.contentLength = some n → e.bytesRead ≤ buf.length →
    buf.length + n < usizeLimit → e.bodyBytesRead + (rem e.resp.body).length < n → buf.length - e.bytesRead < fuel →
    ∃ e' buf' r, encodeFixedBody fuel e buf = .ret (e', buf', r) ∧ D k e'.resp.body := by
  induction fuel with
  | zero => intro e buf _ _ _ _ _ _ h; omega
  | succ fuel ih =>
    intro e buf hd hf hcl hk hlim hn hfu
    by_cases hfull : e.bytesRead = buf.length
    · exact ⟨e, buf, .ready e.bytesRead, by simp only [encodeFixedBody, hfull, if_true], hN.mono hd⟩
    · have hno : e.bytesRead + n < usizeLimit ∧ e.bodyBytesRead ≤ e.bytesRead + n := by omega
      unfold encodeFixedBody
      rw [if_neg hfull]
      split
      · rename_i h; rw [hcl] at h; cases h
      · rename_i m h
        rw [hcl] at h
        cases h
        rw [if_pos hno]
        generalize hup : min (e.bytesRead + n - e.bodyBytesRead) buf.length = upper
        have hku : e.bytesRead < upper := by omega
        simp only [if_pos (Nat.le_of_lt hku)]
        obtain ⟨s', p, hp, ok⟩ := hN.read hd hf (m := upper - e.bytesRead) (by omega)
        rw [hp, Run.ret_bind]
        rcases ok with ⟨rfl, hd'⟩ | ⟨bs, rfl, hb, hbl, hd', hr, hf'⟩
        · simp only []
          split <;> exact ⟨_, _, _, rfl, hd'⟩
        · obtain ⟨buf', w1, w2, w3⟩ := writeAt_ok (buf := buf) (off := e.bytesRead) (bs := bs) (by omega)
          simp only [w1, Run.ret_bind]
          have hpos : 0 < bs.length := by rwa [List.length_pos_iff]
          have hrl : (rem e.resp.body).length = bs.length + (rem s').length := by rw [hr]; simp
          rw [if_neg (by omega)]
          exact ih { e with resp := { e.resp with body := s' }, bytesRead := e.bytesRead + bs.length, bodyBytesRead := e.bodyBytesRead + bs.length } buf' hd' hf' hcl (by simp only []; omega) (by omega) (by simp only []; omega) (by simp only []; omega)

theorem encodeChunkedBody_total {hexLen : Nat → Nat} (hx : HexLenOk hexLen) {e : Encoder ρ} {buf : Bytes} {k : Nat} (h : e.chunked.state = .start ∨ e.chunked.state = .encodeChunks) (hd : D (k + 1) e.resp.body)
    (hf : fin e.resp.body = none) (hk : e.bytesRead ≤ buf.length) : ∃ x, e.encodeChunkedBody hexLen buf = .ret x := by
  obtain ⟨x, hx⟩ := ChunkedEncoder.encode_total hN hx (buf := buf.drop e.bytesRead) h hd hf
  simp only [encodeChunkedBody, if_pos hk, hx, Run.ret_bind]
  obtain ⟨a, b, c, p⟩ := x
  cases p with
  | err x => exact ⟨_, rfl⟩
  | ready n => exact ⟨_, rfl⟩
  | pending => simp only []; split <;> exact ⟨_, rfl⟩

theorem encodeChunkedBody_dull {hexLen : Nat → Nat} {e : Encoder ρ} {buf : Bytes} {k : Nat} (h : e.chunked.state = .start ∨ e.chunked.state = .encodeChunks) (hd : D (k + 1) e.resp.body)
    (hf : fin e.resp.body = none) {e' : Encoder ρ} {buf' : Bytes} {r : EPoll} (hr : e.encodeChunkedBody hexLen buf = .ret (e', buf', r)) :
    D k e'.resp.body ∧ (∀ x, r ≠ .err x) ∧ e'.chunked.state = .encodeChunks ∧ (Q e.resp.body → e.bytesRead = 0 → r = .pending) := by
  unfold encodeChunkedBody at hr
  split at hr
  · obtain ⟨⟨c, body, sub, p⟩, h1, hr⟩ := Run.bind_eq_ret.1 hr
    obtain ⟨a, b, c1, d⟩ := ChunkedEncoder.encode_dull hN h hd hf h1
    cases p with
    | err x => exact absurd rfl (b x)
    | ready n =>
      simp only [Run.ret.injEq, Prod.mk.injEq] at hr
      obtain ⟨rfl, rfl, rfl⟩ := hr
      have hno : ¬ Q e.resp.body := fun hj => by cases d hj
      split <;> exact ⟨a, by simp, c1, fun hj => absurd hj hno⟩
    | pending =>
      simp only [] at hr
      split at hr
      · simp only [Run.ret.injEq, Prod.mk.injEq] at hr
        obtain ⟨rfl, rfl, rfl⟩ := hr
        exact ⟨a, by simp, c1, fun _ h0 => by simp only [] at *; omega⟩
      · simp only [Run.ret.injEq, Prod.mk.injEq] at hr
        obtain ⟨rfl, rfl, rfl⟩ := hr
        exact ⟨a, by simp, c1, fun _ _ => rfl⟩
  · cases hr

/-- One poll of a streaming encoder whose body does not end. -/
theorem poll_dull {hexLen : Nat → Nat} {resp : InnerResponse ρ} {now : Bytes} (hl : resp.length = none) (hw : resp.headers.WF) {k : Nat} {e : Encoder ρ} {out : Bytes} (hI : ChInv resp now e out)
    (hs : e.state ≠ .done) (h : e.chunked.state = .start ∨ e.chunked.state = .encodeChunks) (hd : D (k + 1) e.resp.body) (hf : fin e.resp.body = none) {buf : Bytes} {e' : Encoder ρ} {buf' : Bytes} {r : EPoll}
    (hr : e.poll hexLen now buf = .ret (e', buf', r)) :
    D k e'.resp.body ∧ (∀ x, r ≠ .err x) ∧ (e'.chunked.state = .start ∨ e'.chunked.state = .encodeChunks) ∧ (Q e.resp.body → e.state = .chunkedBody → r = .pending) := by
  -- the head
  have head : ∀ e0 : Encoder ρ, encodeHead hexLen (buf.length + 1) e0 buf = .ret (e', buf', r) → e0.contentLength = none → e0.headBytesRead ≤ e0.headBuf.length →
      (e0.chunked.state = .start ∨ e0.chunked.state = .encodeChunks) → D (k + 1) e0.resp.body → fin e0.resp.body = none →
      D k e'.resp.body ∧ (∀ x, r ≠ .err x) ∧ (e'.chunked.state = .start ∨ e'.chunked.state = .encodeChunks) := by
    intro e0 h0 hc hle hcs hd0 hf0
    obtain ⟨buf1, h1, h2, h3⟩ := encodeHead_eq hexLen (buf.length + 1) e0 buf hle
    rw [h3] at h0
    simp only [hc] at h0
    split at h0
    · obtain ⟨a, b, c, -⟩ := encodeChunkedBody_dull hN (k := k) (by simpa using hcs) (by simpa using hd0) (by simpa using hf0) h0
      exact ⟨a, b, .inr c⟩
    · simp only [Run.ret.injEq, Prod.mk.injEq] at h0
      obtain ⟨rfl, rfl, rfl⟩ := h0
      exact ⟨hN.mono hd0, by simp, hcs⟩
  cases hst : e.state with
  | start =>
    simp only [ChInv, hst] at hI
    obtain ⟨rfl, rfl⟩ := hI
    have : (encode resp).poll hexLen now buf = (encode resp).start hexLen now (buf.length + 1) buf := by simp only [poll, pollFuel, encode]
    rw [this, start_eq resp buf hw] at hr
    obtain ⟨a, b, c⟩ := head _ hr hl (Nat.zero_le _) h hd hf
    exact ⟨a, b, c, fun _ h => by cases h⟩
  | head =>
    have : e.poll hexLen now buf = encodeHead hexLen (buf.length + 1) { e with bytesRead := 0 } buf := by simp only [poll, pollFuel, hst]
    rw [this] at hr
    simp only [ChInv, hst] at hI
    obtain ⟨i1, i2, i3, i4, i5, i6, i7⟩ := hI
    obtain ⟨a, b, c⟩ := head _ hr i1 (by simp only [i2, i3]; omega) h hd hf
    exact ⟨a, b, c, fun _ h => by cases h⟩
  | fixedBody => simp [ChInv, hst] at hI
  | chunkedBody =>
    have hp : e.poll hexLen now buf = encodeChunkedBody hexLen { e with bytesRead := 0 } buf := by simp only [poll, pollFuel, hst]
    rw [hp] at hr
    obtain ⟨a, b, c, d⟩ := encodeChunkedBody_dull hN (k := k) (by simpa using h) (by simpa using hd) (by simpa using hf) hr
    exact ⟨a, b, .inr c, fun hj _ => d hj rfl⟩
  | done => exact absurd hst hs

/-- The state of a streaming encoder whose body has `k` polls to go before it may end. -/
def Sleepy (D : Nat → ρ → Prop) (resp : InnerResponse ρ) (now : Bytes) (k : Nat) (e : Encoder ρ) (out : Bytes) : Prop :=
  ChInv resp now e out ∧ e.state ≠ .done ∧ (e.chunked.state = .start ∨ e.chunked.state = .encodeChunks) ∧ D k e.resp.body ∧ fin e.resp.body = none

omit hN in
theorem ChInv.finite {resp : InnerResponse ρ} {now : Bytes} {e : Encoder ρ} {out : Bytes} (h : ChInv resp now e out) (hs : e.state ≠ .done) (hc : e.chunked.state ≠ .ended) : fin e.resp.body = fin resp.body := by
  cases hst : e.state <;> simp only [ChInv, hst] at h
  · rw [h.1]; rfl
  · rw [h.2.2.2.2.2.2]
  · obtain ⟨w, -, -, h⟩ := h
    rcases h with ⟨-, p, -, -, h⟩ | ⟨h, -⟩
    · exact h
    · exact absurd h hc
  · exact absurd hst hs

theorem sleepy_total {hexLen : Nat → Nat} (hx : HexLenOk hexLen) {resp : InnerResponse ρ} {now : Bytes} (hl : resp.length = none) (hw : resp.headers.WF) {k : Nat} {e : Encoder ρ} {out buf : Bytes}
    (h : Sleepy D resp now (k + 1) e out) : ∃ x, e.poll hexLen now buf = .ret x := by
  obtain ⟨hI, hs, h, hd, hf⟩ := h
  have head : ∀ e0 : Encoder ρ, e0.contentLength = none → e0.headBytesRead ≤ e0.headBuf.length → e0.bytesRead = 0 →
      (e0.chunked.state = .start ∨ e0.chunked.state = .encodeChunks) → D (k + 1) e0.resp.body → fin e0.resp.body = none → ∃ x, encodeHead hexLen (buf.length + 1) e0 buf = .ret x := by
    intro e0 hc hle h0 hcs hd0 hf0
    obtain ⟨buf1, h1, h2, h3⟩ := encodeHead_eq hexLen (buf.length + 1) e0 buf hle
    rw [h3]
    simp only [hc]
    split
    · exact encodeChunkedBody_total hN hx (by simpa using hcs) (by simpa using hd0) (by simpa using hf0) (by simp only [h0]; omega)
    · exact ⟨_, rfl⟩
  cases hst : e.state with
  | start =>
    simp only [ChInv, hst] at hI
    obtain ⟨rfl, rfl⟩ := hI
    have : (encode resp).poll hexLen now buf = (encode resp).start hexLen now (buf.length + 1) buf := by simp only [poll, pollFuel, encode]
    rw [this, start_eq resp buf hw]
    exact head _ hl (Nat.zero_le _) rfl h hd hf
  | head =>
    have : e.poll hexLen now buf = encodeHead hexLen (buf.length + 1) { e with bytesRead := 0 } buf := by simp only [poll, pollFuel, hst]
    rw [this]
    simp only [ChInv, hst] at hI
    obtain ⟨i1, i2, i3, i4, i5, i6, i7⟩ := hI
    exact head _ i1 (by simp only [i2, i3]; omega) rfl h hd hf
  | fixedBody => simp [ChInv, hst] at hI
  | chunkedBody =>
    have hp : e.poll hexLen now buf = encodeChunkedBody hexLen { e with bytesRead := 0 } buf := by simp only [poll, pollFuel, hst]
    rw [hp]
    exact encodeChunkedBody_total hN hx (by simpa using h) (by simpa using hd) (by simpa using hf) (Nat.zero_le _)
  | done => exact absurd hst hs

/-- Work below `N` means silence. -/
theorem sleepy_quiet {resp : InnerResponse ρ} {now : Bytes} {k : Nat} {e : Encoder ρ} {out : Bytes} (hb : ¬ Q resp.body) (h : Sleepy D resp now k e out)
    (hW : chWork resp now e out ≤ N) : Q e.resp.body ∧ e.state = .chunkedBody := by
  obtain ⟨h1, h2, h3, h4, h5⟩ := h
  have hne : e.chunked.state ≠ .ended := by rcases h3 with h | h <;> rw [h] <;> simp
  have hq : Q e.resp.body := Classical.byContradiction fun hq => by
    have := hN.loud h4 hq
    simp only [chWork, if_neg hne] at hW
    omega
  refine ⟨hq, ?_⟩
  cases hst : e.state <;> simp only [ChInv, hst] at h1
  · rw [h1.1] at hq; exact absurd hq hb
  · rw [h1.2.2.2.2.2.2] at hq; exact absurd hq hb
  · rfl
  · exact absurd hst h2

theorem sleepy_dozes {hexLen : Nat → Nat} (hx : HexLenOk hexLen) {resp : InnerResponse ρ} {now : Bytes} (hl : resp.length = none) (hw : resp.headers.WF) (hb : ¬ Q resp.body) :
    Dozes (Encoder.poll hexLen now) (Sleepy D resp now) (fun e out => chWork resp now e out - N) where
  total := fun k e out buf h _ => sleepy_total hN hx hl hw h
  step := by
    rintro k e out buf ⟨h1, h2, h3, h4, h5⟩ hbl e' buf' r hp
    have hne : ∀ c : ChunkedEncoder, (c.state = .start ∨ c.state = .encodeChunks) → c.state ≠ .ended := by
      rintro c (h | h) <;> rw [h] <;> simp
    obtain ⟨a, b, c, d⟩ := poll_dull hN hl hw h1 h2 h3 h4 h5 hp
    have hfin : fin resp.body = none := by rw [← h1.finite h2 (hne _ h3)]; exact h5
    have quiet := sleepy_quiet hN hb ⟨h1, h2, h3, h4, h5⟩
    rcases poll_step hx buf hl hw h1 with ⟨e1, buf1, r1, hp1, hs⟩ | ⟨hp1, -⟩
    · rw [hp] at hp1
      simp only [Run.ret.injEq, Prod.mk.injEq] at hp1
      obtain ⟨rfl, rfl, rfl⟩ := hp1
      cases hs with
      | pending g1 hst1 hb1 hwk =>
        refine ⟨by omega, ⟨g1, by simp [hst1], c, a, ?_⟩, ?_⟩
        · rw [g1.finite (by simp [hst1]) (hne _ c)]; exact hfin
        · by_cases hW : chWork resp now e out ≤ N
          · right; omega
          · left; omega
      | err g1 hb1 _ => exact (b _ rfl).elim
      | ready g1 hb1 hn hd hst1 hhd hwk hwk' =>
        rename_i n
        obtain ⟨d1, d2⟩ := hd (by rw [hbl]; decide) (fun h => absurd h h2)
        have hnd : e'.state ≠ .done := fun h => hne _ c (d2 h)
        have hn0 : n ≠ 0 := fun h => hnd (d1 h)
        refine ⟨by omega, by omega, by omega, ⟨g1, hnd, c, a, ?_⟩, ?_⟩
        · rw [g1.finite hnd (hne _ c)]; exact hfin
        · have := hwk hn0
          by_cases hW : chWork resp now e out ≤ N
          · obtain ⟨q1, q2⟩ := quiet hW
            cases d q1 q2
          · omega
    · rw [hp] at hp1; cases hp1

/-- The same for a response of declared length. -/
def SleepyFx (D : Nat → ρ → Prop) (resp : InnerResponse ρ) (now : Bytes) (n k : Nat) (e : Encoder ρ) (out : Bytes) : Prop :=
  FxInv resp now n e out ∧ D k e.resp.body ∧ fin e.resp.body = none

omit hN in
theorem FxInv.split {resp : InnerResponse ρ} {now : Bytes} {n : Nat} {e : Encoder ρ} {out : Bytes} (h : FxInv resp now n e out) (hn : (rem resp.body).length < n) :
    e.state ≠ .done ∧ fin e.resp.body = fin resp.body ∧ ∃ b, out <+: specHead resp now ++ b ∧ rem resp.body = b ++ rem e.resp.body ∧ (out.length = (specHead resp now).length + (rem resp.body).length → out = specHead resp now ++ rem resp.body) := by
  have hp : out <+: specHead resp now ++ rem resp.body := by
    have := h.out
    rw [FxOut, List.take_of_length_le (by omega)] at this
    exact this
  have hfull : out.length = (specHead resp now).length + (rem resp.body).length → out = specHead resp now ++ rem resp.body := fun hl => hp.eq_of_length (by simpa using hl)
  cases hst : e.state <;> simp only [FxInv, hst] at h
  · exact ⟨by simp, by rw [h.1]; rfl, [], by rw [h.2]; exact List.nil_prefix, by rw [h.1]; rfl, hfull⟩
  · exact ⟨by simp, by rw [h.2.2.2.2.2.2], [], by simpa using h.2.2.2.1, by rw [h.2.2.2.2.2.2]; rfl, hfull⟩
  · obtain ⟨b, h1, -, -, -, h2, h3⟩ := h
    exact ⟨by simp, h3, b, by rw [h1]; exact List.prefix_refl _, h2, hfull⟩
  · omega

theorem poll_dull_fixed {hexLen : Nat → Nat} {resp : InnerResponse ρ} {now : Bytes} {n k : Nat} (hl : resp.length = some n) (hw : resp.headers.WF) (hlim : copyBufLen + n < usizeLimit) (hn : (rem resp.body).length < n)
    {e : Encoder ρ} {out buf : Bytes} (h : SleepyFx D resp now n (k + 1) e out) (hbl : buf.length = copyBufLen) :
    ∃ e' buf' r, e.poll hexLen now buf = .ret (e', buf', r) ∧ D k e'.resp.body := by
  obtain ⟨hI, hd, hf⟩ := h
  have head : ∀ e0 : Encoder ρ, e0.contentLength = some n → e0.headBytesRead ≤ e0.headBuf.length → e0.bytesRead = 0 → e0.bodyBytesRead = 0 → e0.resp.body = resp.body → D (k + 1) e0.resp.body → fin e0.resp.body = none →
      ∃ e' buf' r, encodeHead hexLen (buf.length + 1) e0 buf = .ret (e', buf', r) ∧ D k e'.resp.body := by
    intro e0 hc hle h0 hb0 hb hd0 hf0
    obtain ⟨buf1, h1, h2, h3⟩ := encodeHead_eq hexLen (buf.length + 1) e0 buf hle
    rw [h3]
    simp only [hc]
    split
    · refine encodeFixedBody_dull hN (n := n) _ _ _ (by simpa using hd0) (by simpa using hf0) (by simp) (by simp only [h0]; omega) (by omega) (by simp only [hb, hb0]; omega) (by simp only [h0]; omega)
    · exact ⟨_, _, _, rfl, hN.mono hd0⟩
  cases hst : e.state with
  | start =>
    simp only [FxInv, hst] at hI
    obtain ⟨rfl, rfl⟩ := hI
    have : (encode resp).poll hexLen now buf = (encode resp).start hexLen now (buf.length + 1) buf := by simp only [poll, pollFuel, encode]
    rw [this, start_eq resp buf hw]
    exact head _ hl (Nat.zero_le _) rfl rfl rfl hd hf
  | head =>
    have : e.poll hexLen now buf = encodeHead hexLen (buf.length + 1) { e with bytesRead := 0 } buf := by simp only [poll, pollFuel, hst]
    rw [this]
    simp only [FxInv, hst] at hI
    obtain ⟨i1, i2, i3, i4, i5, i6, i7⟩ := hI
    exact head _ i1 (by simp only [i2, i3]; omega) rfl i6 i7 hd hf
  | chunkedBody => simp [FxInv, hst] at hI
  | fixedBody =>
    have hp : e.poll hexLen now buf = encodeFixedBody (buf.length + 1) { e with bytesRead := 0 } buf := by simp only [poll, pollFuel, hst]
    rw [hp]
    simp only [FxInv, hst] at hI
    obtain ⟨b, g1, g2, g3, g4, g5, g6⟩ := hI
    have : (rem resp.body).length = b.length + (rem e.resp.body).length := by rw [g5]; simp
    exact encodeFixedBody_dull hN (n := n) _ _ _ hd hf g2 (Nat.zero_le _) (by omega) (by simp only [g3]; omega) (by simp only []; omega)
  | done => exact absurd hst (hI.split hn).1

omit hN in
theorem fxQuiet {resp : InnerResponse ρ} {now : Bytes} {n : Nat} (hb : ¬ Q resp.body) {e : Encoder ρ} {out : Bytes} (h1 : FxInv resp now n e out) (hn : (rem resp.body).length < n) (hq : Q e.resp.body) : e.state = .fixedBody := by
  cases hst : e.state <;> simp only [FxInv, hst] at h1
  · rw [h1.1] at hq; exact absurd hq hb
  · rw [h1.2.2.2.2.2.2] at hq; exact absurd hq hb
  · rfl
  · omega

theorem sleepyFx_dozes {hexLen : Nat → Nat} {resp : InnerResponse ρ} {now : Bytes} {n : Nat} (hl : resp.length = some n) (hw : resp.headers.WF) (hlim : copyBufLen + n < usizeLimit) (hn : (rem resp.body).length < n) (hb : ¬ Q resp.body) :
    Dozes (Encoder.poll hexLen now) (SleepyFx D resp now n) (fun e out => (specHead resp now).length + (rem resp.body).length - out.length + meas e.resp.body - N) where
  total := fun k e out buf h hb => by
    obtain ⟨_, _, _, h, -⟩ := poll_dull_fixed hN hl hw hlim hn h hb
    exact ⟨_, h⟩
  step := by
    intro k e out buf h hbl e' buf' r hp
    obtain ⟨e1, buf1, r1, hp1, hd⟩ := poll_dull_fixed hN (hexLen := hexLen) hl hw hlim hn h hbl
    rw [hp] at hp1
    simp only [Run.ret.injEq, Prod.mk.injEq] at hp1
    obtain ⟨rfl, rfl, rfl⟩ := hp1
    obtain ⟨h1, h2, h3⟩ := h
    have hfin : fin resp.body = none := by rw [← (h1.split hn).2.1]; exact h3
    rcases poll_step_fixed (hexLen := hexLen) buf (by omega) hl hw h1 with ⟨e1, buf1, r1, hp1, hs⟩ | ⟨hp1, -⟩
    · rw [hp] at hp1
      simp only [Run.ret.injEq, Prod.mk.injEq] at hp1
      obtain ⟨rfl, rfl, rfl⟩ := hp1
      cases hs with
      | pending g1 hst1 hb1 hwk =>
        refine ⟨by omega, ⟨g1, hd, by rw [(g1.split hn).2.1]; exact hfin⟩, ?_⟩
        omega
      | err g1 g2 hb1 => rw [hfin] at g1; cases g1
      | ready g1 hb1 hm hdn hst1 hwk =>
        rename_i m
        obtain ⟨s1, s2, -⟩ := g1.split hn
        have hm0 : m ≠ 0 := fun h0 => s1 (hdn (by rw [hbl]; decide) h0)
        have hpre := g1.out
        rw [FxOut, List.take_of_length_le (l := rem resp.body) (by omega)] at hpre
        have hlen := hpre.length_le
        simp only [List.length_append, List.length_take] at hlen
        refine ⟨by omega, by omega, by omega, ⟨g1, hd, by rw [s2]; exact hfin⟩, ?_⟩
        simp only [List.length_append, List.length_take]
        have hle : N ≤ meas e.resp.body := by
          by_cases hq : Q e.resp.body
          · exfalso
            have hst := fxQuiet hb h1 hn hq
            simp only [FxInv, hst] at h1
            obtain ⟨b, q1, -, -, -, q2, -⟩ := h1
            rw [hN.silent h2 hq, List.append_nil] at q2
            rw [q1, ← q2] at hlen
            simp only [List.length_append] at hlen
            omega
          · exact hN.loud h2 hq
        omega
    · rw [hp] at hp1; cases hp1

end Encoder
end

/-! ## The readers of `Spec/Stall.lean` -/

/-- `k` more polls without the end; `N` is the silence that was planned. -/
def Stall.Dull {ρ : Type} (N k : Nat) : Stall ρ → Prop
  | .talk _ n => n = N ∧ k ≤ N
  | .hush j => k ≤ j ∧ j < N

section
variable {ρ : Type} [AsyncBufRead ρ] [LawfulBufRead ρ]

theorem Stall.Dull.mono {N k k' : Nat} {s : Stall ρ} (h : s.Dull N k) (hk : k' ≤ k) : s.Dull N k' := by
  cases s with
  | talk r n => exact ⟨h.1, Nat.le_trans hk h.2⟩
  | hush j => exact ⟨Nat.le_trans hk h.1, h.2⟩

theorem Stall.fill_dull {N k : Nat} {s : Stall ρ} (h : s.Dull N (k + 1)) (hf : fin s = none) :
    ∃ s' p, pollFill s = .ret (s', p) ∧ (p = .pending ∧ s'.Dull N k ∨ ∃ bs, p = .data bs ∧ bs ≠ [] ∧ (∃ r n, s = .talk r n) ∧ s'.Dull N k ∧ ∀ m, (consume s' m).Dull N k) := by
  have hush : ∀ j : Nat, k + 1 ≤ j → j ≤ N → ∃ s' p, (Stall.silence j : Run (Stall ρ × RPoll)) = .ret (s', p) ∧
      (p = .pending ∧ s'.Dull N k ∨ ∃ bs, p = .data bs ∧ bs ≠ [] ∧ (∃ r n, s = .talk r n) ∧ s'.Dull N k ∧ ∀ m, (consume s' m).Dull N k) := by
    intro j hj hj'
    cases j with
    | zero => omega
    | succ j => exact ⟨_, _, rfl, .inl ⟨rfl, by simp only [Stall.Dull]; omega⟩⟩
  cases s with
  | hush j => exact hush j h.1 (by have := h.2; omega)
  | talk r n =>
    obtain ⟨h1, h2⟩ := h
    subst h1
    obtain ⟨r', p, hp, ok⟩ := LawfulBufRead.fill_ok r
    show ∃ s' p, (Stall.talk r n).fill = .ret (s', p) ∧ _
    simp only [Stall.fill, hp, Run.ret_bind]
    by_cases h0 : p = .data []
    · rw [if_pos h0]
      exact hush n h2 (Nat.le_refl _)
    · rw [if_neg h0]
      refine ⟨_, _, rfl, ?_⟩
      cases p with
      | pending => exact .inl ⟨rfl, rfl, by omega⟩
      | err x =>
        cases ok with
        | err a b => 
          have : fin r = none := hf
          rw [b] at this; cases this
      | data bs => exact .inr ⟨bs, rfl, fun hb => h0 (by rw [hb]), ⟨r, n, rfl⟩, ⟨rfl, by omega⟩, fun m => ⟨rfl, by omega⟩⟩

theorem Stall.read_dull {N k : Nat} {s : Stall ρ} (h : s.Dull N (k + 1)) (hf : fin s = none) {m : Nat} (hm : 0 < m) :
    ∃ s' p, pollRead s m = .ret (s', p) ∧ (p = .pending ∧ s'.Dull N k ∨
      ∃ bs, p = .data bs ∧ bs ≠ [] ∧ bs.length ≤ m ∧ s'.Dull N (k + 1) ∧ rem s = bs ++ rem s' ∧ fin s' = none) := by
  have hush : ∀ j : Nat, k + 1 ≤ j → j ≤ N → ∃ s' p, (Stall.silence j : Run (Stall ρ × RPoll)) = .ret (s', p) ∧ (p = .pending ∧ s'.Dull N k ∨
      ∃ bs, p = .data bs ∧ bs ≠ [] ∧ bs.length ≤ m ∧ s'.Dull N (k + 1) ∧ rem s = bs ++ rem s' ∧ fin s' = none) := by
    intro j hj hj'
    cases j with
    | zero => omega
    | succ j => exact ⟨_, _, rfl, .inl ⟨rfl, by simp only [Stall.Dull]; omega⟩⟩
  cases s with
  | hush j => exact hush j h.1 (by have := h.2; omega)
  | talk r n =>
    obtain ⟨h1, h2⟩ := h
    subst h1
    obtain ⟨r', p, hp, ok⟩ := LawfulRead.read_ok r m
    show ∃ s' p, (Stall.talk r n).read m = .ret (s', p) ∧ _
    simp only [Stall.read, hp, Run.ret_bind]
    by_cases h0 : p = .data [] ∧ 0 < m
    · rw [if_pos h0]
      exact hush n h2 (Nat.le_refl _)
    · rw [if_neg h0]
      refine ⟨_, _, rfl, ?_⟩
      have hf' : fin r = none := hf
      cases ok with
      | pending a b c => exact .inl ⟨rfl, rfl, by omega⟩
      | err a b => rw [b] at hf'; cases hf'
      | data a b c d e =>
        rename_i bs
        exact .inr ⟨bs, rfl, fun hb => h0 ⟨by rw [hb], hm⟩, a, ⟨rfl, h2⟩, b, by show fin r' = none; rw [c]; exact hf'⟩

theorem Stall.naps (N : Nat) : Naps (ρ := Stall ρ) N (fun k s => s.Dull N k) (fun s => ∃ j, s = .hush j) where
  mono := fun {k s} h => h.mono (Nat.le_succ k)
  fill := by
    intro k s h hf
    obtain ⟨s', p, h1, h2⟩ := Stall.fill_dull h hf
    refine ⟨s', p, h1, ?_⟩
    rcases h2 with h2 | ⟨bs, q1, q2, ⟨r, n, rfl⟩, q4, q5⟩
    · exact .inl h2
    · exact .inr ⟨bs, q1, q2, (fun ⟨j, h⟩ => by cases h), q4, fun m _ => q5 m⟩
  read := fun h hf _ hm => Stall.read_dull h hf hm
  loud := by
    intro k s h hq
    cases s with
    | talk r n =>
      have : n = N := h.1
      show N ≤ meas r + n
      omega
    | hush j => exact absurd ⟨j, rfl⟩ hq
  silent := by
    rintro k s h ⟨j, rfl⟩
    rfl

end
end Tophat
