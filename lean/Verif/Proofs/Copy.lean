import Verif.Model.Copy
import Verif.Proofs.EncodeLive
/-! Helper lemmas about `io::copy`. -/

set_option linter.unusedSectionVars false

namespace Tophat

/-- What `io::copy` needs to know about an encoder: an invariant relating its state to what it has
handed out, a measure of the work left, what holds when it reports end of stream, which errors it can
return and after which output, and whether it can panic or hang. -/
structure EncSpec {ε : Type} (poll : ε → Bytes → Run (ε × Bytes × EPoll)) (I : ε → Bytes → Prop)
    (work : ε → Bytes → Nat) (F : Bytes → Prop) (E : Bytes → IoErr → Prop) (unsafe_ : Prop) : Prop where
  step : ∀ e out buf, I e out → buf.length = copyBufLen →
    ((poll e buf = .panic ∨ poll e buf = .diverge) ∧ unsafe_) ∨
    ∃ e' buf' r, poll e buf = .ret (e', buf', r) ∧ buf'.length = copyBufLen ∧
      match r with
      | .pending => I e' out ∧ work e' out < work e out
      | .err x => E out x
      | .ready n => n ≤ copyBufLen ∧ I e' (out ++ buf'.take n) ∧ (n = 0 → F out ∧ work e' out ≤ work e out) ∧
          (n ≠ 0 → work e' (out ++ buf'.take n) < work e out)

/-- The transport reported no error among these answers. -/
def Clean (used : List WEv) : Prop := ∀ x, WEv.err x ∉ used

theorem Clean.nil : Clean [] := by simp [Clean]
theorem Clean.cons {ev : WEv} {l : List WEv} (h : ∀ x, ev ≠ .err x) (hl : Clean l) : Clean (ev :: l) := by
  intro x hx
  rcases List.mem_cons.1 hx with hx | hx
  · exact h x hx.symm
  · exact hl x hx

/-- What `io::copy` returned, given the answers the transport gave. -/
def CopyOutcome (F : Bytes → Prop) (E : Bytes → IoErr → Prop) (bound : Prop) (sent : Bytes) (used : List WEv) : CopyRes → Prop
  | .running => bound ∧ Clean used
  | .ok amt => F sent ∧ amt = sent.length ∧ Clean used
  | .err x => E sent x ∧ Clean used ∨ (∃ pre, used = pre ++ [.err x] ∧ Clean pre) ∨
      (x = .writeZero ∧ ∃ pre, used = pre ++ [.accept 0] ∧ Clean pre)

theorem CopyOutcome.cons {F : Bytes → Prop} {E : Bytes → IoErr → Prop} {b b' : Prop} {sent : Bytes} {used : List WEv} {r : CopyRes}
    (h : CopyOutcome F E b sent used r) (hb : r = .running → b → b') {pre : List WEv} (hp : Clean pre) :
    CopyOutcome F E b' sent (pre ++ used) r := by
  have happ : ∀ l, Clean l → Clean (pre ++ l) := fun l hl x hx => by
    rcases List.mem_append.1 hx with hx | hx
    · exact hp x hx
    · exact hl x hx
  cases r with
  | running => exact ⟨hb rfl h.1, happ _ h.2⟩
  | ok a => exact ⟨h.1, h.2.1, happ _ h.2.2⟩
  | err x =>
    rcases h with h | ⟨q, rfl, hq⟩ | ⟨rfl, q, rfl, hq⟩
    · exact .inl ⟨h.1, happ _ h.2⟩
    · exact .inr (.inl ⟨pre ++ q, by simp, happ _ hq⟩)
    · exact .inr (.inr ⟨rfl, pre ++ q, by simp, happ _ hq⟩)

theorem slice_ok {s : Bytes} {lo hi : Nat} (h : lo ≤ hi ∧ hi ≤ s.length) : slice s lo hi = .ret ((s.take hi).drop lo) := by
  simp [slice, h]

section
variable {ε : Type} {poll : ε → Bytes → Run (ε × Bytes × EPoll)} {I : ε → Bytes → Prop}
  {work : ε → Bytes → Nat} {F : Bytes → Prop} {E : Bytes → IoErr → Prop} {U : Prop}

/-- What the loop of `io::copy` guarantees, started from a state in which `out` has been taken from
the encoder and all of it but the buffered part has been written. -/
theorem copyGo_spec (hE : EncSpec poll I work F E U) (fuel : Nat) :
    ∀ (s : CopyState ε) (out sent : Bytes) (w0 : Writer), I s.enc out → s.buf.length = copyBufLen → s.pos ≤ s.cap → s.cap ≤ copyBufLen →
      s.writer.got = w0.got ++ sent → s.amt = sent.length → out = sent ++ (s.buf.take s.cap).drop s.pos →
      ((copyGo poll fuel s = .panic ∨ copyGo poll fuel s = .diverge) ∧ U) ∨
      ∃ s' r sent' used, copyGo poll fuel s = .ret (s', r) ∧ s'.writer.got = w0.got ++ sent' ∧
        s.writer.script = used ++ s'.writer.script ∧
        (∃ e out', I e out' ∧ sent' <+: out') ∧
        CopyOutcome F E (fuel ≤ 2 * work s.enc out + s.writer.script.length + (if s.pos < s.cap then 1 else 0)) sent' used r := by
  induction fuel with
  | zero =>
    intro s out sent w0 hI _ _ _ hg ha ho
    exact .inr ⟨s, .running, sent, [], rfl, hg, rfl, ⟨_, _, hI, by rw [ho]; exact List.prefix_append _ _⟩, Nat.zero_le _, .nil⟩
  | succ fuel ih =>
    intro s out sent w0 hI hb hpc hcap hg ha ho
    by_cases hpos : s.pos ≥ s.cap
    · have hpeq : s.pos = s.cap := by omega
      have hout : out = sent := by rw [ho, hpeq]; simp [List.drop_take]
      subst hout
      have hpre : ∃ e out', I e out' ∧ out <+: out' := ⟨_, _, hI, List.prefix_refl _⟩
      have hun : copyGo poll (fuel + 1) s = (poll s.enc s.buf >>= fun x =>
          match x with
          | (enc, buf, r) => match r with
            | .pending => copyGo poll fuel { s with enc := enc, buf := buf }
            | .err e => .ret ({ s with enc := enc, buf := buf }, .err e)
            | .ready n =>
              if n = 0 then
                match s.writer.flush with
                | (w, p) => match p with
                  | .pending => copyGo poll fuel { s with enc := enc, buf := buf, pos := 0, cap := n, writer := w }
                  | .err e => .ret ({ s with enc := enc, buf := buf, pos := 0, cap := n, writer := w }, .err e)
                  | .ready _ => .ret ({ s with enc := enc, buf := buf, pos := 0, cap := n, writer := w }, .ok s.amt)
              else copyGo poll fuel { s with enc := enc, buf := buf, pos := 0, cap := n }) := by
        conv => lhs; unfold copyGo
        rw [if_pos hpos]
        rfl
      rcases hE.step s.enc out s.buf hI hb with ⟨hp, hU⟩ | ⟨e', buf', r, hp, hb', hr⟩
      · refine .inl ⟨?_, hU⟩
        rcases hp with hp | hp
        · left; rw [hun, hp]; rfl
        · right; rw [hun, hp]; rfl
      · rw [hun, hp, Run.ret_bind]
        have hif : (if s.pos < s.cap then 1 else 0) = 0 := by rw [if_neg (by omega)]
        cases r with
        | pending =>
          simp only [] at hr ⊢
          rcases ih { s with enc := e', buf := buf' } out out w0 hr.1 hb' hpc hcap hg ha (by
            simp only [hpeq, List.drop_take]; simp) with h | ⟨s', r', sent', used, g1, g2, g3, g4, g5⟩
          · exact .inl h
          · exact .inr ⟨s', r', sent', used, g1, g2, g3, g4, g5.cons (fun _ h => by simp only [] at h ⊢; omega) .nil⟩
        | err x => exact .inr ⟨_, _, out, [], rfl, hg, rfl, hpre, .inl ⟨hr, .nil⟩⟩
        | ready n =>
          simp only [] at hr ⊢
          obtain ⟨r1, r2, r3, r4⟩ := hr
          by_cases hn : n = 0
          · subst hn
            obtain ⟨r3, r5⟩ := r3 rfl
            rw [if_pos rfl]
            rcases hsc : s.writer.script with _ | ⟨ev, sc⟩
            · rw [show s.writer.flush = ({ s.writer with flushed := s.writer.got.length }, .ready 0) by simp only [Writer.flush, hsc]]
              exact .inr ⟨_, _, out, [], rfl, hg, hsc.symm, hpre, r3, ha, .nil⟩
            rcases ev with m | _ | x
            · rw [show s.writer.flush = ({ s.writer with script := sc, flushed := s.writer.got.length }, .ready 0) by simp only [Writer.flush, hsc]]
              exact .inr ⟨_, _, out, [.accept m], rfl, hg, rfl, hpre, r3, ha, .cons (by simp) .nil⟩
            · rw [show s.writer.flush = ({ s.writer with script := sc }, .pending) by simp only [Writer.flush, hsc]]
              simp only []
              rcases ih { s with enc := e', buf := buf', pos := 0, cap := 0, writer := { s.writer with script := sc } } out out w0
                (by simpa using r2) hb' (Nat.le_refl _) (Nat.zero_le _) hg ha (by simp) with h | ⟨s', r', sent', used, g1, g2, g3, g4, g5⟩
              · exact .inl h
              · simp only [] at g3
                exact .inr ⟨s', r', sent', .pending :: used, g1, g2, by rw [g3]; rfl, g4,
                  g5.cons (pre := [.pending]) (fun _ h => by simp only [List.length_cons, Nat.lt_irrefl, if_false] at h ⊢; omega) (.cons (by simp) .nil)⟩
            · rw [show s.writer.flush = ({ s.writer with script := sc }, .err x) by simp only [Writer.flush, hsc]]
              exact .inr ⟨_, _, out, [.err x], rfl, hg, rfl, hpre, .inr (.inl ⟨[], rfl, .nil⟩)⟩
          · rw [if_neg hn]
            have hw := r4 hn
            rcases ih { s with enc := e', buf := buf', pos := 0, cap := n } _ out w0 r2 hb' (Nat.zero_le _) r1 hg ha (by simp)
              with h | ⟨s', r', sent', used, g1, g2, g3, g4, g5⟩
            · exact .inl h
            · exact .inr ⟨s', r', sent', used, g1, g2, g3, g4, g5.cons (fun _ h => by
                simp only [] at h ⊢
                rw [if_pos (by omega)] at h
                omega) .nil⟩
    · have hlt : s.pos < s.cap := by omega
      have hpre : ∃ e out', I e out' ∧ sent <+: out' := ⟨_, _, hI, by rw [ho]; exact List.prefix_append _ _⟩
      generalize hd : (s.buf.take s.cap).drop s.pos = data at ho
      have hdl : data.length = s.cap - s.pos := by rw [← hd]; simp; omega
      have hun : copyGo poll (fuel + 1) s =
          match s.writer.write data with
          | (w, p) => match p with
            | .pending => copyGo poll fuel { s with writer := w }
            | .err e => .ret ({ s with writer := w }, .err e)
            | .ready i =>
              if i = 0 then .ret ({ s with writer := w }, .err .writeZero)
              else copyGo poll fuel { s with writer := w, amt := s.amt + i, pos := min (s.pos + i) s.cap } := by
        conv => lhs; unfold copyGo
        rw [if_neg hpos, slice_ok (by omega), Run.ret_bind, hd]
        rfl
      rw [hun]
      have hif : (if s.pos < s.cap then 1 else 0) = 1 := if_pos hlt
      -- continuing after a write of `i` bytes
      have cont : ∀ (i : Nat) (sc : List WEv) (pre : List WEv), 0 < i → i ≤ data.length → s.writer.script = pre ++ sc →
          (pre = [] → i = data.length) → Clean pre →
          ((copyGo poll fuel { s with writer := { s.writer with script := sc, got := s.writer.got ++ data.take i }, amt := s.amt + i, pos := min (s.pos + i) s.cap } = .panic ∨
            copyGo poll fuel { s with writer := { s.writer with script := sc, got := s.writer.got ++ data.take i }, amt := s.amt + i, pos := min (s.pos + i) s.cap } = .diverge) ∧ U) ∨
          ∃ s' r sent' used, copyGo poll fuel { s with writer := { s.writer with script := sc, got := s.writer.got ++ data.take i }, amt := s.amt + i, pos := min (s.pos + i) s.cap } = .ret (s', r) ∧ s'.writer.got = w0.got ++ sent' ∧
            s.writer.script = used ++ s'.writer.script ∧
            (∃ e out', I e out' ∧ sent' <+: out') ∧
            CopyOutcome F E (fuel + 1 ≤ 2 * work s.enc out + s.writer.script.length + (if s.pos < s.cap then 1 else 0)) sent' used r := by
        intro i sc pre hi hil hsc hprei hnoerr
        have hmin : min (s.pos + i) s.cap = s.pos + i := by omega
        rcases ih { s with writer := { s.writer with script := sc, got := s.writer.got ++ data.take i }, amt := s.amt + i, pos := min (s.pos + i) s.cap }
          out (sent ++ data.take i) w0 hI hb (by simp only []; omega) hcap (by simp only [hg, List.append_assoc])
          (by simp only [ha, List.length_append, List.length_take]; omega)
          (by
            simp only [hmin]
            rw [ho, List.append_assoc]
            congr 1
            rw [← List.drop_drop, hd, List.take_append_drop]) with h | ⟨s', r', sent', used, g1, g2, g3, g4, g5⟩
        · exact .inl h
        · simp only [] at g3
          refine .inr ⟨s', r', sent', pre ++ used, g1, g2, by rw [hsc, g3, List.append_assoc], g4, ?_⟩
          refine g5.cons (fun _ h => ?_) hnoerr
          simp only [hmin] at h ⊢
          have hlen : s.writer.script.length = pre.length + sc.length := by rw [hsc]; simp
          rw [hif, hlen]
          by_cases hp0 : pre = []
          · rw [if_neg (by have := hprei hp0; omega)] at h
            omega
          · have : 0 < pre.length := by rwa [List.length_pos_iff]
            split at h <;> omega
      rcases hsc : s.writer.script with _ | ⟨ev, sc⟩
      · rw [show s.writer.write data = ({ s.writer with got := s.writer.got ++ data }, .ready data.length) by
          simp only [Writer.write, hsc]]
        simp only []
        rw [if_neg (by omega)]
        have := cont data.length [] [] (by omega) (Nat.le_refl _) (by rw [hsc]; rfl) (fun _ => rfl) .nil
        rw [List.take_length] at this
        rw [hsc] at this ⊢
        exact this
      rw [hsc] at cont
      rcases ev with m | _ | x
      · rw [show s.writer.write data = ({ s.writer with script := sc, got := s.writer.got ++ data.take m }, .ready (min m data.length)) by
          simp only [Writer.write, hsc]]
        simp only []
        by_cases hm : min m data.length = 0
        · rw [if_pos hm]
          have : m = 0 := by omega
          subst this
          exact .inr ⟨_, _, sent, [.accept 0], rfl, by simp [hg], rfl, hpre, .inr (.inr ⟨rfl, [], rfl, .nil⟩)⟩
        · rw [if_neg hm]
          have := cont (min m data.length) sc [.accept m] (by omega) (by omega) rfl (by simp) (.cons (by simp) .nil)
          have ht : data.take (min m data.length) = data.take m := by
            rw [← List.take_take, List.take_length]
          rw [ht] at this
          exact this
      · rw [show s.writer.write data = ({ s.writer with script := sc }, .pending) by simp only [Writer.write, hsc]]
        simp only []
        rcases ih { s with writer := { s.writer with script := sc } } out sent w0 hI hb hpc hcap hg ha (by rw [ho, hd])
          with h | ⟨s', r', sent', used, g1, g2, g3, g4, g5⟩
        · exact .inl h
        · simp only [] at g3
          exact .inr ⟨s', r', sent', .pending :: used, g1, g2, by rw [g3]; rfl, g4,
            g5.cons (pre := [.pending]) (fun _ h => by simp only [List.length_cons] at h ⊢; omega) (.cons (by simp) .nil)⟩
      · rw [show s.writer.write data = ({ s.writer with script := sc }, .err x) by simp only [Writer.write, hsc]]
        exact .inr ⟨_, _, sent, [.err x], rfl, hg, rfl, hpre, .inr (.inl ⟨[], rfl, .nil⟩)⟩

/-- The same from the start of `io::copy`. -/
theorem copy_spec (hE : EncSpec poll I work F E U) (fuel : Nat) (e : ε) (w : Writer) (hI : I e []) :
    ((copyGo poll fuel (CopyState.init e w) = .panic ∨ copyGo poll fuel (CopyState.init e w) = .diverge) ∧ U) ∨
    ∃ s' r sent used, copyGo poll fuel (CopyState.init e w) = .ret (s', r) ∧ s'.writer.got = w.got ++ sent ∧
      w.script = used ++ s'.writer.script ∧ (∃ e out', I e out' ∧ sent <+: out') ∧
      CopyOutcome F E (fuel ≤ 2 * work e [] + w.script.length) sent used r := by
  have := copyGo_spec hE fuel (CopyState.init e w) [] [] w hI (by simp only [CopyState.init, List.length_replicate]) (Nat.le_refl _)
    (Nat.zero_le _) (by simp [CopyState.init]) rfl (by simp [CopyState.init])
  simpa [CopyState.init] using this

end
end Tophat
