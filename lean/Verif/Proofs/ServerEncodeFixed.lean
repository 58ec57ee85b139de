import Verif.Proofs.ServerEncode
/-! Helper lemmas about the server's response encoder: bodies of declared length. -/

set_option linter.unusedSectionVars false

namespace Tophat
namespace Encoder

variable {ρ : Type} [AsyncBufRead ρ] [LawfulBufRead ρ]

/-- Invariant of an encoder with declared length `n`; `out` is what was emitted so far. -/
def FxInv (resp : InnerResponse ρ) (now : Bytes) (n : Nat) (e : Encoder ρ) (out : Bytes) : Prop :=
  match e.state with
  | .start => e = encode resp ∧ out = []
  | .head => e.contentLength = some n ∧ e.headBuf = specHead resp now ∧ e.headBytesRead = out.length ∧
      out <+: specHead resp now ∧ out.length < (specHead resp now).length ∧ e.bodyBytesRead = 0 ∧
      e.resp.body = resp.body
  | .fixedBody => ∃ b, out = specHead resp now ++ b ∧ e.contentLength = some n ∧ e.bodyBytesRead = b.length ∧
      b.length ≤ n ∧ rem resp.body = b ++ rem e.resp.body ∧ fin e.resp.body = fin resp.body
  | .done => out = specHead resp now ++ (rem resp.body).take n ∧ n ≤ (rem resp.body).length
  | .chunkedBody => False

/-- Outcome of one poll. -/
inductive FxStep (resp : InnerResponse ρ) (now : Bytes) (n M : Nat) (out buf : Bytes) :
    Encoder ρ → Bytes → EPoll → Prop
  | pending {e' buf'} : FxInv resp now n e' out → e'.state = .fixedBody → buf'.length = buf.length →
      meas e'.resp.body < M →
      FxStep resp now n M out buf e' buf' .pending
  | err {e' buf' x} : fin resp.body = some x → (rem resp.body).length ≤ n → buf'.length = buf.length →
      FxStep resp now n M out buf e' buf' (.err x)
  | ready {e' buf' m} : FxInv resp now n e' (out ++ buf'.take m) → buf'.length = buf.length → m ≤ buf.length →
      (0 < buf.length → m = 0 → e'.state = .done) → e'.state ≠ .start → meas e'.resp.body ≤ M →
      FxStep resp now n M out buf e' buf' (.ready m)

theorem fixedBody_step {resp : InnerResponse ρ} {now : Bytes} {n M : Nat} (fuel : Nat) :
    ∀ (e : Encoder ρ) (out buf b : Bytes), e.state = .fixedBody → e.bytesRead ≤ buf.length →
    buf.length + n < usizeLimit → e.contentLength = some n → e.bodyBytesRead = b.length → b.length ≤ n →
    out ++ buf.take e.bytesRead = specHead resp now ++ b → rem resp.body = b ++ rem e.resp.body →
    fin e.resp.body = fin resp.body → meas e.resp.body ≤ M →
    (∃ e' buf' r, encodeFixedBody fuel e buf = .ret (e', buf', r) ∧ FxStep resp now n M out buf e' buf' r) ∨
    (encodeFixedBody fuel e buf = .diverge ∧
      (fuel ≤ buf.length - e.bytesRead ∨ (rem resp.body).length < n ∧ fin resp.body = none)) := by
  induction fuel with
  | zero => intro e out buf b _ _ _ _ _ _ _ _ _ _; exact .inr ⟨rfl, .inl (Nat.zero_le _)⟩
  | succ fuel ih =>
    intro e out buf b hst hk hlim hcl hbr hbn hout hrem hfin hM
    by_cases hfull : e.bytesRead = buf.length
    · refine .inl ⟨e, buf, .ready e.bytesRead, by simp only [encodeFixedBody, hfull, if_true], ?_⟩
      refine .ready ?_ rfl hk (fun h1 h2 => by omega) (by simp [hst]) hM
      simp only [FxInv, hst]
      exact ⟨b, hout, hcl, hbr, hbn, hrem, hfin⟩
    · have hno : e.bytesRead + n < usizeLimit ∧ e.bodyBytesRead ≤ e.bytesRead + n := by omega
      generalize hup : min (e.bytesRead + n - e.bodyBytesRead) buf.length = upper
      have hku : e.bytesRead ≤ upper := by omega
      have hun : encodeFixedBody (fuel + 1) e buf = (pollRead e.resp.body (upper - e.bytesRead) >>= fun x =>
          match x with
          | (body, p) => match p with
            | .data bs => writeAt buf e.bytesRead bs >>= fun buf =>
              if n = e.bodyBytesRead + bs.length then
                .ret ({ e with resp := { e.resp with body := body }, bytesRead := e.bytesRead + bs.length, bodyBytesRead := e.bodyBytesRead + bs.length, state := .done }, buf, .ready (e.bytesRead + bs.length))
              else encodeFixedBody fuel { e with resp := { e.resp with body := body }, bytesRead := e.bytesRead + bs.length, bodyBytesRead := e.bodyBytesRead + bs.length } buf
            | .err x => .ret ({ e with resp := { e.resp with body := body } }, buf, .err x)
            | .pending => if e.bytesRead = 0 then .ret ({ e with resp := { e.resp with body := body } }, buf, .pending)
                else .ret ({ e with resp := { e.resp with body := body } }, buf, .ready e.bytesRead)) := by
        conv => lhs; unfold encodeFixedBody
        rw [if_neg hfull]
        split
        · rename_i h; rw [hcl] at h; cases h
        · rename_i m h
          rw [hcl] at h
          cases h
          rw [if_pos hno]
          simp only [hup, if_pos hku]
          rfl
      obtain ⟨body', p, hp, ok⟩ := LawfulRead.read_ok e.resp.body (upper - e.bytesRead)
      rw [hun, hp, Run.ret_bind]
      cases ok with
      | pending a1 a2 a3 =>
        refine .inl ?_
        by_cases hk0 : e.bytesRead = 0
        · simp only [if_pos hk0]
          refine ⟨_, _, _, rfl, .pending ?_ hst rfl (by simp only []; omega)⟩
          simp only [FxInv, hst]
          exact ⟨b, by simpa [hk0] using hout, hcl, hbr, hbn, by rw [hrem, a1], by rw [a2, hfin]⟩
        · simp only [if_neg hk0]
          refine ⟨_, _, _, rfl, .ready ?_ rfl hk (fun _ h => absurd h hk0) (by simp [hst]) (by simp only []; omega)⟩
          simp only [FxInv, hst]
          exact ⟨b, hout, hcl, hbr, hbn, by rw [hrem, a1], by rw [a2, hfin]⟩
      | err a1 a2 =>
        refine .inl ⟨_, _, _, rfl, .err (by rw [← hfin, a2]) ?_ rfl⟩
        rw [hrem, a1]; simpa using hbn
      | data a1 a2 a3 a4 a5 =>
        rename_i bs
        simp only []
        obtain ⟨buf', w1, w2, w3⟩ := writeAt_ok (buf := buf) (off := e.bytesRead) (bs := bs) (by omega)
        rw [w1, Run.ret_bind]
        have hout' : out ++ buf'.take (e.bytesRead + bs.length) = specHead resp now ++ (b ++ bs) := by
          rw [w3, ← List.append_assoc, hout, List.append_assoc]
        have hrem' : rem resp.body = (b ++ bs) ++ rem body' := by rw [hrem, a2, List.append_assoc]
        by_cases hdone : n = e.bodyBytesRead + bs.length
        · rw [if_pos hdone]
          refine .inl ⟨_, _, _, rfl, .ready ?_ w2 (by omega) (fun _ _ => rfl) (by simp) (by simp only []; omega)⟩
          simp only [FxInv]
          have hn : n = (b ++ bs).length := by simp; omega
          refine ⟨?_, by rw [hrem']; simp; omega⟩
          rw [hout', hrem', hn, List.take_left']
          rfl
        · rw [if_neg hdone]
          rcases ih { e with resp := { e.resp with body := body' }, bytesRead := e.bytesRead + bs.length, bodyBytesRead := e.bodyBytesRead + bs.length } out buf' (b ++ bs)
            hst (by simp; omega) (by omega) hcl (by simp [hbr]) (by simp; omega) hout' hrem' (by simp [a3, hfin]) (by simp only []; omega) with ⟨e', b', r, g1, g2⟩ | ⟨g1, g2⟩
          · refine .inl ⟨e', b', r, g1, ?_⟩
            cases g2 with
            | pending c1 c2 c3 c4 => exact .pending c1 c2 (by omega) c4
            | err c1 c2 c3 => exact .err c1 c2 (by omega)
            | ready c1 c2 c3 c4 c5 c6 => exact .ready c1 (by omega) (by omega) (by rw [← w2]; exact c4) c5 c6
          · refine .inr ⟨g1, ?_⟩
            rcases g2 with g2 | g2
            · by_cases hbs : bs = []
              · right
                subst hbs
                obtain ⟨z1, z2⟩ := a5 (by simp at hdone; omega) rfl
                refine ⟨?_, by rw [← hfin, z2]⟩
                rw [hrem, z1]; simp at hdone ⊢; omega
              · left
                have : 0 < bs.length := by rwa [List.length_pos_iff]
                simp at g2; omega
            · exact .inr g2

/-- `encode_head` for a declared length. -/
theorem head_step_fixed {hexLen : Nat → Nat} {resp : InnerResponse ρ} {now : Bytes} {n M : Nat}
    {e : Encoder ρ} {out buf : Bytes} (hlim : buf.length + n < usizeLimit)
    (hs : e.state = .head) (hb : e.bytesRead = 0) (h : FxInv resp now n e out) (hM : meas e.resp.body ≤ M) :
    (∃ e' buf' r, encodeHead hexLen (buf.length + 1) e buf = .ret (e', buf', r) ∧ FxStep resp now n M out buf e' buf' r) ∨
    (encodeHead hexLen (buf.length + 1) e buf = .diverge ∧ (rem resp.body).length < n ∧ fin resp.body = none) := by
  simp only [FxInv, hs] at h
  obtain ⟨hcl, hhb, hhr, ⟨rest, hpre⟩, hlt, hbb, hbody⟩ := h
  have hH : e.headBuf.length = (specHead resp now).length := by rw [hhb]
  obtain ⟨buf', hl, ht, heq⟩ := encodeHead_eq hexLen (buf.length + 1) e buf (by omega)
  simp only [hhb, hhr] at ht heq
  generalize hlen : min ((specHead resp now).length - out.length) buf.length = len at ht heq
  have hout : out ++ buf'.take len = (specHead resp now).take (out.length + len) := by
    rw [ht, ← hpre]; simp [List.take_append, List.take_of_length_le]
  by_cases hfull : out.length + len = (specHead resp now).length
  · simp only [hfull, if_true, hcl] at heq
    have hout' : out ++ buf'.take len = specHead resp now ++ [] := by rw [hout, hfull]; simp
    rcases fixedBody_step (resp := resp) (now := now) (n := n) (M := M) (buf.length + 1) { e with bytesRead := e.bytesRead + len, headBytesRead := (specHead resp now).length, headBuf := specHead resp now, contentLength := some n, state := .fixedBody } out buf' []
      rfl (by simp [hb]; omega) (by omega) rfl (by simpa using hbb) (Nat.zero_le _) (by simpa [hb] using hout') (by simp [hbody]) (by simp [hbody]) hM
      with ⟨e', b', r, g1, g2⟩ | ⟨g1, g2⟩
    · refine .inl ⟨e', b', r, ?_, ?_⟩
      · rw [heq, ← g1]
      · cases g2 with
        | pending c1 c2 c3 c4 => exact .pending c1 c2 (by omega) c4
        | err c1 c2 c3 => exact .err c1 c2 (by omega)
        | ready c1 c2 c3 c4 c5 c6 => exact .ready c1 (by omega) (by omega) (by rw [← hl]; exact c4) c5 c6
    · refine .inr ⟨?_, ?_⟩
      · rw [heq, ← g1]
      · rcases g2 with g2 | g2
        · omega
        · exact g2
  · simp only [hfull, if_false] at heq
    refine .inl ⟨_, _, _, heq, ?_⟩
    refine .ready ?_ hl (by omega) (fun h7 h0 => by omega) (by simp [hs]) hM
    have hol : (out ++ buf'.take len).length = out.length + len := by rw [hout]; simp; omega
    simp only [FxInv, hs, hb, Nat.zero_add]
    refine ⟨hcl, by trivial, hol.symm, ?_, ?_, hbb, hbody⟩
    · rw [hout]; exact List.take_prefix _ _
    · rw [hol]; omega

theorem poll_step_fixed {hexLen : Nat → Nat} {resp : InnerResponse ρ} {now : Bytes} {n : Nat}
    {e : Encoder ρ} {out : Bytes} (buf : Bytes) (hlim : buf.length + n < usizeLimit)
    (hl : resp.length = some n) (hw : resp.headers.WF) (h : FxInv resp now n e out) :
    (∃ e' buf' r, e.poll hexLen now buf = .ret (e', buf', r) ∧ FxStep resp now n (meas e.resp.body) out buf e' buf' r) ∨
    (e.poll hexLen now buf = .diverge ∧ (rem resp.body).length < n ∧ fin resp.body = none) := by
  cases hs : e.state with
  | start =>
    simp only [FxInv, hs] at h
    obtain ⟨rfl, rfl⟩ := h
    have : (encode resp).poll hexLen now buf = (encode resp).start hexLen now (buf.length + 1) buf := by
      simp only [poll, pollFuel, encode]
    rw [this, start_eq resp buf hw]
    refine head_step_fixed hlim rfl rfl ?_ (Nat.le_refl _)
    simp only [FxInv]
    exact ⟨hl, by trivial, by trivial, List.nil_prefix, specHead_pos resp now, by trivial, by trivial⟩
  | head =>
    have : e.poll hexLen now buf = encodeHead hexLen (buf.length + 1) { e with bytesRead := 0 } buf := by
      simp only [poll, pollFuel, hs]
    rw [this]
    refine head_step_fixed hlim hs rfl ?_ (Nat.le_refl _)
    simp only [FxInv, hs] at h ⊢
    exact h
  | chunkedBody => simp [FxInv, hs] at h
  | fixedBody =>
    have hp : e.poll hexLen now buf = encodeFixedBody (buf.length + 1) { e with bytesRead := 0 } buf := by
      simp only [poll, pollFuel, hs]
    rw [hp]
    simp only [FxInv, hs] at h
    obtain ⟨b, h1, h2, h3, h4, h5, h6⟩ := h
    rcases fixedBody_step (resp := resp) (now := now) (n := n) (buf.length + 1) { e with bytesRead := 0 } out buf b
      hs (Nat.zero_le _) hlim h2 h3 h4 (by simpa using h1) h5 h6 (Nat.le_refl _) with h | ⟨g1, g2⟩
    · exact .inl h
    · refine .inr ⟨g1, ?_⟩
      rcases g2 with g2 | g2
      · simp at g2; omega
      · exact g2
  | done =>
    refine .inl ⟨{ e with bytesRead := 0 }, buf, .ready 0, by simp only [poll, pollFuel, hs], ?_⟩
    refine .ready ?_ rfl (Nat.zero_le _) (fun _ _ => hs) (by simp [hs]) (Nat.le_refl _)
    simp only [FxInv, hs, List.take_zero, List.append_nil] at h ⊢
    exact h

/-- What a consumer of a fixed-length response may have received. -/
def FxOut (resp : InnerResponse ρ) (now : Bytes) (n : Nat) (out : Bytes) : Prop :=
  out <+: specHead resp now ++ (rem resp.body).take n

theorem FxInv.out {resp : InnerResponse ρ} {now : Bytes} {n : Nat} {e : Encoder ρ} {out : Bytes}
    (h : FxInv resp now n e out) : FxOut resp now n out := by
  cases hs : e.state <;> simp only [FxInv, hs] at h
  · rw [h.2]; exact List.nil_prefix
  · exact h.2.2.2.1.trans (List.prefix_append _ _)
  · obtain ⟨b, rfl, _, _, h1, h2, _⟩ := h
    rw [FxOut, h2, List.take_append, List.take_of_length_le h1]
    rw [← List.append_assoc]
    exact List.prefix_append _ _
  · rw [h.1]; exact List.prefix_refl _

theorem poll_done {hexLen : Nat → Nat} {now : Bytes} {e : Encoder ρ} {buf : Bytes} (hs : e.state = .done) :
    e.poll hexLen now buf = .ret ({ e with bytesRead := 0 }, buf, .ready 0) := by
  simp only [poll, pollFuel, hs]

theorem drive_fx {hexLen : Nat → Nat} {resp : InnerResponse ρ} {now : Bytes} {n : Nat}
    (hl : resp.length = some n) (hw : resp.headers.WF) (bufs : List Bytes)
    (hlim : ∀ b ∈ bufs, b.length + n < usizeLimit) :
    ∀ (e : Encoder ρ) (out : Bytes), FxInv resp now n e out →
      (∃ e' o st, drive hexLen now e bufs = .ret (e', o, st) ∧ FxOut resp now n (out ++ o) ∧
        (∀ x, st = .failed x → fin resp.body = some x ∧ (rem resp.body).length ≤ n) ∧
        ((∀ b ∈ bufs, b ≠ []) →
          (st = .eof ∨ e.state = .done ∧ ∀ x, st ≠ .failed x) → out ++ o = specHead resp now ++ (rem resp.body).take n ∧
            n ≤ (rem resp.body).length)) ∨
      (drive hexLen now e bufs = .diverge ∧ (rem resp.body).length < n ∧ fin resp.body = none) := by
  induction bufs with
  | nil =>
    intro e out h
    refine .inl ⟨e, [], .running, rfl, by simpa using h.out, by simp, ?_⟩
    rintro _ (hst | ⟨hst, _⟩)
    · simp at hst
    · simp only [FxInv, hst] at h
      simpa using h
  | cons buf bufs ih =>
    intro e out h
    have ih := ih (fun b hb => hlim b (List.mem_cons_of_mem _ hb))
    rcases poll_step_fixed buf (hlim buf List.mem_cons_self) hl hw h with ⟨e1, buf1, r, hp, hs⟩ | ⟨hp, hpc⟩
    · cases hs with
      | pending h1 hst1 hb hm =>
        rcases ih e1 out h1 with ⟨e', o, st, g1, g2, g3, g4⟩ | ⟨g1, g2⟩
        · refine .inl ⟨e', o, st, by rw [drive_cons, hp]; exact g1, g2, g3, ?_⟩
          intro hall hst
          refine g4 (fun b hb => hall b (List.mem_cons_of_mem _ hb)) ?_
          rcases hst with hst | ⟨hst, hnf⟩
          · exact .inl hst
          · rw [poll_done hst] at hp; simp at hp
        · exact .inr ⟨by rw [drive_cons, hp]; exact g1, g2⟩
      | err h1 h2 hb =>
        refine .inl ⟨e1, [], _, by rw [drive_cons, hp]; rfl, by simpa using h.out, ?_, ?_⟩
        · intro x hx; cases hx; exact ⟨h1, h2⟩
        · rintro _ (hst | ⟨_, hst⟩)
          · simp at hst
          · exact absurd rfl (hst _)
      | ready h1 hb hn hd hst1 hm =>
        rename_i m
        rcases ih e1 _ h1 with ⟨e', o, st, g1, g2, g3, g4⟩ | ⟨g1, g2⟩
        · refine .inl ⟨e', buf1.take m ++ o, if m = 0 then st.sawEof else st, ?_, ?_, ?_, ?_⟩
          · rw [drive_cons, hp, Run.ret_bind]; simp only [g1, Run.ret_bind]
          · rw [← List.append_assoc]; exact g2
          · intro x hx
            by_cases hn0 : m = 0
            · rw [if_pos hn0, sawEof_failed] at hx; exact g3 x hx
            · rw [if_neg hn0] at hx; exact g3 x hx
          · intro hall hst
            have hpos : 0 < buf.length := by
              have := hall buf List.mem_cons_self
              rwa [List.length_pos_iff]
            rw [← List.append_assoc]
            refine g4 (fun b hb => hall b (List.mem_cons_of_mem _ hb)) ?_
            by_cases hn0 : m = 0
            · refine .inr ⟨hd hpos hn0, ?_⟩
              rw [if_pos hn0] at hst
              intro x hx
              subst hx
              rcases hst with hst | ⟨_, hst⟩
              · simp [Status.sawEof] at hst
              · exact hst x rfl
            · rw [if_neg hn0] at hst
              rcases hst with hst | ⟨hst, hnf⟩
              · exact .inl hst
              · rw [poll_done hst] at hp; simp at hp; omega
        · refine .inr ⟨?_, g2⟩
          rw [drive_cons, hp, Run.ret_bind]; simp only [g1, Run.diverge_bind]
    · exact .inr ⟨by rw [drive_cons, hp]; rfl, hpc⟩

theorem fxInv_start (resp : InnerResponse ρ) (now : Bytes) (n : Nat) : FxInv resp now n (encode resp) [] := by
  simp [FxInv, encode]

end Encoder
end Tophat
