import Verif.Model.Relay
import Verif.Proofs.Isolation
import Verif.Proofs.Total
import Verif.Props.Copy
/-! Sending a streamed response depends only on what the body's reader answers, and a decoder that is read with buffers of 8192 bytes answers like a script. -/

set_option linter.unusedSectionVars false

namespace Tophat
open Spec

/-! ## Records -/

section
variable {σ : Type} [AsyncRead σ]

/-- The script `s` is the record of the answers of `d` to reads with buffers of `bufRdCap` bytes, up to the first end of stream or error. -/
inductive Tells : σ → Script → Prop
  | eof {d d' : σ} : pollRead d bufRdCap = .ret (d', .data []) → Tells d []
  | err {d d' : σ} {e : IoErr} : pollRead d bufRdCap = .ret (d', .err e) → Tells d [.err e]
  | pending {d d' : σ} {s : Script} : pollRead d bufRdCap = .ret (d', .pending) → Tells d' s → Tells d (.pending :: s)
  | data {d d' : σ} {bs : Bytes} {s : Script} : pollRead d bufRdCap = .ret (d', .data bs) → bs ≠ [] → bs.length ≤ bufRdCap → Tells d' s → Tells d (.data bs :: s)

/-- The reader and its record behave alike. -/
theorem Tells.step {d : σ} {s : Script} (h : Tells d s) : ∃ d' s' p, pollRead d bufRdCap = .ret (d', p) ∧ pollRead s bufRdCap = .ret (s', p) ∧
    (p = .pending ∨ (∃ bs, p = .data bs ∧ bs ≠ []) → Tells d' s') := by
  cases h with
  | eof h => exact ⟨_, [], _, h, rfl, by rintro (h | ⟨bs, h, h2⟩) <;> cases h; exact absurd rfl h2⟩
  | err h => exact ⟨_, [], _, h, rfl, by rintro (h | ⟨bs, h, h2⟩) <;> cases h⟩
  | pending h h' => exact ⟨_, _, _, h, rfl, fun _ => h'⟩
  | data h h1 h2 h' =>
    refine ⟨_, _, _, h, ?_, fun _ => h'⟩
    show Run.ret (Script.read _ _) = _
    simp only [Script.read]
    rw [if_neg h1, if_pos h2]

/-- The record, as a list of answers. -/
theorem Tells.polls {d : σ} {s : Script} (h : Tells d s) : ∃ n d' ps, polls d (List.replicate n bufRdCap) = .ret (d', ps) ∧ received ps = Script.bytes s ∧
    (match Script.ending s with
      | none => SawEof ps ∧ ∀ e, .err e ∉ ps
      | some e => .err e ∈ ps ∧ ¬ SawEof ps) := by
  induction h with
  | @eof d d' h => exact ⟨1, d', [.data []], by simp [Tophat.polls, h], by simp [received, Script.bytes], by simp [Script.ending, SawEof]⟩
  | @err d d' e h => exact ⟨1, d', [.err e], by simp [Tophat.polls, h], by simp [received, Script.bytes], by simp [Script.ending, SawEof]⟩
  | @pending d d' s h _ ih =>
    obtain ⟨n, d2, ps, h1, h2, h3⟩ := ih
    refine ⟨n + 1, d2, .pending :: ps, by simp [List.replicate_succ, Tophat.polls, h, h1], by simp [received, Script.bytes, h2], ?_⟩
    simp only [Script.ending]
    split at h3 <;> simp_all [SawEof]
  | @data d d' bs s h hne _ _ ih =>
    obtain ⟨n, d2, ps, h1, h2, h3⟩ := ih
    refine ⟨n + 1, d2, .data bs :: ps, by simp [List.replicate_succ, Tophat.polls, h, h1], by simp [received, Script.bytes, h2], ?_⟩
    simp only [Script.ending]
    split at h3 <;> simp_all [SawEof]

/-- Two buffered readers with the same buffered bytes; the second one reads from the record of the first one. -/
def Twins (b : BufRd σ) (t : BufRd Script) : Prop := b.buf = t.buf ∧ Tells b.inner t.inner

theorem Twins.fill {b : BufRd σ} {t : BufRd Script} (h : Twins b t) : ∃ b' t' p, pollFill b = .ret (b', p) ∧ pollFill t = .ret (t', p) ∧
    (p = .pending ∨ (∃ bs, p = .data bs ∧ bs ≠ []) → Twins b' t') := by
  obtain ⟨h1, h2⟩ := h
  show ∃ b' t' p, b.fill = .ret (b', p) ∧ t.fill = .ret (t', p) ∧ _
  unfold BufRd.fill
  rw [← h1]
  by_cases hb : b.buf = []
  · rw [if_pos hb, if_pos hb]
    obtain ⟨d', s', p, k1, k2, k3⟩ := h2.step
    rw [k1, k2]
    cases p with
    | pending => exact ⟨_, _, _, rfl, rfl, fun _ => ⟨rfl, k3 (.inl rfl)⟩⟩
    | err e => exact ⟨_, _, _, rfl, rfl, by rintro (h | ⟨bs, h, h2⟩) <;> cases h⟩
    | data bs => exact ⟨_, _, _, rfl, rfl, by rintro (h | ⟨bs, h, h2⟩) <;> cases h; exact ⟨rfl, k3 (.inr ⟨_, rfl, h2⟩)⟩⟩
  · rw [if_neg hb, if_neg hb]
    exact ⟨_, _, _, rfl, rfl, fun _ => ⟨h1, h2⟩⟩

theorem Twins.consume {b : BufRd σ} {t : BufRd Script} (h : Twins b t) (n : Nat) : Twins (consume b n) (consume t n) :=
  ⟨by show b.buf.drop n = t.buf.drop n; rw [h.1], h.2⟩

/-! ## The chunked encoder -/

/-- The encoder still asks for the body. -/
def CEState.asks : CEState → Prop
  | .start => True
  | .encodeChunks => True
  | _ => False

/-- Related results of the chunked encoder. -/
def ChunkedAlike (x : ChunkedEncoder × BufRd σ × Bytes × EPoll) (y : ChunkedEncoder × BufRd Script × Bytes × EPoll) : Prop :=
  x.1 = y.1 ∧ x.2.2 = y.2.2 ∧ ((∀ e, x.2.2.2 ≠ .err e) → x.1.state.asks → Twins x.2.1 y.2.1)

theorem eos_asks {e e' : ChunkedEncoder} {buf buf' : Bytes} {r : EPoll} (he : ¬ e.state.asks) (h : e.encodeChunksEos buf = .ret (e', buf', r)) : ¬ e'.state.asks := by
  have set : ∀ {e e' : ChunkedEncoder} {s : CEState}, e.setState s = .ret e' → e'.state = s := by
    intro e e' s h
    unfold ChunkedEncoder.setState at h
    split at h
    · injection h with h; rw [← h]
    · cases h
  have eos : ∀ {e e' : ChunkedEncoder} {buf buf' : Bytes} {r : EPoll}, e.encodeEos buf = .ret (e', buf', r) → ¬ e'.state.asks := by
    intro e e' buf buf' r h
    unfold ChunkedEncoder.encodeEos at h
    obtain ⟨_, _, h⟩ := Run.bind_eq_ret.1 h
    obtain ⟨e2, h2, h⟩ := Run.bind_eq_ret.1 h
    simp only [Run.ret.injEq, Prod.mk.injEq] at h
    rw [← h.1, set h2]; exact id
  unfold ChunkedEncoder.encodeChunksEos at h
  split at h
  · simp only [Run.ret.injEq, Prod.mk.injEq] at h
    rw [← h.1]; exact he
  · obtain ⟨_, _, h⟩ := Run.bind_eq_ret.1 h
    obtain ⟨e2, h2, h⟩ := Run.bind_eq_ret.1 h
    unfold ChunkedEncoder.receiveTrailers at h
    obtain ⟨e3, h3, h⟩ := Run.bind_eq_ret.1 h
    unfold ChunkedEncoder.encodeTrailers at h
    obtain ⟨e4, h4, h⟩ := Run.bind_eq_ret.1 h
    exact eos h

theorem encodeChunks_alike {hexLen : Nat → Nat} {e : ChunkedEncoder} {b : BufRd σ} {t : BufRd Script} (h : Twins b t) (buf : Bytes) :
    RunRel ChunkedAlike (e.encodeChunks hexLen b buf) (e.encodeChunks hexLen t buf) := by
  obtain ⟨b', t', p, h1, h2, h3⟩ := h.fill
  unfold ChunkedEncoder.encodeChunks
  rw [h1, h2]
  simp only [Run.ret_bind]
  cases p with
  | err x => exact ⟨rfl, rfl, fun h => absurd rfl (h x)⟩
  | pending =>
    dsimp only
    split
    · exact ⟨rfl, rfl, fun _ _ => h3 (.inl rfl)⟩
    · exact ⟨rfl, rfl, fun _ _ => h3 (.inl rfl)⟩
  | data src =>
    dsimp only
    split
    · cases hs : e.setState .endOfChunks with
      | panic => trivial
      | diverge => trivial
      | ret e1 =>
        have he1 : ¬ e1.state.asks := by
          unfold ChunkedEncoder.setState at hs
          split at hs
          · injection hs with hs; rw [← hs]; exact id
          · cases hs
        simp only [Run.ret_bind]
        cases hr : e1.encodeChunksEos buf with
        | panic => trivial
        | diverge => trivial
        | ret x => exact ⟨rfl, rfl, fun _ ha => absurd ha (eos_asks he1 (e' := x.1) (buf' := x.2.1) (r := x.2.2) (by rw [hr]))⟩
    · rename_i hsrc
      have ht : Twins b' t' := h3 (.inr ⟨src, rfl, by rintro rfl; exact hsrc rfl⟩)
      split
      · exact ⟨rfl, rfl, fun _ _ => ht⟩
      · refine RunRel.bind_same fun _ => RunRel.bind_same fun _ => RunRel.bind_same fun _ => RunRel.bind_same fun _ => ?_
        exact ⟨rfl, rfl, fun _ _ => ht.consume _⟩

theorem encode_alike {hexLen : Nat → Nat} {e : ChunkedEncoder} {b : BufRd σ} {t : BufRd Script} (h : e.state.asks → Twins b t) (buf : Bytes) :
    RunRel ChunkedAlike (e.encode hexLen b buf) (e.encode hexLen t buf) := by
  have eos : ∀ {e e' : ChunkedEncoder} {buf buf' : Bytes} {r : EPoll}, e.encodeEos buf = .ret (e', buf', r) → ¬ e'.state.asks := by
    intro e e' buf buf' r h
    unfold ChunkedEncoder.encodeEos at h
    obtain ⟨_, _, h⟩ := Run.bind_eq_ret.1 h
    obtain ⟨e2, h2, h⟩ := Run.bind_eq_ret.1 h
    simp only [Run.ret.injEq, Prod.mk.injEq] at h
    unfold ChunkedEncoder.setState at h2
    split at h2
    · injection h2 with h2; rw [← h.1, ← h2]; exact id
    · cases h2
  have tr : ∀ {e e' : ChunkedEncoder} {buf buf' : Bytes} {r : EPoll}, e.encodeTrailers buf = .ret (e', buf', r) → ¬ e'.state.asks := by
    intro e e' buf buf' r h
    unfold ChunkedEncoder.encodeTrailers at h
    obtain ⟨e4, h4, h⟩ := Run.bind_eq_ret.1 h
    exact eos h
  have same : ∀ {x : Run (ChunkedEncoder × Bytes × EPoll)}, (∀ e' buf' r, x = .ret (e', buf', r) → ¬ e'.state.asks) →
      RunRel ChunkedAlike (x >>= fun (e, buf, r) => (.ret (e, b, buf, r) : Run (ChunkedEncoder × BufRd σ × Bytes × EPoll)))
        (x >>= fun (e, buf, r) => (.ret (e, t, buf, r) : Run (ChunkedEncoder × BufRd Script × Bytes × EPoll))) := by
    intro x hx
    cases x with
    | panic => trivial
    | diverge => trivial
    | ret x => exact ⟨rfl, rfl, fun _ ha => absurd ha (hx _ _ _ rfl)⟩
  obtain ⟨bw, st⟩ := e
  unfold ChunkedEncoder.encode
  dsimp only
  cases st with
  | start =>
    have ht := h trivial
    simp only
    unfold ChunkedEncoder.init
    exact RunRel.bind_same fun e => encodeChunks_alike ht buf
  | encodeChunks => exact encodeChunks_alike (h trivial) buf
  | endOfChunks => exact same fun _ _ _ h => eos_asks (by exact id) h
  | receiveTrailers => exact same fun _ _ _ h => tr h
  | encodeTrailers => exact same fun _ _ _ h => tr h
  | endOfStream => exact same fun _ _ _ h => eos h
  | ended => exact ⟨rfl, rfl, fun _ ha => by exact ha.elim⟩

/-! ## The encoder of a response without declared length -/

/-- Two encoders that differ in the body only, the second one being given the record of the first one's. -/
structure EncAlike (e : Encoder (BufRd σ)) (f : Encoder (BufRd Script)) : Prop where
  status : e.resp.status = f.resp.status
  headers : e.resp.headers = f.resp.headers
  version : e.resp.version = f.resp.version
  state : e.state = f.state
  bytesRead : e.bytesRead = f.bytesRead
  headBuf : e.headBuf = f.headBuf
  headBytesRead : e.headBytesRead = f.headBytesRead
  length : e.contentLength = none
  length' : f.contentLength = none
  notFixed : e.state ≠ .fixedBody
  bodyBytesRead : e.bodyBytesRead = f.bodyBytesRead
  chunked : e.chunked = f.chunked
  body : e.chunked.state.asks → Twins e.resp.body f.resp.body

/-- Related results of the encoder. -/
def PollAlike (x : Encoder (BufRd σ) × Bytes × EPoll) (y : Encoder (BufRd Script) × Bytes × EPoll) : Prop :=
  x.2 = y.2 ∧ ((∀ e, x.2.2 ≠ .err e) → EncAlike x.1 y.1)

theorem encodeChunkedBody_alike {hexLen : Nat → Nat} {e : Encoder (BufRd σ)} {f : Encoder (BufRd Script)} (h : EncAlike e f) (buf : Bytes) :
    RunRel PollAlike (e.encodeChunkedBody hexLen buf) (f.encodeChunkedBody hexLen buf) := by
  unfold Encoder.encodeChunkedBody
  rw [← h.bytesRead]
  split
  · rw [← h.chunked]
    refine RunRel.bind (encode_alike h.body _) ?_
    rintro ⟨c1, b1, buf1, r1⟩ ⟨c2, t1, buf2, r2⟩ ⟨h1, h2, h3⟩
    dsimp only at h1 h2 h3
    cases h1; cases h2
    cases r1 with
    | err x => exact ⟨rfl, fun h => absurd rfl (h x)⟩
    | pending =>
      have ht := h3 (by simp)
      simp only [gt_iff_lt]
      split
      · exact ⟨rfl, fun _ => ⟨h.status, h.headers, h.version, h.state, rfl, h.headBuf, h.headBytesRead, h.length, h.length', h.notFixed, h.bodyBytesRead, rfl, ht⟩⟩
      · exact ⟨rfl, fun _ => ⟨h.status, h.headers, h.version, h.state, rfl, h.headBuf, h.headBytesRead, h.length, h.length', h.notFixed, h.bodyBytesRead, rfl, ht⟩⟩
    | ready n =>
      have ht := h3 (by simp)
      simp only [← h.bytesRead]
      by_cases hz : e.bytesRead + n = 0
      · simp only [hz, if_true]
        exact ⟨rfl, fun _ => ⟨h.status, h.headers, h.version, rfl, rfl, h.headBuf, h.headBytesRead, h.length, h.length', by simp, h.bodyBytesRead, rfl, ht⟩⟩
      · simp only [hz, if_false]
        exact ⟨rfl, fun _ => ⟨h.status, h.headers, h.version, h.state, rfl, h.headBuf, h.headBytesRead, h.length, h.length', h.notFixed, h.bodyBytesRead, rfl, ht⟩⟩
  · trivial

theorem encodeHead_alike {hexLen : Nat → Nat} {fuel : Nat} {e : Encoder (BufRd σ)} {f : Encoder (BufRd Script)} (h : EncAlike e f) (buf : Bytes) :
    RunRel PollAlike (e.encodeHead hexLen fuel buf) (f.encodeHead hexLen fuel buf) := by
  unfold Encoder.encodeHead
  rw [← h.headBytesRead, ← h.headBuf]
  split
  · refine RunRel.bind_same fun part => RunRel.bind_same fun buf => ?_
    dsimp only
    split
    · rw [h.length, h.length']
      refine encodeChunkedBody_alike ?_ _
      exact ⟨h.status, h.headers, h.version, rfl, (by show e.bytesRead + _ = f.bytesRead + _; rw [h.bytesRead]), rfl, rfl, rfl, rfl, by simp, h.bodyBytesRead, h.chunked, h.body⟩
    · refine ⟨by rw [h.bytesRead], fun _ => ⟨h.status, h.headers, h.version, h.state, (by show e.bytesRead + _ = f.bytesRead + _; rw [h.bytesRead]), rfl, rfl, h.length, h.length', h.notFixed, h.bodyBytesRead, h.chunked, h.body⟩⟩
  · trivial

theorem poll_alike {hexLen : Nat → Nat} {now : Bytes} {e : Encoder (BufRd σ)} {f : Encoder (BufRd Script)} (h : EncAlike e f) (buf : Bytes) :
    RunRel PollAlike (e.poll hexLen now buf) (f.poll hexLen now buf) := by
  unfold Encoder.poll Encoder.pollFuel
  dsimp only
  rw [← h.state]
  have h0 : ∀ st, st ≠ .fixedBody → EncAlike { e with bytesRead := 0, state := st } { f with bytesRead := 0, state := st } := fun st hst =>
    ⟨h.status, h.headers, h.version, rfl, rfl, h.headBuf, h.headBytesRead, h.length, h.length', hst, h.bodyBytesRead, h.chunked, h.body⟩
  cases hs : e.state with
  | start =>
    dsimp only
    unfold Encoder.start
    dsimp only
    refine encodeHead_alike ?_ buf
    refine ⟨h.status, ?_, h.version, rfl, rfl, ?_, h.headBytesRead, h.length, h.length', by simp, h.bodyBytesRead, h.chunked, h.body⟩
    · show Encoder.storedHeaders e.resp.headers e.contentLength = Encoder.storedHeaders f.resp.headers f.contentLength
      rw [h.headers, h.length, h.length']
    · show e.headBuf ++ _ = f.headBuf ++ _
      rw [h.headers, h.length, h.length', h.headBuf, h.version, h.status]
  | head => exact encodeHead_alike (h0 _ (by simp)) buf
  | fixedBody => exact absurd hs h.notFixed
  | chunkedBody => exact encodeChunkedBody_alike (h0 _ (by simp)) buf
  | done => exact ⟨rfl, fun _ => h0 _ (by simp)⟩

end

/-! ## `io::copy` -/

/-- Two encoders that answer alike are copied alike. -/
theorem copyGo_alike {ε ζ : Type} {poll : ε → Bytes → Run (ε × Bytes × EPoll)} {poll' : ζ → Bytes → Run (ζ × Bytes × EPoll)} {R : ε → ζ → Prop}
    (hp : ∀ e f buf, R e f → RunRel (fun x y => x.2 = y.2 ∧ ((∀ e, x.2.2 ≠ .err e) → R x.1 y.1)) (poll e buf) (poll' f buf)) (fuel : Nat) :
    ∀ (e : ε) (f : ζ) (buf : Bytes) (pos cap amt : Nat) (w : Writer), R e f →
      RunRel (fun x y => x.1.writer = y.1.writer ∧ x.2 = y.2) (copyGo poll fuel ⟨e, buf, pos, cap, w, amt⟩) (copyGo poll' fuel ⟨f, buf, pos, cap, w, amt⟩) := by
  induction fuel with
  | zero => intro e f buf pos cap amt w _; exact ⟨rfl, rfl⟩
  | succ fuel ih =>
    intro e f buf pos cap amt w h
    simp only [copyGo]
    split
    · refine RunRel.bind (hp e f buf h) ?_
      rintro ⟨e1, buf1, r1⟩ ⟨f1, buf2, r2⟩ ⟨h1, h2⟩
      dsimp only at h1 h2
      cases h1
      cases r1 with
      | err x => exact ⟨rfl, rfl⟩
      | pending => exact ih _ _ _ _ _ _ _ (h2 (by simp))
      | ready n =>
        dsimp only
        split
        · cases hf : w.flush with
          | mk w' p =>
            dsimp only
            cases p with
            | err x => exact ⟨rfl, rfl⟩
            | pending => exact ih _ _ _ _ _ _ _ (h2 (by simp))
            | ready n => exact ⟨rfl, rfl⟩
        · exact ih _ _ _ _ _ _ _ (h2 (by simp))
    · refine RunRel.bind_same fun data => ?_
      cases hf : w.write data with
      | mk w' p =>
        dsimp only
        cases p with
        | err x => exact ⟨rfl, rfl⟩
        | pending => exact ih _ _ _ _ _ _ _ h
        | ready n =>
          dsimp only
          split
          · exact ⟨rfl, rfl⟩
          · exact ih _ _ _ _ _ _ _ h

section
variable {σ : Type} [AsyncRead σ]

/-- Sending a response without declared length depends only on what the body's reader answers. -/
theorem sendResponse_record {hexLen : Nat → Nat} {now : Bytes} {fuel : Nat} {status : StatusCode} {hs : HeaderMap} {v : Version} {b : BufRd σ} {t : BufRd Script} (h : Twins b t) (w : Writer) :
    sendResponse hexLen now fuel ⟨status, hs, v, b, none⟩ w = sendResponse hexLen now fuel ⟨status, hs, v, t, none⟩ w := by
  apply RunRel.eq
  unfold sendResponse
  refine RunRel.bind (copyGo_alike (R := EncAlike) (fun e f buf h => poll_alike h buf) fuel _ _ _ _ _ _ _ ?_) ?_
  · exact ⟨rfl, rfl, rfl, rfl, rfl, rfl, rfl, rfl, rfl, by simp [Encoder.encode], rfl, rfl, fun _ => h⟩
  · rintro ⟨x, r⟩ ⟨y, r'⟩ ⟨h1, h2⟩
    dsimp only at h1 h2
    exact Prod.ext h1 h2

end

/-- `sendBody` and `sendResponse`. -/
theorem sendBody_send {σ : Type} [AsyncBufRead σ] (env : Env) (fuel n : Nat) (resp : InnerResponse σ) (w : Writer) :
    (∃ b w' r, sendBody env fuel n resp w = .ret (b, w', r) ∧ r ≠ .running ∧ sendResponse env.hexLen (env.now n) fuel resp w = .ret (w', r)) ∨
    (sendBody env fuel n resp w = .panic ∧ sendResponse env.hexLen (env.now n) fuel resp w = .panic) ∨
    (sendBody env fuel n resp w = .diverge ∧ (sendResponse env.hexLen (env.now n) fuel resp w = .diverge ∨ ∃ w', sendResponse env.hexLen (env.now n) fuel resp w = .ret (w', .running))) := by
  unfold sendBody sendResponse
  cases copyGo (Encoder.poll env.hexLen (env.now n)) fuel (CopyState.init (Encoder.encode resp) w) with
  | panic => exact .inr (.inl ⟨rfl, rfl⟩)
  | diverge => exact .inr (.inr ⟨rfl, .inl rfl⟩)
  | ret x =>
    obtain ⟨s, r⟩ := x
    simp only [Run.ret_bind]
    by_cases hr : r = .running
    · subst hr
      exact .inr (.inr ⟨by simp, .inr ⟨_, rfl⟩⟩)
    · exact .inl ⟨s.enc.resp.body, s.writer, r, by simp [hr], hr, rfl⟩

/-! ## The chunked decoder has a record -/

section
variable {ρ : Type} [AsyncRead ρ] [LawfulRead ρ]

theorem decoder_tells (m : Nat) : ∀ (d : ChunkedDecoder ρ), Dec.DecInv d → (Dec.abs d).win.length + (rem d.inner).length + meas d.inner ≤ m → ∃ s, Tells d s := by
  induction m with
  | zero =>
    intro d hd hm
    obtain ⟨d', p, h1, h2⟩ := Dec.poll_spec d bufRdCap (by decide) hd
    cases h2 with
    | pending _ _ h => omega
    | err => exact ⟨_, .err h1⟩
    | @data bs a _ _ b _ =>
      have := a.spends
      have hR : (Dec.abs d).R = rem d.inner := rfl
      rw [hR] at this
      have : bs = [] := List.eq_nil_of_length_eq_zero (by omega)
      subst this
      exact ⟨_, .eof h1⟩
  | succ m ih =>
    intro d hd hm
    obtain ⟨d', p, h1, h2⟩ := Dec.poll_spec d bufRdCap (by decide) hd
    have hR : (Dec.abs d).R = rem d.inner := rfl
    have hR' : (Dec.abs d').R = rem d'.inner := rfl
    cases h2 with
    | pending a b c =>
      have := a.spends
      rw [hR, hR'] at this
      obtain ⟨s, hs⟩ := ih d' b (by simp only [List.length_nil] at this; omega)
      exact ⟨_, .pending h1 hs⟩
    | err => exact ⟨_, .err h1⟩
    | @data bs a b c d e =>
      have := a.spends
      rw [hR, hR'] at this
      by_cases hb : bs = []
      · subst hb; exact ⟨_, .eof h1⟩
      · have := List.length_pos_iff.2 hb
        obtain ⟨s, hs⟩ := ih d' b (by omega)
        exact ⟨_, .data h1 hb d hs⟩

end

end Tophat
