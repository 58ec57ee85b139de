import Verif.Spec.HeadMemory
import Verif.Props.RoundTrip
import Verif.Props.Accept
/-!
# Property C81: memory for the head of a request
-/

set_option linter.unusedSectionVars false
set_option synthInstance.maxSize 1000

namespace Tophat
open Spec

section
variable {ρ : Type} [AsyncRead ρ] [LawfulRead ρ]

theorem BufRd.fill_pending {r r' : BufRd ρ} (h : pollFill r = .ret (r', .pending)) : r'.buf = [] := by
  change r.fill = _ at h
  unfold BufRd.fill at h
  split at h
  · obtain ⟨⟨i, p⟩, -, h2⟩ := Run.bind_eq_ret.1 h
    cases p with
    | data bs => simp [BufRd.filled] at h2
    | err e => simp [BufRd.filled] at h2
    | pending => simp only [BufRd.filled, Run.ret.injEq, Prod.mk.injEq] at h2; rw [← h2.1]
  · simp at h

theorem headGo_pending (fuel : Nat) : ∀ {r r' : BufRd ρ} {buf buf' : Bytes} {k k' : Nat}, headGo fuel r buf k = .ret (.pending r' buf' k') → r'.buf = [] := by
  induction fuel with
  | zero => intro r r' buf buf' k k' h; simp [headGo] at h
  | succ fuel ih =>
    intro r r' buf buf' k k' h
    simp only [headGo] at h
    obtain ⟨⟨r1, p⟩, h1, h2⟩ := Run.bind_eq_ret.1 h
    cases p with
    | pending =>
      simp only [Run.ret.injEq, HeadPoll.pending.injEq] at h2
      rw [← h2.1]; exact BufRd.fill_pending h1
    | err e => simp at h2
    | data bs =>
      dsimp only at h2
      split at h2
      · split at h2
        · simp at h2
        · exact ih h2
      · split at h2
        · split at h2
          · simp at h2
          · split at h2
            · simp at h2
            · exact ih h2
        · exact ih h2

theorem pollInterim_kind {uriOk : Bytes → Bool} {pool : Pool} {r r' : BufRd ρ} {p : Parsed} {todo buf : Bytes} {k : Nat} {w w' : Writer} :
    pollInterim uriOk pool r p todo w ≠ .ret (w', .pending (.head r' buf k)) := by
  intro h
  unfold pollInterim at h
  obtain ⟨⟨w1, x⟩, -, h2⟩ := Run.bind_eq_ret.1 h
  cases x <;> simp at h2

theorem decPoll_pending {uriOk : Bytes → Bool} {pool : Pool} {fuel : Nat} {f : DecFut ρ} {r' : BufRd ρ} {buf : Bytes} {k : Nat} {w w' : Writer}
    (h : f.poll uriOk pool fuel w = .ret (w', .pending (.head r' buf k))) : r'.buf = [] := by
  cases f with
  | interim r p todo => exact absurd h pollInterim_kind
  | head r b n =>
    simp only [DecFut.poll] at h
    obtain ⟨x, h1, h2⟩ := Run.bind_eq_ret.1 h
    cases x with
    | pending r1 b1 n1 =>
      simp only [Run.ret.injEq, Prod.mk.injEq, DecPoll.pending.injEq, DecFut.head.injEq] at h2
      rw [← h2.2.1]; exact headGo_pending fuel h1
    | lost r1 e => simp at h2
    | none r1 => simp at h2
    | head r1 b1 =>
      dsimp only at h2
      split at h2
      · simp at h2
      · exact absurd h2 pollInterim_kind

/-- **C81**, as far as it holds: while the server waits for a head, what it keeps in memory of the connection are the bytes that it has received since the last request, and no more; and it does not
go on collecting behind a blank line. -/
theorem C81_kept_partial {uriOk : Bytes → Bool} {pool : Pool} {fuel n : Nat} {io : ρ} {w w' : Writer} {r : BufRd ρ} {buf : Bytes} {k : Nat}
    (h : polledDecode uriOk pool fuel n (DecFut.start io) w = .ret (w', .pending (.head r buf k))) :
    keptBytes (.head r buf k) ++ rem r.inner = rem io ∧ NoHead (keptBytes (.head r buf k)) := by
  have key : ∀ (n : Nat) (f : DecFut ρ) (w1 : Writer) (m : Nat), DecInv (rem io) (fin io) m w w1 f → (∀ r buf k, f = .head r buf k → r.buf = []) →
      polledDecode uriOk pool fuel n f w1 = .ret (w', .pending (.head r buf k)) → keptBytes (.head r buf k) ++ rem r.inner = rem io ∧ NoHead (keptBytes (.head r buf k)) := by
    intro n
    induction n with
    | zero =>
      intro f w1 m hi hb h
      simp only [polledDecode, Run.ret.injEq, Prod.mk.injEq, DecPoll.pending.injEq] at h
      obtain ⟨-, rfl⟩ := h
      have hb := hb _ _ _ rfl
      cases hi with
      | head a b c d e =>
        have e1 : rem r = r.buf ++ rem r.inner := rfl
        rw [e1, hb] at b
        simp only [keptBytes, hb, List.append_nil]
        exact ⟨b, a⟩
    | succ n ih =>
      intro f w1 m hi hb h
      simp only [polledDecode] at h
      obtain ⟨⟨w2, p⟩, h1, h2⟩ := Run.bind_eq_ret.1 h
      rcases poll_spec (uriOk := uriOk) (pool := pool) fuel hi with ⟨k1, -⟩ | ⟨w3, d, k1, k2⟩
      · rw [h1] at k1; cases k1
      · rw [h1] at k1
        injection k1 with k1; injection k1 with e1 e2
        subst e1; subst e2
        cases p with
        | ready x => simp at h2
        | pending f' =>
          obtain ⟨m', -, hi'⟩ := k2
          exact ih f' w2 m' hi' (fun r buf k e => by subst e; exact decPoll_pending h1) h2
  refine key n _ w _ (decInv_start io w) ?_ h
  intro r buf k e
  simp only [DecFut.start, DecFut.head.injEq] at e
  rw [← e.1]; rfl

end

/-! ## The request -/

theorem sum_le_of_getAll (wt : Bytes × Bytes → Nat) (hw : ∀ n v, wt (lower n, v) = wt (n, v)) : ∀ (m : HeaderMap) (fs : List (Bytes × Bytes)), (m.map (·.1)).Nodup →
    (∀ k, m.getAll k = (fs.filter fun f => lower f.1 == k).map (·.2)) → (m.iter.map wt).sum ≤ (fs.map wt).sum := by
  intro m
  induction m with
  | nil => intro fs _ _; simp [HeaderMap.iter]
  | cons e m ih =>
    obtain ⟨k, vs⟩ := e
    intro fs hn hg
    simp only [List.map_cons, List.nodup_cons] at hn
    have h1 : vs = (fs.filter fun f => lower f.1 == k).map (·.2) := by
      have := hg k
      rw [HeaderMap.getAll_cons, HeaderMap.getAll_eq_nil_of_not_mem hn.1] at this
      simpa using this
    have h2 := ih (fs.filter fun f => !(lower f.1 == k)) hn.2 (by
      intro k'
      have := hg k'
      rw [HeaderMap.getAll_cons] at this
      by_cases hk : k = k'
      · subst hk
        rw [HeaderMap.getAll_eq_nil_of_not_mem hn.1, List.filter_filter]
        symm
        rw [List.map_eq_nil_iff, List.filter_eq_nil_iff]
        intro f _
        simp
      · rw [if_neg hk, List.nil_append] at this
        rw [this, List.filter_filter]
        congr 1
        apply List.filter_congr
        intro f _
        by_cases hf : lower f.1 = k'
        · simp [hf]; exact fun h => hk h.symm
        · simp [hf])
    have h3 : (fs.map wt).sum = ((fs.filter fun f => lower f.1 == k).map wt).sum + ((fs.filter fun f => !(lower f.1 == k)).map wt).sum := by
      clear hg h1 h2
      induction fs with
      | nil => rfl
      | cons f fs ih2 =>
        by_cases hf : lower f.1 = k
        · simp [hf, ih2]; omega
        · simp [hf, ih2]; omega
    have h4 : (HeaderMap.iter ((k, vs) :: m)).map wt = (vs.map fun v => wt (k, v)) ++ ((HeaderMap.iter m).map wt) := by
      simp [HeaderMap.iter, Function.comp_def]
    have h5 : (vs.map fun v => wt (k, v)) = (fs.filter fun f => lower f.1 == k).map wt := by
      rw [h1, List.map_map]
      apply List.map_congr_left
      intro f hf
      have := (List.mem_filter.1 hf).2
      simp only [beq_iff_eq] at this
      simp only [Function.comp_apply, ← this, hw]
    rw [h4, List.sum_append, h5, h3]
    omega

theorem fieldSection_size {s : Bytes} {fs : List (Bytes × Bytes)} (h : FieldSection s fs) : (fs.map fun f => f.1.length + f.2.length).sum ≤ s.length := by
  induction h with
  | blank => simp
  | field hl _ ih =>
    obtain ⟨ws, e, rfl, -⟩ := hl
    simp at ih ⊢
    omega

theorem lower_length (bs : Bytes) : (lower bs).length = bs.length := by simp [lower]

section
variable {ρ : Type} [AsyncRead ρ] [LawfulRead ρ] {σ : Type} [AsyncBufRead σ]

/-- **C81**, as far as it holds: a request that reaches the endpoint has at most 16 fields, and its texts take no more bytes than its head had on the connection. -/
theorem C81_request_partial {env : Env} (hx : HexLenOk env.hexLen) {opts : ServerOpts} {endpoint : Endpoint σ} {fuel n : Nat} {c c' : Conn ρ}
    {ev : List Event} {res : Option AcceptRes} (hs : acceptStep env opts endpoint fuel n c = .ret (c', ev, res)) {head : ReqHead} {len : Option Nat} (hc : .call head len ∈ ev) :
    head.headers.iter.length ≤ 16 ∧ ∃ h, FirstHead (rem c.rd) h ∧ requestSize head ≤ h.length := by
  obtain ⟨h, fs, h1, ⟨hd, junk, rfl, hr, hn⟩, h3, -⟩ := C25_given hx hs hc
  constructor
  · have := sum_le_of_getAll (fun _ => 1) (fun _ _ => rfl) _ fs h3.1.nodup h3.2
    simp at this
    omega
  · refine ⟨_, h1, ?_⟩
    have := sum_le_of_getAll (fun f => f.1.length + f.2.length) (fun _ _ => by simp [lower_length]) _ fs h3.1.nodup h3.2
    obtain ⟨bl, e, sec, rfl, -, -, -, -, -, hf⟩ := hr
    have := fieldSection_size hf
    unfold requestSize
    simp only [List.length_append, List.length_cons]
    omega

end

/-! ## Refutations -/

/-- A request with a Host field of `N` bytes. -/
def longHost (N : Nat) : Bytes := renderRequest (ascii "GET") (ascii "/") [(ascii "host", List.replicate N 97)]

theorem longHost_plain (N : Nat) : ∀ f ∈ [(ascii "host", List.replicate N (97 : UInt8))], PlainField f := by
  intro f hf
  simp only [List.mem_singleton] at hf
  subst hf
  have h : ∀ b ∈ List.replicate N (97 : UInt8), b = 97 := fun b hb => List.eq_of_mem_replicate hb
  refine ⟨show ascii "host" ≠ [] by decide, show ∀ b ∈ ascii "host", tokenByte b by unfold tokenByte; decide, fun b hb => ?_, fun b hb => ?_⟩
  · rw [h b hb]; unfold valueByte; decide
  · rw [h b (List.mem_of_head? hb)]; decide

/-- **C81** is false of the code: there is no limit. Heads of any size are collected, parsed, and handed to the endpoint; here, whatever the environment, one with a field of `N` bytes. -/
theorem C81_refuted {σ : Type} [AsyncBufRead σ] [LawfulBufRead σ] {env : Env} (hx : HexLenOk env.hexLen) (hp : ∀ n, (env.pool n).Ok) (hu : env.uriOk (ascii "/") = true) {endpoint : Endpoint σ} {n : Nat}
    (N : Nat) (he : endpoint.Tame env (longHost N).length) :
    ∃ fuel c' ev head, acceptStep env plainOpts endpoint fuel n (⟨[.data (longHost N)], ⟨[], [], 0⟩, []⟩ : Conn Script) = .ret (c', ev, none) ∧ .call head (some 0) ∈ ev ∧
      head.headers.getAll (ascii "host") = [List.replicate N 97] := by
  obtain ⟨fuel, c', ev, res, hs⟩ := acceptStep_total hx hp (opts := plainOpts) (endpoint := endpoint) n (⟨[.data (longHost N)], ⟨[], [], 0⟩, []⟩ : Conn Script)
    (by have : rem ([.data (longHost N)] : Script) = longHost N := by show Script.bytes _ = _; simp [Script.bytes]
        rw [this]; exact he)
  have hfirst : FirstHead (rem ([.data (longHost N)] : Script)) (longHost N) := by
    have : rem ([.data (longHost N)] : Script) = longHost N ++ [] := by show Script.bytes _ = _; simp [Script.bytes]
    rw [this]
    exact firstHead_render (by unfold tokenByte; decide) (by unfold targetByte; decide) (longHost_plain N) []
  have hhas : HasHead (longHost N) (ascii "GET") (ascii "/") 1 [(ascii "host", List.replicate N 97)] :=
    hasHead_render (by unfold tokenByte; decide) (by unfold targetByte; decide) (longHost_plain N) (by simp)
  have hl : lower (ascii "host") = ascii "host" := by decide
  obtain ⟨h1, hmap, h2, h3⟩ := C25_served hx hfirst hhas (by decide)
    (by intro f hf; simp only [List.mem_singleton] at hf; subst hf
        exact ⟨fun h => absurd h.1 (by rw [hl]; decide), fun h => absurd h.1 (by rw [hl]; decide)⟩)
    (by simp [valuesOf, hl]) hu
    (((C25_lengths _).1 (by simp [valuesOf, hl]; decide) (by simp [valuesOf, hl]; decide) _).2 rfl)
    (by intro x hx; simp at hx) (.inl rfl) hs
  subst h1
  refine ⟨fuel, c', ev, ⟨ascii "GET", ascii "/", hmap⟩, hs, mem_calls.1 (by rw [h3]; simp), ?_⟩
  rw [h2.2]
  simp [hl]

/-- **C81** is false of the code also before a head is complete: a peer that sends no line end makes the server keep any number of bytes. -/
theorem C81_refuted_waiting (uriOk : Bytes → Bool) (pool : Pool) (w : Writer) (N : Nat) : ∃ (io : Script) (fuel : Nat) (r : BufRd Script) (buf : Bytes) (k : Nat),
    polledDecode uriOk pool fuel 1 (DecFut.start io) w = .ret (w, .pending (.head r buf k)) ∧ N ≤ (keptBytes (.head r buf k)).length := by
  have key : ∀ k (a : Bytes) (m : Nat), headGo (k + 1) (⟨List.replicate k (Ev.data [65]) ++ [.pending], []⟩ : BufRd Script) a m =
      .ret (.pending ⟨[], []⟩ (a ++ List.replicate k 65) (m + k)) := by
    intro k
    induction k with
    | zero => intro a m; simp [headGo]; rfl
    | succ k ih =>
      intro a m
      have hf : pollFill (⟨List.replicate (k + 1) (Ev.data [65]) ++ [.pending], []⟩ : BufRd Script) = .ret (⟨List.replicate k (Ev.data [65]) ++ [.pending], [65]⟩, .data [65]) := by
        rw [List.replicate_succ, List.cons_append]; rfl
      rw [headGo, hf]
      have hl : lineOf [65] = none := by decide
      simp only [Run.ret_bind, hl, if_neg (List.cons_ne_nil _ _)]
      have hc : consume (⟨List.replicate k (Ev.data [65]) ++ [.pending], [65]⟩ : BufRd Script) [(65 : UInt8)].length = ⟨List.replicate k (Ev.data [65]) ++ [.pending], []⟩ := rfl
      rw [hc, ih]
      simp [List.replicate_succ]; omega
  refine ⟨List.replicate N (Ev.data [65]) ++ [.pending], N + 1, ⟨[], []⟩, List.replicate N 65, N, ?_, by simp [keptBytes]⟩
  have e : (DecFut.start (List.replicate N (Ev.data [65]) ++ [.pending])) = (.head (⟨List.replicate N (Ev.data [65]) ++ [.pending], []⟩ : BufRd Script) [] 0) := rfl
  simp only [polledDecode, e, DecFut.poll, key, Run.ret_bind, List.nil_append, Nat.zero_add]

/-! ## Concrete cases -/

/-- A server that has got a part of a head: `C81_kept_partial` applies. -/
example : (polledDecode demoEnv.uriOk zeroPool 100 2 (DecFut.start (connOf [ascii "GET / HT", ascii "TP/1.1\r\nHo", ascii "st: x\r\n\r\nmore"]).rd) ⟨[], [], 0⟩ >>= fun x =>
    match x.2 with | .pending f => .ret (keptBytes f) | .ready _ => .panic) = .ret (ascii "GET / HTTP/1.1\r\nHo") := by decide +kernel

/-- The hypotheses of `C81_refuted` can be met. -/
example (N : Nat) : HexLenOk demoEnv.hexLen ∧ (∀ n, (demoEnv.pool n).Ok) ∧ demoEnv.uriOk (ascii "/") = true ∧ (reading []).Tame demoEnv (longHost N).length :=
  ⟨exactHexLen_ok, fun _ => zeroPool_ok, by decide, fun _ _ _ => readThenSend_tame _ _ _ _ (by unfold usizeLimit; simp)⟩

end Tophat
