import Verif.Proofs.Held
import Verif.Props.Live
/-!
# Property C85: a silent peer and the timeout

With a timeout configured, a user expects that a peer that falls silent is given up when the time is over.  The code asks the timer only while it waits for a head (or is writing an interim response).
-/

set_option linter.unusedSectionVars false
set_option synthInstance.maxSize 1000

namespace Tophat
open Spec

section
variable {σ : Type} [AsyncBufRead σ]

theorem Script.split_pending : ∀ {g : Script} {j : Nat}, j < Script.pendings g → Script.ending g = none →
    ∃ g1 g2, g = g1 ++ .pending :: g2 ∧ Script.pendings g1 = j ∧ Script.ending g1 = none ∧ Script.bytes g = Script.bytes g1 ++ Script.bytes g2
  | [], j, h, _ => by cases h
  | .err e :: g, j, h, he => by simp [Script.ending] at he
  | .data bs :: g, j, h, he => by
    obtain ⟨g1, g2, a, b, c, d⟩ := Script.split_pending (g := g) (j := j) h he
    exact ⟨.data bs :: g1, g2, by rw [a]; rfl, b, c, by simp only [Script.bytes, d, List.append_assoc]⟩
  | .pending :: g, 0, h, he => ⟨[], g, rfl, rfl, rfl, rfl⟩
  | .pending :: g, j + 1, h, he => by
    obtain ⟨g1, g2, a, b, c, d⟩ := Script.split_pending (g := g) (j := j) (Nat.lt_of_succ_lt_succ h) he
    exact ⟨.pending :: g1, g2, by rw [a]; rfl, by simp [Script.pendings, b], c, d⟩

theorem acceptStep_not_running {ρ : Type} [AsyncRead ρ] {env : Env} {opts : ServerOpts} {endpoint : Endpoint σ} {fuel n : Nat} {c c' : Conn ρ} {ev : List Event} :
    acceptStep env opts endpoint fuel n c ≠ .ret (c', ev, some .running) := by
  intro h
  unfold acceptStep at h
  obtain ⟨⟨w, ck, a⟩, h1, h2⟩ := Run.bind_eq_ret.1 h
  cases a with
  | timedOut io => simp at h2
  | ready r =>
    cases r with
    | none io => simp at h2
    | fail f io =>
      dsimp only at h2
      obtain ⟨⟨w2, ev2⟩, h3, h4⟩ := Run.bind_eq_ret.1 h2
      simp only [Run.ret.injEq, Prod.mk.injEq] at h4
      have := h4.2.2
      cases f <;> cases this
    | request req =>
      dsimp only at h2
      obtain ⟨⟨b, w2, ev2, g⟩, h3, h4⟩ := Run.bind_eq_ret.1 h2
      dsimp only at h4
      obtain ⟨⟨w3, ev3⟩, h5, h6⟩ := Run.bind_eq_ret.1 h4
      simp at h6

theorem acceptGo_then {ρ : Type} [AsyncRead ρ] {env : Env} {opts : ServerOpts} {endpoint : Endpoint σ} {fuel : Nat} (it : Nat) :
    ∀ {n : Nat} {c c1 c2 : Conn ρ} {ev ev2 : List Event} {r : AcceptRes}, acceptGo env opts endpoint fuel it n c = .ret (c1, ev, .running) →
    acceptGo env opts endpoint fuel 1 (n + it) c1 = .ret (c2, ev2, r) → acceptGo env opts endpoint fuel (it + 1) n c = .ret (c2, ev ++ ev2, r) := by
  induction it with
  | zero =>
    intro n c c1 c2 ev ev2 r h1 h2
    simp only [acceptGo, Run.ret.injEq, Prod.mk.injEq] at h1
    obtain ⟨rfl, rfl, -⟩ := h1
    exact h2
  | succ it ih =>
    intro n c c1 c2 ev ev2 r h1 h2
    rw [acceptGo] at h1 ⊢
    obtain ⟨⟨c3, e3, r3⟩, h3, h4⟩ := Run.bind_eq_ret.1 h1
    rw [h3]
    simp only [Run.ret_bind]
    cases r3 with
    | some r3 =>
      simp only [Run.ret.injEq, Prod.mk.injEq] at h4
      obtain ⟨rfl, rfl, rfl⟩ := h4
      exact absurd h3 acceptStep_not_running
    | none =>
      obtain ⟨⟨c4, e4, r4⟩, h5, h6⟩ := Run.bind_eq_ret.1 h4
      simp only [Run.ret.injEq, Prod.mk.injEq] at h6
      obtain ⟨rfl, rfl, rfl⟩ := h6
      rw [ih h5 (by rw [← h2]; congr 1; omega)]
      simp

/-- **C85**, what holds: whatever has happened on the connection before (`it` iterations of the loop), if the peer's part of the next head (`g`) comes with pauses in it, however much of the head arrives
in between, `accept` returns `Ok` at the first of them at which the timer says that the time is over: it writes nothing more and does not call the endpoint again. -/
theorem C85_idle_partial {env : Env} {verbose : Bool} {endpoint : Endpoint σ} {fuel it n : Nat} {c : Conn Script} {g rest : Script} {w : Writer} {ticks clock : List Bool} {ev : List Event}
    (h : acceptGo env ⟨true, verbose⟩ endpoint fuel it n c = .ret (⟨g ++ rest, w, ticks ++ true :: clock⟩, ev, .running))
    (hg : Script.ending g = none) (hn : NoHead (Script.bytes g)) (ht : ∀ t ∈ ticks, t = false) (hp : ticks.length < Script.pendings g) :
    ∃ N, ∀ fuel ≥ N, ∃ rest', acceptGo env ⟨true, verbose⟩ endpoint fuel (it + 1) n c = .ret (⟨rest', w, clock⟩, ev, .ok) := by
  obtain ⟨g1, g2, rfl, a2, a3, a4⟩ := Script.split_pending hp hg
  have e1 : ticks = List.replicate (Script.pendings g1) false := by
    rw [a2]; exact List.eq_replicate_of_mem ht
  obtain ⟨N, hN⟩ := C33_fires (env := env) (verbose := verbose) (endpoint := endpoint) (n := n + it) (g := g1) (rest := g2 ++ rest) (w := w) (clock := clock) a3
    (NoHead.pre (by rw [← a4]; exact hn)) 0
  refine ⟨max N fuel, fun fu hf => ⟨g2 ++ rest, ?_⟩⟩
  have h1 := acceptGo_mono (env := env) (opts := ⟨true, verbose⟩) (endpoint := endpoint) (show fuel ≤ fu by omega) it n c
  rw [h] at h1
  have h1 : acceptGo env ⟨true, verbose⟩ endpoint fu it n c = .ret (⟨(g1 ++ .pending :: g2) ++ rest, w, ticks ++ true :: clock⟩, ev, .running) := by
    rcases h1 with h1 | h1
    · cases h1
    · exact h1.symm
  have h2 := acceptGo_then it h1 (c2 := ⟨g2 ++ rest, w, clock⟩) (ev2 := []) (r := .ok) (by
    rw [← hN fu (by omega), e1]
    simp)
  rw [h2, List.append_nil]

end

section
variable {ρ : Type} [AsyncRead ρ] [LawfulRead ρ] {σ : Type} [AsyncBufRead σ]

/-- **C84** for a body of declared length: the client has sent a part of the body (`part`) and is silent now.  What the endpoint reads (before an error, with non-empty buffers) is a prefix of that part, and
all of it after a number of reads that does not depend on the length `N` of the silence; and while it lasts neither the end of the body nor an error is reported: an upload that has stopped is not taken for a
complete one.  This is so whatever the timer says (`c.clock`): it cannot end the endpoint's waiting (C85). -/
theorem C84_upload_declared {env : Env} (hpool : ∀ n, (env.pool n).Ok) {opts : ServerOpts} {endpoint : Endpoint σ} {fuel n N len : Nat} {c : Conn ρ} {c' : Conn (Stall ρ)} {ev : List Event}
    {res : Option AcceptRes} {h part : Bytes} (hh : FirstHead (rem c.rd) h) (hrest : rem c.rd = h ++ part) (hfin : fin c.rd = none) (hshort : part.length < len)
    (hfuel : (rem c.rd).length + meas c.rd + c.wr.script.length + 2 ≤ fuel) (hs : acceptStep env opts endpoint fuel n (c.silent N) = .ret (c', ev, res))
    {head : ReqHead} (hcall : .call head (some len) ∈ ev) (hk : ∀ x ∈ bodyReads ev, 0 < x.1) :
    ((bodyReads ev).length ≤ N → received ((bodyReads ev).map (·.2)) <+: part ∧ ∀ x ∈ bodyReads ev, x.2 ≠ .data [] ∧ ∀ e, x.2 ≠ .err e) ∧
      (part.length + meas c.rd + c.wr.script.length < (bodyReads ev).length → (bodyReads ev).length ≤ N → received ((bodyReads ev).map (·.2)) = part) := by
  obtain ⟨body, b2, hb, h2⟩ := acceptStep_reads_thru (thru_talk N) hh hfuel hs hcall
  rw [hrest, List.drop_left, hfin] at hb
  have hk' : ∀ k ∈ (untilErr (bodyReads ev)).map (·.1), 0 < k := by
    intro k hk1
    obtain ⟨x, hx, rfl⟩ := List.mem_map.1 hk1
    exact hk x (untilErr_mem _ x hx)
  have hle := untilErr_length (bodyReads ev)
  have key : (bodyReads ev).length ≤ N → untilErr (bodyReads ev) = bodyReads ev ∧ received ((bodyReads ev).map (·.2)) <+: part ∧ ∀ x ∈ bodyReads ev, x.2 ≠ .data [] ∧ ∀ e, x.2 ≠ .err e := by
    intro hlen
    obtain ⟨g1, g2, g3⟩ := hb.held hshort hk' (by rw [List.length_map]; omega) h2
    have hne : ¬ ∃ e j, (j, RPoll.err e) ∈ bodyReads ev := by
      intro hx
      obtain ⟨e, j, hx⟩ := untilErr_err _ hx
      exact g3 e (List.mem_map.2 ⟨_, hx, rfl⟩)
    have hu := untilErr_eq _ hne
    rw [hu] at g1 g2
    refine ⟨hu, g1, ?_⟩
    rintro ⟨j, q⟩ hx
    refine ⟨?_, ?_⟩
    · rintro rfl
      exact g2 (List.mem_map.2 ⟨_, hx, rfl⟩)
    · rintro e rfl
      exact hne ⟨e, j, hx⟩
  refine ⟨fun hlen => (key hlen).2, fun hlong hlen => ?_⟩
  obtain ⟨hu, g1, -⟩ := key hlen
  rw [hu] at h2
  obtain ⟨b1, ps, h1⟩ := hb.returns (hpool n) ((bodyReads ev).map (·.1))
  have := hb.unsilenced_fixed (thru_talk N) (by rw [hu] at hk'; exact hk') (by rw [List.take_of_length_le (by omega), List.length_map]; omega) h1 h2
  rw [List.take_of_length_le (by omega)] at this
  exact g1.eq_of_length (Nat.le_antisymm g1.length_le this.length_le)

end

/-! ## Where the timer does not help -/

/-- A request whose body is announced and does not come. -/
def slowPost : Bytes := ascii "POST / HTTP/1.1\r\nHost: x\r\nContent-Length: 3\r\n\r\n"

/-- Is this the request, with nothing of its body there? -/
def isSlowPost : Run (Writer × DecPoll Script) → Bool
  | .ret (w, .ready (.request ⟨head, .fixed t, len⟩)) =>
    w == ⟨[], [], 0⟩ && t == ⟨⟨[], []⟩, 3⟩ && len == some 3 && head == ⟨ascii "POST", ascii "/", [(ascii "host", [ascii "x"]), (ascii "content-length", [ascii "3"])]⟩
  | _ => false

theorem slowPost_ready : ∃ head, DecFut.poll demoEnv.uriOk (demoEnv.pool 0) 1000 (DecFut.start ([.data slowPost] : Script)) ⟨[], [], 0⟩ =
    .ret (⟨[], [], 0⟩, .ready (.request ⟨head, .fixed ⟨⟨[], []⟩, 3⟩, some 3⟩)) := by
  have h : isSlowPost (DecFut.poll demoEnv.uriOk (demoEnv.pool 0) 1000 (DecFut.start ([.data slowPost] : Script)) ⟨[], [], 0⟩) = true := by decide +kernel
  generalize DecFut.poll demoEnv.uriOk (demoEnv.pool 0) 1000 (DecFut.start ([.data slowPost] : Script)) ⟨[], [], 0⟩ = y at h
  unfold isSlowPost at h
  split at h
  · simp only [Bool.and_eq_true, beq_iff_eq] at h
    obtain ⟨⟨⟨rfl, rfl⟩, rfl⟩, rfl⟩ := h
    exact ⟨_, rfl⟩
  · cases h

theorem awaitDecode_ready {env : Env} {opts : ServerOpts} {fuel : Nat} {pool : Pool} {x : DecFut Script} {w w' : Writer} {r : DecRes Script}
    (h : x.poll env.uriOk pool fuel w = .ret (w', .ready r)) (n : Nat) (clock : List Bool) : awaitDecode env opts fuel pool (n + 1) x w clock = .ret (w', clock, .ready r) := by
  simp only [awaitDecode, h, Run.ret_bind]

theorem waiting_reads (N : Nat) : ∀ (M : Nat) (s : Stall Script), s = .hush (N + M) ∨ (s = .talk [] (N + M)) →
    ∃ b, runProg demoEnv 1000 0 (readThenSend (List.replicate N 1) []) (.fixed ⟨⟨s, []⟩, 3⟩) ⟨[], [], 0⟩ =
      .ret (b, ⟨[], okEmpty, okEmpty.length⟩, List.replicate N (.got 1 .pending) ++ [.wrote okEmpty], none) := by
  induction N with
  | zero =>
    intro M s hs
    have h : sendFully demoEnv 1000 0 (⟨200, [], .http11, ⟨[]⟩, some 0⟩ : InnerResponse Cursor) ⟨[], [], 0⟩ = .ret (⟨[], okEmpty, okEmpty.length⟩, .ok okEmpty.length) := by decide +kernel
    refine ⟨.fixed ⟨⟨s, []⟩, 3⟩, ?_⟩
    simp only [List.replicate_zero, readThenSend, runProg, h, Run.ret_bind, runAfter, wroteSince, List.length_nil, List.drop_zero, List.nil_append]
  | succ N ih =>
    intro M s hs
    have h : pollRead (ReqBody.fixed (⟨⟨s, []⟩, 3⟩ : Take (BufRd (Stall Script)))) 1 = .ret (.fixed ⟨⟨.hush (N + M), []⟩, 3⟩, .pending) := by
      rcases hs with rfl | rfl <;> rw [show N + 1 + M = (N + M) + 1 by omega] <;> rfl
    obtain ⟨b, hb⟩ := ih M (.hush (N + M)) (.inl rfl)
    refine ⟨b, ?_⟩
    rw [List.replicate_succ]
    simp only [readThenSend, runProg, h, Run.ret_bind, hb]
    rfl

/-- **C85 is false of the code**: the peer sends the head of a request and nothing of its body; then it is silent for `N` polls, and the timer, whenever asked, says that the time is over.  The
endpoint waits for the body until it gives up by itself: it is told `N` times to wait, however large `N` is, and the connection goes on; the timer is not even asked. -/
theorem C85_refuted (N : Nat) (clock : List Bool) : ∃ c' head, acceptStep demoEnv timedOpts (reading (List.replicate N 1)) 1000 0 ⟨Stall.talk ([.data slowPost] : Script) N, ⟨[], [], 0⟩, clock⟩ =
    .ret (c', .call head (some 3) :: (List.replicate N (.got 1 .pending) ++ [.wrote okEmpty]), none) ∧ c'.clock = clock := by
  obtain ⟨head, h0⟩ := slowPost_ready
  have h1 : awaitDecode demoEnv timedOpts 1000 (demoEnv.pool 0) 1000 (DecFut.start ([.data slowPost] : Script)) ⟨[], [], 0⟩ clock =
      .ret (⟨[], [], 0⟩, clock, .ready (.request ⟨head, .fixed ⟨⟨[], []⟩, 3⟩, some 3⟩)) := by
    exact awaitDecode_ready h0 999 clock
  have h2 := awaitDecode_thru (thru_talk N) (hd := slowPost) 1000 h1 ⟨noHead_nil, by show FirstHead ([] ++ ([] ++ Script.bytes _)) _; decide +kernel⟩
  rw [decFut_start_on] at h2
  obtain ⟨b, hb⟩ := waiting_reads N 0 (.talk [] N) (.inr rfl)
  refine ⟨⟨b.io, ⟨[], okEmpty, okEmpty.length⟩, clock⟩, head, ?_, rfl⟩
  unfold acceptStep
  simp only [h2, Run.ret_bind, Await.on, DecRes.on]
  show (runProg demoEnv 1000 0 (readThenSend (List.replicate N 1) []) (ReqBody.fixed ⟨⟨Stall.talk [] N, []⟩, 3⟩) ⟨[], [], 0⟩ >>= _) = _
  rw [hb]
  simp only [Run.ret_bind, answerGlitch, interimEvent, if_true, List.nil_append, List.append_nil]

/-- **C85 is false of the code** also for a peer that does not take the response: the transport refuses 50 times, the time is over, and the server goes on trying. -/
theorem C85_refuted_writing :
    (acceptStep demoEnv timedOpts (reading []) 1000 0 ⟨([.data getA] : Script), ⟨List.replicate 50 .pending, [], 0⟩, List.replicate 50 true⟩ >>= fun x => Run.ret (x.1.clock, x.1.wr.script, x.2)) =
      .ret (List.replicate 50 true, [], [.call ⟨ascii "GET", ascii "/a", hostX⟩ (some 0), .wrote okEmpty], none) := by decide +kernel

/-- `C85_idle_partial`: a request is served; of the next one a part comes, in two pieces, and the timer fires at the second pause. -/
example : watched timedOpts (reading []) 1 ⟨[.data getA] ++ ([.data (getB.take 5), .pending, .data ((getB.drop 5).take 5), .pending] ++ [.data (getB.drop 10)]), ⟨[], [], 0⟩, [false, true]⟩ =
      .ret ([.call ⟨ascii "GET", ascii "/a", hostX⟩ (some 0), .wrote okEmpty], .running) ∧
    watched timedOpts (reading []) 2 ⟨[.data getA] ++ ([.data (getB.take 5), .pending, .data ((getB.drop 5).take 5), .pending] ++ [.data (getB.drop 10)]), ⟨[], [], 0⟩, [false, true]⟩ =
      .ret ([.call ⟨ascii "GET", ascii "/a", hostX⟩ (some 0), .wrote okEmpty], .ok) ∧
    NoHead (Script.bytes [.data (getB.take 5), .pending, .data ((getB.drop 5).take 5), .pending]) := by decide +kernel

/-- An upload of declared length of which a part has come. -/
def halfPost : Conn Script := ⟨[.data (slowPost ++ ascii "a"), .pending, .data (ascii "b")], ⟨[], [], 0⟩, [true, true]⟩

/-- It meets the hypotheses of `C84_upload_declared`: the endpoint gets the two bytes and then waits. -/
example : FirstHead (rem halfPost.rd) slowPost ∧ rem halfPost.rd = slowPost ++ ascii "ab" ∧ fin halfPost.rd = none ∧ (ascii "ab").length < 3 ∧
    (acceptStep demoEnv timedOpts (reading [8, 8, 8, 8]) 1000 0 (halfPost.silent 100) >>= fun x => Run.ret x.2) =
      .ret ([.call ⟨ascii "POST", ascii "/", [(ascii "host", [ascii "x"]), (ascii "content-length", [ascii "3"])]⟩ (some 3),
        .got 8 (.data (ascii "a")), .got 8 .pending, .got 8 (.data (ascii "b")), .got 8 .pending,
        .wrote (responseHead .http11 200 [] (some 2) (ascii "NOW") ++ ascii "ab")], none) := by
  refine ⟨by show FirstHead (Script.bytes _) _; decide +kernel, by show Script.bytes _ = _; decide +kernel, rfl, by decide, by decide +kernel⟩

end Tophat
