import Verif.Proofs.Shared
import Verif.Props.Pipelined
/-!
# Property C87: a body that another task reads

The endpoint gives the body of a request to another task and returns; the task reads the body while the server goes on with the connection.
-/

set_option linter.unusedSectionVars false
set_option synthInstance.maxSize 1000

namespace Tophat
open Spec

section
variable {σ : Type} [AsyncBufRead σ]

/-- **C87**, what holds: the body came in one packet (of at most 8192 bytes) with its head, and the endpoint (which may have read some of it) has given it to a task.  Then for every schedule `ts` of reads of the task and
polls of the server: the task reads exactly what is left of the body, as from memory, and the server does exactly what it does without the task; it goes on with what came in later packets.
Missing: bodies of which a part comes in later packets, and chunked ones. -/
theorem C87_same_packet_partial {env : Env} {opts : ServerOpts} {endpoint : Endpoint σ} {fuel n : Nat} {h body later : Bytes} {rest : Script} {c : Conn Script} {s : Shared Script} {ev : List Event}
    (hc : c.rd = .data (h ++ body ++ later) :: rest) (hh : FirstHead h h) (hb : ∀ i m t fs len, Judged env.uriOk h (.serve i m t fs len) → len = some body.length)
    (hs : (h ++ body ++ later).length ≤ 8192) (hr : Shared.begin env opts endpoint fuel n c = .ret (some (s, ev))) :
    ∃ left, received ((bodyReads ev).map (·.2)) ++ left = body ∧ s.fut = DecFut.start rest ∧ s.over = none ∧ s.iter = n + 1 ∧
      ∀ ts, RunRel (fun a a0 => taskReads a.2 = slices left (taskSizes ts) ∧ serverSeen a.2 = serverSeen a0.2 ∧ a.1.over = a0.1.over)
        (s.run env opts endpoint fuel ts) (s.run env opts endpoint fuel (serverOnly ts)) := by
  have hne : h ≠ [] := by
    rintro rfl
    obtain ⟨q, hq⟩ := hh.2.1
    simp at hq
  have h0 : pollRead c.rd bufRdCap = .ret (rest, .data (h ++ (body ++ later))) := by
    rw [hc]
    have := script_packet (p := h ++ body ++ later) (by simp [hne]) hs rest
    rw [List.append_assoc] at this ⊢
    exact this
  obtain ⟨head, l, left, _, ⟨i, m, t, fs, hj⟩, _, h3, h4, h5, h6, h7⟩ := begin_held hh (fun i m t fs len hj => ⟨_, hb i m t fs len hj, Nat.le_refl _⟩) h0 hr
  have hl : l = body.length := by
    have := hb _ _ _ _ _ hj
    injection this
  rw [hl, List.take_length] at h3
  refine ⟨left, h3, h5, h6, h7, fun ts => Beside.run ts ⟨rfl, rfl, rfl, rfl, ?_⟩⟩
  rw [h5]
  exact h4

/-- The server without the task is `accept`: what `accept` does on the rest of the connection, it does in some number of polls (the interim response may be told in parts). -/
theorem C87_alone {env : Env} {opts : ServerOpts} {endpoint : Endpoint σ} {fuel it : Nat} (ht : opts.timeout = false) {s : Shared Script} {rest : Script} {clock : List Bool} {c' : Conn Script} {ev : List Event} {res : AcceptRes}
    (ho : s.over = none) (hf : s.fut = DecFut.start rest) (h : acceptGo env opts endpoint fuel it s.iter ⟨rest, s.wr, clock⟩ = .ret (c', ev, res)) :
    ∃ j s' log, s.run env opts endpoint fuel (List.replicate j .server) = .ret (s', log) ∧ s'.over = (if res = .running then none else some res) ∧
      calls (serverSeen log).flatten = calls ev ∧ written (serverSeen log).flatten = written ev ∧ bodyReads (serverSeen log).flatten = bodyReads ev := by
  obtain ⟨j, s1, log, h1, h2, h3⟩ := loop_alone ht it ho hf rfl h
  refine ⟨j, s1, log, h1, h2, h3.calls, ?_, h3.reads⟩
  have h4 := (acceptGo_told it h).2
  have h5 := h3.told.2
  rw [h4] at h5
  exact (List.append_cancel_left h5).symm

end

/-! ## Refutation and examples -/

/-- What is seen from the first iteration on. -/
def handedOver (packets : Script) (ts : List Turn) : Run (Option (List Event × List TurnSeen)) := do
  let x ← Shared.begin demoEnv plainOpts (reading []) 1000 0 ⟨packets, ⟨[], [], 0⟩, []⟩
  match x with
  | none => .ret none
  | some (s, ev) => do
    let (_, log) ← s.run demoEnv plainOpts (reading []) 1000 ts
    .ret (some (ev, log))

/-- The first request, whose body the endpoint does not read but gives to a task. -/
def handedRequest : List Event := [.call ⟨ascii "POST", ascii "/p", [(ascii "host", [ascii "x"]), (ascii "content-length", [ascii "5"])]⟩ (some 5), .wrote okEmpty]

/-- **C87 is false of the code**: of the body `hello` only `he` came with the head.  The server is polled before the task reads the rest, and takes `llo` for the beginning of the next head: the endpoint is called for a
request with the method `lloGET`. -/
theorem C87_refuted : handedOver [.data (postFive ++ ascii "he"), .data (ascii "llo"), .data getA] [.server] =
    .ret (some (handedRequest, [.server [.call ⟨ascii "lloGET", ascii "/a", hostX⟩ (some 0), .wrote okEmpty]])) := by
  decide +kernel

/-- **C87 is false of the code**: here the task gets, as its body, `he` and the first three bytes of the next request. -/
theorem C87_refuted_task : handedOver [.data (postFive ++ ascii "he"), .data (ascii "llo"), .pending, .data getA] [.task 8, .server, .task 8, .task 8] =
    .ret (some (handedRequest, [.task 8 (.data (ascii "he")), .server [], .task 8 (.data (ascii "GET")), .task 8 (.data [])])) := by
  decide +kernel

/-- With another schedule, the task gets its body and the next request is served. -/
example : handedOver [.data (postFive ++ ascii "he"), .data (ascii "llo"), .data getA] [.task 8, .task 8, .server, .task 8, .server] =
    .ret (some (handedRequest, [.task 8 (.data (ascii "he")), .task 8 (.data (ascii "llo")), .server [.call ⟨ascii "GET", ascii "/a", hostX⟩ (some 0), .wrote okEmpty], .task 8 (.data []), .server []])) := by
  decide +kernel

/-- The hypotheses of `C87_same_packet_partial` are met, and this is one of the schedules. -/
example : FirstHead postFive postFive ∧ (postFive ++ ascii "hello" ++ []).length ≤ 8192 ∧
    handedOver [.data (postFive ++ ascii "hello"), .pending, .data getA] [.server, .task 2, .server, .task 8, .server, .task 8] =
    .ret (some (handedRequest, [.server [], .task 2 (.data (ascii "he")), .server [.call ⟨ascii "GET", ascii "/a", hostX⟩ (some 0), .wrote okEmpty], .task 8 (.data (ascii "llo")), .server [], .task 8 (.data [])])) := by
  refine ⟨by decide +kernel, by decide +kernel, by decide +kernel⟩

/-- The hypotheses of `C87_alone` are met. -/
example : (⟨.fixed ⟨⟨[], []⟩, 0⟩, DecFut.start [.data getA], ⟨[], [], 0⟩, 1, none⟩ : Shared Script).over = none ∧ plainOpts.timeout = false ∧
    ∃ c', acceptGo demoEnv plainOpts (reading []) 1000 9 1 (⟨[.data getA], ⟨[], [], 0⟩, []⟩ : Conn Script) = .ret (c', [.call ⟨ascii "GET", ascii "/a", hostX⟩ (some 0), .wrote okEmpty], .ok) := by
  refine ⟨rfl, rfl, ?_⟩
  have h : (acceptGo demoEnv plainOpts (reading []) 1000 9 1 (⟨[.data getA], ⟨[], [], 0⟩, []⟩ : Conn Script) >>= fun x => .ret (x.2 : List Event × AcceptRes)) = .ret ([.call ⟨ascii "GET", ascii "/a", hostX⟩ (some 0), .wrote okEmpty], .ok) := by
    decide +kernel
  obtain ⟨⟨c', x⟩, h1, h2⟩ := Run.bind_eq_ret.1 h
  simp only [Run.ret.injEq] at h2
  rw [← h2]
  exact ⟨c', h1⟩

end Tophat
