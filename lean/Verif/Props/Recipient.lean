import Verif.Proofs.Recipient
import Verif.Props.Accept
/-!
# C71: the peer reads the responses that were sent, no more and no fewer
-/

set_option linter.unusedSectionVars false

namespace Tophat
open Spec

/-! ## One response -/

section
variable {σ : Type} [AsyncBufRead σ] [LawfulBufRead σ]

/-- **C71**, one response: what a completed `send` has written is read, by a recipient that goes by RFC 7230, as one response, with the status that was set, the headers that were set (and framing,
date and content type), and exactly the body.  Whatever the values of the headers and the bytes of the body are, they cannot look like the end of the response, or like another one. -/
theorem C71_readable {hexLen : Nat → Nat} (hx : HexLenOk hexLen) {resp : InnerResponse σ} {now : Bytes} (hc : ∀ b ∈ now, valueByte b) {method : Bytes} (hl : Legible method resp)
    {fuel : Nat} {w w' : Writer} {amt : Nat} (h : sendResponse hexLen now fuel resp w = .ret (w', .ok amt)) :
    ∃ msg, w'.got = w.got ++ msg ∧
      OneReply method msg resp.status (seenFields resp.headers resp.length now) (sentBody resp.length (rem resp.body)) ∧
      ∀ s rest more code fs b, OneReply method s code fs b → msg ++ rest = s ++ more →
        s = msg ∧ more = rest ∧ code = resp.status ∧ fs = seenFields resp.headers resp.length now ∧ b = sentBody resp.length (rem resp.body) := by
  obtain ⟨msg, a1, _, a2, _, a3, _⟩ := C10_bytes_written hx hl.wf hl.limit h
  unfold headOf at a2
  rw [hl.version] at a2
  have k := oneReply_sent (Nat.le_trans (by decide) hl.status.1) hl.status.2 hl.valid hc a3 hl.stream hl.bodiless a2
  refine ⟨msg, a1, k, fun s rest more code fs b h1 h2 => ?_⟩
  obtain ⟨e1, e2, e3, e4, e5⟩ := oneReply_unique k h1 h2
  exact ⟨e1.symm, e2.symm, e3.symm, e4.symm, e5.symm⟩

end

/-- A body that looks like the end of the message and another response, and a header value that looks like a header. -/
def sly : InnerResponse Cursor := ⟨200, [(ascii "x-note", [ascii " content-length: 1"])], .http11, ⟨ascii "0\r\n\r\nHTTP/1.1 200 OK\r\n\r\n"⟩, none⟩

theorem sly_legible : Legible (ascii "GET") sly := by
  refine ⟨rfl, by decide, ⟨by decide, by decide⟩, ⟨by decide, by decide⟩, (fun n h => nomatch h), (fun _ => by decide), ?_⟩
  rintro (h | h | h | h | h)
  · exact absurd h (by decide)
  · exact absurd h (by decide)
  · exact absurd h (by decide)
  · exact absurd h (by decide)
  · exact absurd h.1 (by decide)

example : Legible (ascii "GET") sly ∧ (∀ b ∈ ascii "NOW", valueByte b) ∧
    (∃ w' amt, sendResponse exactHexLen (ascii "NOW") 100 sly ⟨[.accept 3, .pending], [], 0⟩ = .ret (w', .ok amt)) ∧
    seenFields sly.headers sly.length (ascii "NOW") = [(ascii "transfer-encoding", ascii "chunked"), (ascii "date", ascii "NOW"), (ascii "x-note", ascii "content-length: 1"),
      (ascii "content-type", ascii "application/octet-stream")] := by
  refine ⟨sly_legible, ?_, ?_, by decide⟩
  · intro b hb
    have : ((ascii "NOW").all fun b => headerValueByte b) = true := by decide
    exact valueByte_of (List.all_eq_true.1 this b hb)
  · have : (match sendResponse exactHexLen (ascii "NOW") 100 sly ⟨[.accept 3, .pending], [], 0⟩ with | .ret (_, .ok _) => true | _ => false) = true := by decide +kernel
    generalize sendResponse exactHexLen (ascii "NOW") 100 sly ⟨[.accept 3, .pending], [], 0⟩ = x at this
    match x, this with
    | .ret (w', .ok amt), _ => exact ⟨w', amt, rfl⟩

/-- **C71**, the stream: a stream of responses is read in at most one way. -/
theorem C71_unambiguous {ms : List (Option Bytes)} {s : Bytes} {as as' : List Answer} (h : Replies ms s as) (h' : Replies ms s as') : as = as' :=
  replies_unique h h'

/-! ## One request -/

section
variable {ρ : Type} [AsyncRead ρ] [LawfulRead ρ] {σ : Type} [AsyncBufRead σ] [LawfulBufRead σ]

/-- **C71**, one request: the bytes written for a request handed to the endpoint are the interim response, if asked for, and then what is read as exactly the response that the endpoint sent, or that of
the `Glitch` that it returned. -/
theorem C71_answer {env : Env} (hx : HexLenOk env.hexLen) (hc : ∀ n, ∀ b ∈ env.now n, valueByte b) {opts : ServerOpts} {endpoint : Endpoint σ}
    (he : ∀ head len, (endpoint head len).Legible head.method opts.verboseGlitch)
    {fuel n : Nat} {c c' : Conn ρ} {ev : List Event} {res : Option AcceptRes} (hr : c.wr.Reliable)
    (hs : acceptStep env opts endpoint fuel n c = .ret (c', ev, res)) {head : ReqHead} {len : Option Nat} (hcall : .call head len ∈ ev) :
    ∃ h i fs msg, FirstHead (rem c.rd) h ∧ Judged env.uriOk h (.serve i head.method head.uri fs len) ∧
      written ev = written (interim i) ++ msg ∧ Answered head.method opts.verboseGlitch (env.now n) (endpoint head len) (bodyReads ev) msg := by
  obtain ⟨_, h, i, fs, hsv⟩ := call_inv (acceptStep_spec hx hs) hcall
  obtain ⟨used, body, body', w1, w2, ev1, g, ev2, h1, h2, h3, h4, h5, h6, rfl⟩ := hsv.run
  have hr1 : w1.Reliable := hr.suffix h2
  have e1 := runProg_told _ _ _ _ _ _ _ h4
  have e2 := answerGlitch_told h5
  have hwr : written (Spec.interim i ++ .call head len :: (ev1 ++ ev2)) = written (Spec.interim i) ++ (written ev1 ++ written ev2) := by
    rw [written_append]; congr 1; exact written_append _ _
  have hrd : bodyReads (Spec.interim i ++ .call head len :: (ev1 ++ ev2)) = bodyReads ev1 := by
    rw [bodyReads_append, ← interimEvents_eq, bodyReads_interimEvents, bodyReads, bodyReads_append, answerGlitch_reads h5]
    · simp
    all_goals simp
  refine ⟨h, i, fs, written ev1 ++ written ev2, hsv.firstHead, hsv.judged, hwr, ?_⟩
  rw [hrd]
  rcases runProg_legible hx (hc n) _ _ _ _ _ _ _ (he head len) hr1 h4 with ⟨rfl, msg, before, after, resp, onOk, onErr, k2, k3, k4, k5⟩ | ⟨gl, rfl, g1, rfl, g2⟩
  · simp only [answerGlitch, Run.ret.injEq, Prod.mk.injEq] at h5
    obtain ⟨_, rfl⟩ := h5
    have := e1.2
    rw [k2] at this
    have := List.append_cancel_left this
    refine .inl ⟨before, after, resp, onOk, onErr, k3, k4, ?_⟩
    rw [← this]
    simpa [written] using k5
  · obtain ⟨msg, m1, m2⟩ := answerGlitch_legible hx g1 (hc n) hr1 h5
    have f1 : written ev1 = [] := (List.self_eq_append_right.1 e1.2)
    have f2 := e2.2
    rw [m1] at f2
    have := List.append_cancel_left f2
    refine .inr ⟨gl, _, g2, glitch_headers g1.ok.1 opts.verboseGlitch, ?_⟩
    rw [f1, ← this]
    exact m2

theorem Answered.final {m : Bytes} {v : Bool} {now : Bytes} {a : Prog σ} {rs : List (Nat × RPoll)} {msg : Bytes} (ha : a.Legible m v) (h : Answered m v now a rs msg) :
    ∃ code fs b, 200 ≤ code ∧ OneReply m msg code fs b := by
  have key : ∀ (rs : List (Nat × RPoll)) (a p : Prog σ), a.Legible m v → a.afterReads rs = some p → p.Legible m v := by
    intro rs
    induction rs with
    | nil => intro a p ha hp; simp only [Prog.afterReads, Option.some.injEq] at hp; rw [← hp]; exact ha
    | cons x rs ih =>
      intro a p ha hp
      cases a with
      | read k next =>
        simp only [Prog.afterReads] at hp
        split at hp
        · exact ih _ _ (ha _) hp
        · cases hp
      | send => simp [Prog.afterReads] at hp
      | sendFor => simp [Prog.afterReads] at hp
      | glitch => simp [Prog.afterReads] at hp
  rcases h with ⟨before, after, resp, onOk, onErr, _, h2, h3⟩ | ⟨g, hs, h1, _, h3⟩
  · exact ⟨_, _, _, (key _ _ _ ha h2).1.status.1, h3⟩
  · refine ⟨_, _, _, ?_, h3⟩
    have := (key _ _ _ ha h1).status
    cases hs : g.status with
    | none => decide
    | some st => exact (this st hs).1

/-! ## A connection -/

/-- What one iteration writes. -/
theorem step_replies {env : Env} (hx : HexLenOk env.hexLen) (hc : ∀ n, ∀ b ∈ env.now n, valueByte b) {opts : ServerOpts} {endpoint : Endpoint σ}
    (he : ∀ head len, (endpoint head len).Legible head.method opts.verboseGlitch) {fuel n : Nat} {c c' : Conn ρ} {ev : List Event} {res : Option AcceptRes} (hr : c.wr.Reliable)
    (h : acceptStep env opts endpoint fuel n c = .ret (c', ev, res)) :
    ∃ ms s as rest, written ev = s ++ rest ∧ Replies ms s as ∧ rest <+: continueResponse ∧ (NoTimeout opts c → rest = []) ∧ (res = none → rest = []) ∧
      ms.filterMap id = (calls ev).map (·.1.method) := by
  have int : ∀ (i : Bool) (m : Option Bytes) (r : Bytes) (as : List Answer), Replies [m] r as → Replies [m] (written (interim i) ++ r) as := by
    intro i m r as hrep
    cases i with
    | false => exact hrep
    | true =>
      have : written (interim true) = continueResponse := by simp [interim, written]
      rw [this]
      exact .interim (by decide) (fun _ _ => oneReply_continue) hrep
  have err : ∀ st, (st = 400 ∨ st = 505 ∨ st = 501) → Replies [none] (errorResponse st (env.now n)) [⟨st, seenFields [] (some 0) (env.now n), []⟩] := by
    intro st hst
    have h1 : 200 ≤ st ∧ st < 1000 := by rcases hst with rfl | rfl | rfl <;> decide
    have := Replies.final (m := none) (ms := []) (r := []) (as := []) h1.1 (fun _ _ => oneReply_error (Nat.le_trans (by decide) h1.1) h1.2 (hc n)) .nil
    rwa [List.append_nil] at this
  have hs := acceptStep_spec hx h
  cases hs with
  | closed => exact ⟨[], [], [], [], rfl, .nil, List.nil_prefix, fun _ => rfl, fun _ => rfl, rfl⟩
  | @timedOut _ ticks x used a b d e f g k =>
    refine ⟨[], [], [], x, ?_, .nil, e, fun ht => (ht.not_fired a b).elim, (fun h => nomatch h), by rw [calls_interimEvent]; rfl⟩
    have := (interimEvent_told (w := c.wr) (w' := c'.wr) ⟨⟨used, g⟩, x, f⟩).2
    rw [f] at this
    exact (List.append_cancel_left this).symm
  | lost => exact ⟨[], [], [], [], rfl, .nil, List.nil_prefix, fun _ => rfl, fun _ => rfl, rfl⟩
  | cut _ _ _ hn => exact absurd hr hn
  | @refused hd i st _ used r w1 a b d e f =>
    obtain ⟨y, hy1, hy2, hy3⟩ := f.wrote
    have hw := (f.whole (hr.suffix e)).1
    rw [hy3] at hw
    have := List.append_cancel_left hw
    rw [this] at hy2
    refine ⟨[none], written (interim i) ++ errorResponse st (env.now n), _, [], ?_, int i none _ _ (err st (by rcases b.status with h | h <;> simp [h])), List.nil_prefix,
      fun _ => rfl, fun _ => rfl, ?_⟩
    · rw [hy2, written_append, interimEvents_eq, errorWire_eq]; simp [written]
    · rw [calls_append, calls_interimEvents, hy2]; rfl
  | @gaveUp hd _ a b f =>
    obtain ⟨y, hy1, hy2, hy3⟩ := f.wrote
    have hw := (f.whole hr).1
    rw [hy3] at hw
    have := List.append_cancel_left hw
    rw [this] at hy2
    refine ⟨[none], errorResponse 501 (env.now n), _, [], ?_, err 501 (by simp), List.nil_prefix, fun _ => rfl, fun _ => rfl, ?_⟩
    · rw [hy2, errorWire_eq]; simp [written]
    · rw [hy2]; rfl
  | @served hd i m t fs len hm =>
    rename_i h4 h5
    obtain ⟨_, i', _, msg, _, _, hw, ha⟩ := C71_answer hx hc he hr h (head := ⟨m, t, hm⟩) (len := len) (by simp)
    obtain ⟨code, fs', b, hcode, hone⟩ := ha.final (he _ _)
    refine ⟨[some m], written (interim i') ++ msg, [⟨code, fs', b⟩], [], by rw [hw]; simp, int i' _ _ _ ?_, List.nil_prefix, fun _ => rfl, fun _ => rfl, ?_⟩
    · have := Replies.final (m := some m) (ms := []) (r := []) (as := []) hcode (fun m' hm' => by
        rcases hm' with h | h
        · cases h
        · injection h with h; rw [← h]; exact hone) .nil
      rwa [List.append_nil] at this
    · rw [calls_append, calls_interimEvents, calls, calls_append, runProg_calls _ _ _ _ _ _ _ h4, answerGlitch_calls h5]; rfl

/-- **C71**, what holds: on a connection whose transport takes all that is written, with an endpoint that does not send a body where there cannot be one, the bytes written are read as exactly one final
response for each request, in order (the requests handed to the endpoint with their methods, and those that were refused with any method), with nothing left over, except for a part of an interim response
when the timeout fires while it is being written. -/
theorem C71_stream_partial {env : Env} (hx : HexLenOk env.hexLen) (hc : ∀ n, ∀ b ∈ env.now n, valueByte b) {opts : ServerOpts} {endpoint : Endpoint σ}
    (he : ∀ head len, (endpoint head len).Legible head.method opts.verboseGlitch) {fuel it n : Nat} {c c' : Conn ρ} {ev : List Event} {res : AcceptRes} (hr : c.wr.Reliable)
    (h : acceptGo env opts endpoint fuel it n c = .ret (c', ev, res)) :
    ∃ ms s as rest, written ev = s ++ rest ∧ Replies ms s as ∧ rest <+: continueResponse ∧ (NoTimeout opts c → rest = []) ∧ ms.filterMap id = (calls ev).map (·.1.method) := by
  induction it generalizing n c c' ev res with
  | zero =>
    simp only [acceptGo, Run.ret.injEq, Prod.mk.injEq] at h
    obtain ⟨rfl, rfl, rfl⟩ := h
    exact ⟨[], [], [], [], rfl, .nil, List.nil_prefix, fun _ => rfl, rfl⟩
  | succ it ih =>
    simp only [acceptGo] at h
    obtain ⟨⟨c1, ev1, r1⟩, h1, h2⟩ := Run.bind_eq_ret.1 h
    obtain ⟨ms, s, as, rest, k1, k2, k3, k4, k5, k6⟩ := step_replies hx hc he hr h1
    cases r1 with
    | some r =>
      simp only [Run.ret.injEq, Prod.mk.injEq] at h2
      obtain ⟨rfl, rfl, rfl⟩ := h2
      exact ⟨ms, s, as, rest, k1, k2, k3, k4, k6⟩
    | none =>
      dsimp only at h2
      obtain ⟨⟨c2, ev2, r2⟩, h3, h4⟩ := Run.bind_eq_ret.1 h2
      simp only [Run.ret.injEq, Prod.mk.injEq] at h4
      obtain ⟨rfl, rfl, rfl⟩ := h4
      have k5 := k5 rfl
      subst k5
      obtain ⟨ms', s', as', rest', l1, l2, l3, l4, l6⟩ := ih (hr.suffix (acceptStep_told h1).1.1.choose_spec) h3
      refine ⟨ms ++ ms', s ++ s', as ++ as', rest', ?_, replies_append k2 l2, l3, fun ht => l4 ?_, ?_⟩
      · rw [written_append, k1, l1]; simp
      · rcases ht with ht | ht
        · exact .inl ht
        · exact .inr fun t h => ht t ((acceptStep_clock h1).subset h)
      · rw [List.filterMap_append, k6, l6, calls_append, List.map_append]

end

/-- An endpoint that answers in both ways: with a response to a GET, with a `Glitch` otherwise. -/
def mixed : Endpoint Cursor := fun head _ =>
  if head.method = ascii "GET" then .read 4 fun _ => .send sly (fun _ => .ok) (fun _ => .glitch .new) else .glitch (.ofStatus 405)

theorem mixed_legible (v : Bool) : ∀ head len, (mixed head len).Legible head.method v := by
  intro head len
  unfold mixed
  split
  · rename_i h
    intro _
    rw [h]
    exact ⟨sly_legible, rfl, fun _ => trivial⟩
  · refine ⟨⟨(fun _ h => nomatch h), by decide⟩, .inl rfl, ?_, (fun _ h => nomatch h), fun _ => by cases v <;> rfl⟩
    intro st h
    injection h with h
    subst h
    decide

theorem demo_clock : ∀ n, ∀ b ∈ demoEnv.now n, valueByte b := by
  intro n b hb
  have : ((ascii "NOW").all fun b => headerValueByte b) = true := by decide
  exact valueByte_of (List.all_eq_true.1 this b hb)

/-- A request that is refused, one that is answered with a `Glitch`, and one that is answered. -/
example : HexLenOk demoEnv.hexLen ∧ (∀ n, ∀ b ∈ demoEnv.now n, valueByte b) ∧ (∀ head len, (mixed head len).Legible head.method plainOpts.verboseGlitch) ∧
    watched plainOpts mixed 9 (connOf [ascii "GET /\r\n\r\n", ascii "HEAD / HTTP/1.1\r\nhost: x\r\n\r\n", getA]) =
      .ret ([.wrote (errorResponse 400 (ascii "NOW")), .call ⟨ascii "HEAD", ascii "/", hostX⟩ (some 0), .wrote (errorResponse 405 (ascii "NOW")),
        .call ⟨ascii "GET", ascii "/a", hostX⟩ (some 0), .got 4 (.data []),
        .wrote (responseHead .http11 200 sly.headers none (ascii "NOW") ++ ascii "18\r\n0\r\n\r\nHTTP/1.1 200 OK\r\n\r\n\r\n0\r\n\r\n")], .ok) :=
  ⟨exactHexLen_ok, demo_clock, mixed_legible _, by decide +kernel⟩

/-! ## Where it does not hold -/

/-- What follows a bodiless response is not part of it. -/
theorem not_replies {m h x : Bytes} {code : Nat} {fs : List (Bytes × Bytes)} (hc : 200 ≤ code) (h1 : OneReply m h code fs []) (hx : x ≠ []) (as : List Answer) :
    ¬ Replies [some m] (h ++ x) as := by
  intro hr
  generalize e : h ++ x = s at hr
  cases hr with
  | interim a1 a2 a3 =>
    obtain ⟨-, -, rfl, -⟩ := oneReply_unique h1 (a2 m (.inr rfl)) e
    omega
  | final a1 a2 a3 =>
    cases a3
    obtain ⟨-, rfl, -⟩ := oneReply_unique h1 (a2 m (.inr rfl)) e
    exact hx rfl

/-- HEAD / -/
def headRequest : Bytes := ascii "HEAD / HTTP/1.1\r\nhost: x\r\n\r\n"

/-- **C71 is false of the code** for HEAD: the body that the endpoint set is sent, although the peer does not expect one, and would read it as (the beginning of) the next response. -/
theorem C71_refuted_head :
    ∃ c' : Conn Script, acceptGo demoEnv plainOpts sendOnly 1000 9 0 (connOf [headRequest]) =
      .ret (c', [.call ⟨ascii "HEAD", ascii "/", hostX⟩ (some 0), .wrote (responseHead .http11 200 [] (some 5) (ascii "NOW") ++ ascii "hello")], .ok) ∧
    ∀ as, ¬ Replies [some (ascii "HEAD")] (responseHead .http11 200 [] (some 5) (ascii "NOW") ++ ascii "hello") as := by
  obtain ⟨c', h⟩ := watched_ret (opts := plainOpts) (endpoint := sendOnly) (it := 9) (c := connOf [headRequest])
    (ev := [.call ⟨ascii "HEAD", ascii "/", hostX⟩ (some 0), .wrote (responseHead .http11 200 [] (some 5) (ascii "NOW") ++ ascii "hello")]) (res := .ok) (by decide +kernel)
  refine ⟨c', h, not_replies (by decide) (.bodiless (replyHead_seen (by decide) (by decide) ⟨by decide, by decide⟩ (demo_clock 0)) (.inl rfl)) (by decide)⟩

/-- An endpoint that answers with status 204 and a body. -/
def noContent : Endpoint Cursor := fun _ _ => .send ⟨204, [], .http11, ⟨ascii "HTTP/1.1 200 OK\r\n"⟩, some 17⟩ (fun _ => .ok) (fun _ => .glitch .new)

/-- **C71 is false of the code** for a response with status 204 that has a body: it is sent, and here the peer would read it as the beginning of the next response. -/
theorem C71_refuted_no_content :
    ∃ c' : Conn Script, acceptGo demoEnv plainOpts noContent 1000 9 0 (connOf [getA]) =
      .ret (c', [.call ⟨ascii "GET", ascii "/a", hostX⟩ (some 0), .wrote (responseHead .http11 204 [] (some 17) (ascii "NOW") ++ ascii "HTTP/1.1 200 OK\r\n")], .ok) ∧
    ∀ as, ¬ Replies [some (ascii "GET")] (responseHead .http11 204 [] (some 17) (ascii "NOW") ++ ascii "HTTP/1.1 200 OK\r\n") as := by
  obtain ⟨c', h⟩ := watched_ret (opts := plainOpts) (endpoint := noContent) (it := 9) (c := connOf [getA])
    (ev := [.call ⟨ascii "GET", ascii "/a", hostX⟩ (some 0), .wrote (responseHead .http11 204 [] (some 17) (ascii "NOW") ++ ascii "HTTP/1.1 200 OK\r\n")]) (res := .ok) (by decide +kernel)
  refine ⟨c', h, not_replies (by decide) (.bodiless (replyHead_seen (by decide) (by decide) ⟨by decide, by decide⟩ (demo_clock 0)) (.inr (.inr (.inl rfl)))) (by decide)⟩

end Tophat
