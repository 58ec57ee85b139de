import Verif.Props.Echo
import Verif.Props.Accept
import Verif.Proofs.Eaten
import Verif.Props.ChunkedRequest
/-!
# Properties C30 and C31 for chunked requests
-/

set_option linter.unusedSectionVars false
set_option synthInstance.maxSize 1000

namespace Tophat
open Spec

section
variable {ρ : Type} [AsyncRead ρ] [LawfulRead ρ] {σ : Type} [AsyncBufRead σ]

/-- **C31**, for a chunked body whose framing takes at most 4096 bytes: when the endpoint has been told that the body has ended, what the server reads afterwards lies behind the body. -/
theorem C31_chunked_partial {env : Env} (hx : HexLenOk env.hexLen) (hp : ∀ n, (env.pool n).Ok) {opts : ServerOpts} {endpoint : Endpoint σ} {fuel n : Nat} {c c' : Conn ρ} {ev : List Event}
    {res : Option AcceptRes} {h : Bytes} {head : ReqHead} (hh : FirstHead (rem c.rd) h)
    (hs : acceptStep env opts endpoint fuel n c = .ret (c', ev, res)) (hc : .call head none ∈ ev)
    {b x p : Bytes} {fs : List (Bytes × Bytes)} (hb : Roomy b p fs) (hn : fs.length ≤ 16) (hs' : (rem c.rd).drop h.length = b ++ x)
    (hk : ∀ x ∈ bodyReads ev, 0 < x.1) (he : SawEof ((bodyReads ev).map (·.2))) (hne : ∀ e, .err e ∉ (bodyReads ev).map (·.2)) :
    rem c'.rd <:+ x :=
  acceptStep_eaten hx hp hh hs hc hb hn hs' hk he hne

end

section
variable {σ : Type} [AsyncBufRead σ]

/-- Awaiting the whole body reads it to its end. -/
theorem readAll_readsOut {grow : Nat → Nat → Nat} (hg : GrowOk grow) {onEnd : Bytes → Prog σ} (ho : ∀ bs, (onEnd bs).Shut) {onErr : IoErr → Prog σ} {late : Prog σ} (fuel : Nat) :
    ∀ {s : ToEnd} {m left : Nat}, s.got.length ≤ s.len → left + m < fuel → (Prog.readAll grow onEnd onErr late fuel s).ReadsOut m left := by
  induction fuel with
  | zero => intro s m left _ h; omega
  | succ fuel ih =>
    intro s m left hs hf
    have hle : (s.room grow).got.length ≤ (s.room grow).len := by
      unfold ToEnd.room
      split
      · dsimp only
        have := hg s.cap s.len
        split <;> omega
      · exact hs
    have hlt := room_lt hg s hle
    refine ⟨by omega, fun h0 => ih (Nat.le_refl _) (by omega), fun bs h1 h2 h3 => ?_, fun _ => ho _⟩
    cases bs with
    | nil => exact absurd rfl h1
    | cons b bs =>
      refine ih (s := { s.room grow with got := (s.room grow).got ++ b :: bs }) ?_ ?_
      · simp only [List.length_append]; omega
      · simp only [List.length_cons] at h2 ⊢; omega

theorem readAll_drains {grow : Nat → Nat → Nat} (hg : GrowOk grow) {onEnd : Bytes → Prog σ} (ho : ∀ bs, (onEnd bs).Shut) {onErr : IoErr → Prog σ} {late : Prog σ} (fuel : Nat) :
    ∀ {s : ToEnd} {m left : Nat}, s.got.length ≤ s.len → left + m < fuel → (Prog.readAll grow onEnd onErr late fuel s).Drains m left := by
  induction fuel with
  | zero => intro s m left _ h; omega
  | succ fuel ih =>
    intro s m left hs hf
    have hle : (s.room grow).got.length ≤ (s.room grow).len := by
      unfold ToEnd.room
      split
      · dsimp only
        have := hg s.cap s.len
        split <;> omega
      · exact hs
    have hlt := room_lt hg s hle
    refine ⟨by omega, fun h0 => ih (Nat.le_refl _) (by omega), fun bs h1 h2 h3 => ?_⟩
    cases bs with
    | nil =>
      have h0 : left = 0 := by simpa using h1
      have := ho (s.room grow).got
      revert this
      show _ → (onEnd (s.room grow).got).Drains m (left - 0)
      cases onEnd (s.room grow).got with
      | read => intro h; exact h.elim
      | send => intro _; simpa [Prog.Drains] using h0
      | sendFor => intro _; simpa [Prog.Drains] using h0
      | glitch => intro _; simpa [Prog.Drains] using h0
    | cons b bs =>
      refine ih (s := { s.room grow with got := (s.room grow).got ++ b :: bs }) ?_ ?_
      · simp only [List.length_append]; omega
      · simp only [List.length_cons] at h2 ⊢; omega

end

/-- `computing` takes every body that it can read in its `fuel` reads. -/
theorem computing_takenBy {grow : Nat → Nat → Nat} (hg : GrowOk grow) {f : Bytes → Bytes} {text : IoErr → Bytes} {late : Prog Cursor} {fuel m : Nat} {r : Sent} {head : ReqHead} {len : Option Nat}
    (hm : r.body.length + m < fuel) : r.TakenBy (computing grow f text late fuel head len) m := by
  have ho : ∀ bs, (Prog.send (σ := Cursor) ⟨200, [], .http11, ⟨f bs⟩, some (f bs).length⟩ (fun _ => .ok) fun e => .glitch (.newWithErr (text e))).Shut := fun bs => ⟨fun _ => trivial, fun _ => trivial⟩
  unfold Sent.TakenBy computing
  split
  · exact readAll_readsOut hg ho fuel (by simp [ToEnd.new]) hm
  · exact readAll_drains hg ho fuel (by simp [ToEnd.new]) hm

theorem readAll_tame {σ : Type} [AsyncBufRead σ] [LawfulBufRead σ] {grow : Nat → Nat → Nat} {now : Bytes} {onEnd : Bytes → Prog σ} {B : Nat} (h1 : ∀ bs, bs.length ≤ B → ∀ B', (onEnd bs).Tame now true B') {onErr : IoErr → Prog σ} (h2 : ∀ e B', (onErr e).Tame now false B')
    {late : Prog σ} (h3 : ∀ B', late.Tame now true B') (fuel : Nat) : ∀ (s : ToEnd) (C : Nat), s.got.length + C ≤ B → (Prog.readAll grow onEnd onErr late fuel s).Tame now true C := by
  induction fuel with
  | zero => intro s C _; exact h3 _
  | succ fuel ih =>
    intro s C hs
    have hr : (s.room grow).got = s.got := by unfold ToEnd.room; split <;> rfl
    refine ⟨rfl, fun p hp hC => ?_⟩
    cases p with
    | pending => exact ih _ _ (by simp only [RPoll.size, hr]; omega)
    | err e => exact h2 e _
    | data bs =>
      have hC : bs.length ≤ C := hC
      cases bs with
      | nil => exact h1 _ (by rw [hr]; omega) _
      | cons b bs => exact ih _ _ (by simp only [RPoll.size, hr, List.length_append]; omega)

theorem computing_tame {env : Env} {grow : Nat → Nat → Nat} {f : Bytes → Bytes} {B : Nat} (hf : ∀ bs, bs.length ≤ B → 8192 + (f bs).length < usizeLimit) {text : IoErr → Bytes} (ht : ∀ e, 8193 + (text e).length < usizeLimit)
    {late : Prog Cursor} (hl : ∀ n B, late.Tame (env.now n) true B) {fuel : Nat} : Endpoint.Tame env (computing grow f text late fuel) B := by
  intro n head len
  have hg : ∀ e, (Glitch.newWithErr (text e)).Ok := fun e => ⟨(by intro hs h; cases h), by
    show 8192 + (0 + 1 + (text e).length) < usizeLimit
    have := ht e; omega⟩
  refine readAll_tame (B := B) (fun bs hb _ => ?_) (fun e _ => ?_) (hl n) fuel _ _ (by simp [ToEnd.new])
  · exact ⟨⟨HeaderMap.wf_nil, hf bs hb, Nat.le_refl _⟩, fun _ => trivial, fun e => hg e⟩
  · exact hg e

theorem delivers_ending {uriOk : Bytes → Bool} {gs : List Script} {reqs : List Sent} (h : List.Forall₂ (Delivers uriOk) gs reqs) : Script.ending gs.flatten = none := by
  induction h with
  | nil => rfl
  | cons a _ ih => rw [List.flatten_cons, Script.ending_append _ a.1]; exact ih

/-- **C61**, for the endpoint that awaits the whole body (`into_bytes`) and answers with `f` of it, say the body itself: whatever the peer sends, in whatever fragments, with whatever delays and errors, the
server neither panics nor gets stuck, as long as `f` makes nothing too large for a `usize` out of the bytes that arrive. -/
theorem C61_computing {env : Env} (hx : HexLenOk env.hexLen) (hp : ∀ n, (env.pool n).Ok) {opts : ServerOpts} {grow : Nat → Nat → Nat} {f : Bytes → Bytes} {text : IoErr → Bytes}
    (ht : ∀ e, 8193 + (text e).length < usizeLimit) {F : Nat} (it n : Nat) (c : Conn Script) (hf : ∀ bs, bs.length ≤ Script.total c.rd → 8192 + (f bs).length < usizeLimit) :
    ∃ N c' ev res, ∀ fuel, N ≤ fuel → acceptGo env opts (computing grow f text (.glitch .new) F) fuel it n c = .ret (c', ev, res) :=
  C61_robust hx hp it n c fun _ hr => computing_tame (late := .glitch .new) (fun bs hb => hf bs (Nat.le_trans hb (Nat.le_trans (Script.bytes_total _) hr.total))) ht
    fun _ _ => ⟨(by intro hs h; cases h), by decide⟩

/-- The endpoint that answers with the body: `f` is the identity. -/
example : ∃ N c' ev res, ∀ fuel, N ≤ fuel → acceptGo demoEnv plainOpts (computing doubling id (fun _ => ascii "error") (.glitch .new) 200) fuel 9 0
    (⟨[.data (chunkedPost ++ ascii "3\r\nabc\r\n2\r"), .pending, .err (.transport 7), .data (ascii "\nde\r\n0\r\n\r\n")], ⟨[], [], 0⟩, []⟩ : Conn Script) = .ret (c', ev, res) := by
  refine C61_computing exactHexLen_ok (fun _ => zeroPool_ok) (fun _ => by decide) _ _ _ fun bs hb => ?_
  have h1 : ∀ s : Script, Script.total s ≤ 1000 → bs.length ≤ Script.total s → 8192 + bs.length < usizeLimit := fun s h1 h2 => by unfold usizeLimit; omega
  exact h1 _ (by decide +kernel) hb

/-- **C30**, for the endpoint that awaits the whole body (`into_bytes`) and answers with `f` of it: any number of requests, with or without a declared length, each one in packets of its
own, are served in order, each with exactly its body.  Missing as for `C30_keep_alive_partial`. -/
theorem C30_into_bytes_partial {env : Env} (hx : HexLenOk env.hexLen) (hp : ∀ n, (env.pool n).Ok) {opts : ServerOpts} {grow : Nat → Nat → Nat} (hg : GrowOk grow)
    {f : Bytes → Bytes} {text : IoErr → Bytes} (ht : ∀ e, 8193 + (text e).length < usizeLimit) {late : Prog Cursor} (hl : ∀ n B, late.Tame (env.now n) true B)
    {n F : Nat} {gs : List Script} {reqs : List Sent} {w : Writer} {clock : List Bool} (hgs : List.Forall₂ (Delivers env.uriOk) gs reqs)
    (hF : ∀ r ∈ reqs, r.body.length + Script.pendings gs.flatten < F) (hw : w.Reliable) (hto : NoTimeout opts (⟨gs.flatten, w, clock⟩ : Conn Script))
    (hf : ∀ bs, bs.length ≤ (Script.bytes gs.flatten).length → 8192 + (f bs).length < usizeLimit) :
    ∃ N c' evs, (∀ fuel ≥ N, acceptGo env opts (computing grow f text late F) fuel (reqs.length + 1) n ⟨gs.flatten, w, clock⟩ = .ret (c', evs.flatten, .ok)) ∧
      List.Forall₂ ServesIt reqs evs :=
  C30_keep_alive_partial hx hp hgs (fun r hr _ => computing_takenBy hg (hF r hr)) hw hto
    fun _ hr => computing_tame (fun bs hb => hf bs (Nat.le_trans hb (hr.suffix (delivers_ending hgs)).1.length_le)) ht hl

/-- **C30**, for every `f` (also one whose results are too large for a `usize`): if `accept` gets to an end, it is that one. -/
theorem C30_into_bytes_run_partial {env : Env} (hx : HexLenOk env.hexLen) (hp : ∀ n, (env.pool n).Ok) {opts : ServerOpts} {grow : Nat → Nat → Nat} (hg : GrowOk grow)
    {f : Bytes → Bytes} {text : IoErr → Bytes} {late : Prog Cursor} {n F fuel : Nat} {gs : List Script} {reqs : List Sent} {w : Writer} {clock : List Bool} (hgs : List.Forall₂ (Delivers env.uriOk) gs reqs)
    (hF : ∀ r ∈ reqs, r.body.length + Script.pendings gs.flatten < F) (hw : w.Reliable) (hto : NoTimeout opts (⟨gs.flatten, w, clock⟩ : Conn Script))
    {c' : Conn Script} {ev : List Event} {res : AcceptRes} (h : acceptGo env opts (computing grow f text late F) fuel (reqs.length + 1) n ⟨gs.flatten, w, clock⟩ = .ret (c', ev, res)) :
    res = .ok ∧ ∃ evs, ev = evs.flatten ∧ List.Forall₂ ServesIt reqs evs := by
  obtain ⟨rfl, evs, rfl, h2⟩ := acceptGo_alone (g0 := []) hx hp hgs rfl rfl rfl (Nat.le_refl _) (fun r hr _ => computing_takenBy hg (hF r hr)) hw hto h
  exact ⟨rfl, evs, rfl, h2⟩

/-- Three requests: a chunked one, one with a declared length and one without a body, in packets of their own, the chunked body being cut inside a chunk's header. -/
def mixedReqs : List Sent :=
  [⟨ascii "POST", ascii "/c", [(ascii "Host", ascii "x"), (ascii "Transfer-Encoding", ascii "chunked")], ascii "abcde", true⟩,
   ⟨ascii "POST", ascii "/p", [(ascii "Host", ascii "x"), (ascii "Content-Length", ascii "5")], ascii "hello", false⟩,
   ⟨ascii "GET", ascii "/a", [(ascii "Host", ascii "x")], [], false⟩]
def mixedScripts : List Script :=
  [[.data (chunkedPost ++ ascii "3\r\nabc\r\n2\r"), .pending, .data (ascii "\nde\r\n0\r\n\r\n")], [.data (plainPost ++ ascii "he"), .pending, .data (ascii "llo")], [.data getA]]

theorem chunkedBody : Body (ascii "3\r\nabc\r\n2\r\nde\r\n0\r\n\r\n") (ascii "abcde") [] := by
  have h1 : SizeLine (ascii "3\r\n") (ascii "abc").length := ⟨ascii "3", [], [], by decide, by decide, by decide, by simp, .inl rfl⟩
  have h2 : SizeLine (ascii "2\r\n") (ascii "de").length := ⟨ascii "2", [], [], by decide, by decide, by decide, by simp, .inl rfl⟩
  exact ⟨ascii "3\r\nabc\r\n2\r\nde\r\n", ascii "0\r\n", ascii "\r\n", by decide, .cons h1 (by decide) (.cons h2 (by decide) .nil), lastLine, .blank (.inl rfl)⟩

theorem mixed_delivers : List.Forall₂ (Delivers demoEnv.uriOk) mixedScripts mixedReqs := by
  refine .cons ⟨rfl, chunkedPost, false, ascii "3\r\nabc\r\n2\r\nde\r\n0\r\n\r\n", by decide +kernel, by decide +kernel, ?_, [], roomy_of_length chunkedBody (by decide), by decide⟩
    (.cons ⟨rfl, plainPost, false, ascii "hello", by decide +kernel, by decide +kernel, ?_, rfl⟩ (.cons ⟨rfl, getA, false, [], by decide +kernel, by decide +kernel, ?_, rfl⟩ .nil))
  · exact .serve (fs := [(ascii "Host", ascii "x"), (ascii "Transfer-Encoding", ascii "chunked")]) (hasHead_of (rest := []) (by decide +kernel)) (by decide +kernel) (by decide +kernel) (by decide +kernel) (by decide +kernel) rfl
  · exact .serve (fs := [(ascii "Host", ascii "x"), (ascii "Content-Length", ascii "5")]) (hasHead_of (rest := []) (by decide +kernel)) (by decide +kernel) (by decide +kernel) (by decide +kernel) (by decide +kernel)
      (by show ∃ n, IsLength _ n ∧ some 5 = some n; exact ⟨5, (parseUsize_some _ _).1 (by decide +kernel), rfl⟩)
  · exact .serve (fs := [(ascii "Host", ascii "x")]) (hasHead_of (rest := []) (by decide +kernel)) (by decide +kernel) (by decide +kernel) (by decide +kernel) (by decide +kernel) rfl

/-- The hypotheses are met, and this is what happens. -/
example : (∀ r ∈ mixedReqs, r.body.length + Script.pendings mixedScripts.flatten < 200) ∧
    (∀ bs : Bytes, bs.length ≤ (Script.bytes mixedScripts.flatten).length → 8192 + bs.reverse.length < usizeLimit) ∧ (∀ n B, (Prog.glitch .new : Prog Cursor).Tame (demoEnv.now n) true B) ∧
    watched plainOpts backwards 4 ⟨mixedScripts.flatten, ⟨[], [], 0⟩, []⟩ =
      .ret ([.call ⟨ascii "POST", ascii "/c", [(ascii "host", [ascii "x"]), (ascii "transfer-encoding", [ascii "chunked"])]⟩ none,
        .got 1024 (.data (ascii "abc")), .got 1021 .pending, .got 1021 (.data (ascii "de")), .got 1019 (.data []),
        .wrote (responseHead .http11 200 [] (some 5) (ascii "NOW") ++ ascii "edcba"),
        .call ⟨ascii "POST", ascii "/p", [(ascii "host", [ascii "x"]), (ascii "content-length", [ascii "5"])]⟩ (some 5),
        .got 1024 (.data (ascii "he")), .got 1022 .pending, .got 1022 (.data (ascii "llo")), .got 1019 (.data []),
        .wrote (responseHead .http11 200 [] (some 5) (ascii "NOW") ++ ascii "olleh"),
        .call ⟨ascii "GET", ascii "/a", hostX⟩ (some 0), .got 1024 (.data []), .wrote okEmpty], .ok) := by
  refine ⟨by decide +kernel, fun bs hb => ?_, fun _ _ => ⟨(by intro hs h; cases h), by decide⟩, by decide +kernel⟩
  have h1 : ∀ s : Script, (Script.bytes s).length ≤ 1000 → bs.length ≤ (Script.bytes s).length → 8192 + bs.length < usizeLimit := fun s h1 h2 => by unfold usizeLimit; omega
  rw [List.length_reverse]
  exact h1 _ (by decide +kernel) hb

/-- **C30 is false of the code** even for requests in packets of their own, if the endpoint reads a chunked body once more after its end has been reported: that read takes the next
request off the connection, which is never served. -/
theorem C30_refuted_reads_again :
    ∃ c' : Conn Script, acceptGo demoEnv plainOpts (reading [8, 8, 8, 8]) 1000 9 0 ⟨[.data (chunkedPost ++ ascii "3\r\nabc\r\n2\r\nde\r\n0\r\n\r\n"), .data getA], ⟨[], [], 0⟩, []⟩ =
      .ret (c', [.call ⟨ascii "POST", ascii "/c", [(ascii "host", [ascii "x"]), (ascii "transfer-encoding", [ascii "chunked"])]⟩ none,
        .got 8 (.data (ascii "abc")), .got 8 (.data (ascii "de")), .got 8 (.data []), .got 8 (.data []),
        .wrote (responseHead .http11 200 [] (some 5) (ascii "NOW") ++ ascii "abcde")], .ok) :=
  watched_ret (by decide +kernel)

/-- The body of the chunked request `chunkedConn` is read to its end; what is left is the `GET` behind it, or nothing. -/
example : Roomy (ascii "3\r\nabc\r\n2\r\nde\r\n0\r\n\r\n") (ascii "abcde") [] ∧
    (acceptStep demoEnv plainOpts backwards 1000 0 (connOf [chunkedPost ++ ascii "3\r\nabc\r\n2\r", ascii "\nde\r\n0\r\n\r\n", getA]) >>= fun x => .ret (Script.bytes x.1.rd)) = .ret getA :=
  ⟨roomy_of_length chunkedBody (by decide), by decide +kernel⟩

end Tophat
