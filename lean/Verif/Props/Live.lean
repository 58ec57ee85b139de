import Verif.Proofs.Later
import Verif.Props.NoWait
import Verif.Props.RoundTrip
import Verif.Props.Sse
/-!
# Property C84: events reach a listening client as they come

`Stall.talk io N` is the connection `io` whose peer, having sent everything that it sends on `io`, is silent for `N` polls (`Spec/Stall.lean`).
-/

set_option linter.unusedSectionVars false
set_option synthInstance.maxSize 1000

namespace Tophat
open Spec

section
variable {ρ : Type} [AsyncRead ρ] [LawfulRead ρ] {σ : Type} [AsyncBufRead σ] [LawfulBufRead σ]

theorem reply_later {now : Bytes} {pool : Pool} {io : ρ} {fuel : Nat} {res : ClientResponse ρ} (hd : ClientDecode.decode now pool fuel io = .ret (.done (.ok res)))
    {h : Bytes} {code : Nat} {fs : List (Bytes × Bytes)} (hh : FirstReply (rem io) h) (hr : HasReply h 1 code fs) (hc : SaysChunked fs) (N : Nat) (x : Script) :
    ReplyS (StallS x) N (res.on fun r => Stall.talk r N).body (res.on fun r => Later.talk r (afterSilence N x)).body := by
  obtain ⟨d, g1, g2⟩ := clientDecode_spec now pool fuel io
  rw [hd] at g1
  injection g1 with g1; subst g1
  cases g2 with
  | response a b' c d f =>
    have := a.unique hh
    subst this
    cases f with
    | chunked f1 =>
      generalize hl : none = len at f1
      cases f1 with
      | fixed => cases hl
      | chunked => exact .mk (body_later _ N x)
    | fixed =>
      cases c with
      | fixed c1 c2 c3 =>
        obtain ⟨-, -, rfl⟩ := hr.unique c1
        refine absurd ⟨?_, ?_⟩ c2
        · intro h; rw [h] at c3; cases c3
        · intro h; unfold SaysChunked at hc; rw [h] at hc; cases hc
    | bare =>
      cases c with
      | bare c1 c2 =>
        obtain ⟨-, -, rfl⟩ := hr.unique c1
        exact absurd hc c2

/-- **C84**, for the client: the server has sent the head of a chunked response and some chunks, whose framing takes at most 4096 bytes, and is silent now.  Then `connect` returns, and reading the body
yields all data of these chunks and nothing else, however long the silence lasts (`N`); and while it lasts neither the end of the body nor an error is reported, if there is room for the framing of
another chunk and the end. -/
theorem C84_client_partial {now : Bytes} {pool : Pool} (hpool : pool.Ok) {io : ρ} {fuel : Nat} {res : ClientResponse ρ} (hd : ClientDecode.decode now pool fuel io = .ret (.done (.ok res)))
    {h wire p : Bytes} {code : Nat} {fs : List (Bytes × Bytes)} (hh : FirstReply (rem io) h) (hr : HasReply h 1 code fs) (hc : SaysChunked fs)
    (hrest : rem io = h ++ wire) (hfin : fin io = none) (hw : Within 0 4096 wire p) (N : Nat) :
    ∃ r2, ClientDecode.decode now pool fuel (Stall.talk io N) = .ret (.done (.ok r2)) ∧
      ∀ ks, (∀ k ∈ ks, 0 < k) → ∃ b ps, polls r2.body ks = .ret (b, ps) ∧ received ps <+: p ∧ (p.length + meas io < ks.length → received ps = p) ∧
        (Within 11 4096 wire p → ks.length ≤ N → ¬ SawEof ps ∧ ∀ e, .err e ∉ ps) := by
  have hd2 := clientDecode_thru (thru_talk N) hh hd
  refine ⟨res.on fun r => Stall.talk r N, hd2, fun ks hk => ?_⟩
  obtain ⟨b2, ps2, h2⟩ := reply_reads hpool hd2 ks
  have hpre : received ps2 <+: p := by
    obtain ⟨x, y1, y2⟩ := C63_chunked_prefix hpool hd2 (io := Stall.talk io N) hh hrest hr hc h2
    exact y2.trans (hw.frames.carries y1)
  refine ⟨b2, ps2, h2, hpre, fun hl => ?_, fun hw' hl => ?_⟩
  rotate_left
  · have hno : ¬ (SawEof ps2 ∨ ∃ e, .err e ∈ ps2) := by
      intro hx
      have key : ∀ E q, Roomy (wire ++ E) q [] → received ps2 = q := by
        intro E q hq
        have hd3 := clientDecode_thru (thru_later (afterSilence N [.data E])) hh hd
        have hrem : rem (Later.talk io (afterSilence N [.data E])) = h ++ (wire ++ E) := by
          show Later.remL _ = _
          simp only [Later.remL, hfin, if_true, hrest, afterSilence_bytes, Script.bytes, List.append_nil, List.append_assoc]
        obtain ⟨b3, h3⟩ := (stall_lock (ρ := ρ) [.data E]).reply.polls ks (reply_later hd hh hr hc N [.data E]) hl h2
        exact (C63_chunked_partial hpool (io := Later.talk io (afterSilence N [.data E])) hd3 (by rw [hrem, ← List.append_assoc, ← hrest]; exact ⟨hh.1.trans (List.prefix_append _ _), hh.2⟩) hr hc hq (by simp) (x := [])
          (by rw [hrem, List.append_nil]) hk h3).2.1 hx
      have e0 := key _ _ (roomy0 hw')
      have e1 := key _ _ (roomy1 hw')
      rw [e0] at e1
      simp at e1
    exact ⟨fun hx => hno (.inl hx), fun e he => hno (.inr ⟨e, he⟩)⟩
  obtain ⟨b1, ps1, h1⟩ := reply_reads hpool hd ks
  obtain ⟨d, g1, g2⟩ := clientDecode_spec now pool fuel io
  rw [hd] at g1
  injection g1 with g1; subst g1
  cases g2 with
  | response a b' c d f =>
    have := a.unique hh
    subst this
    rename_i t
    have ht : t = wire := by rw [d] at hrest; exact List.append_cancel_left hrest
    subst ht
    cases f with
    | chunked f1 =>
      obtain ⟨x, rfl, h1'⟩ := polls_stream h1
      obtain ⟨y, rfl, h2'⟩ := polls_stream h2
      rw [hfin] at f1
      have := f1.unsilenced (thru_talk N) hpool hw hk hl h1' h2'
      exact hpre.eq_of_length (Nat.le_antisymm hpre.length_le this.length_le)
    | fixed =>
      cases c with
      | fixed c1 c2 c3 =>
        obtain ⟨-, -, rfl⟩ := hr.unique c1
        refine absurd ⟨?_, ?_⟩ c2
        · intro h; rw [h] at c3; cases c3
        · intro h; unfold SaysChunked at hc; rw [h] at hc; cases hc
    | bare =>
      cases c with
      | bare c1 c2 =>
        obtain ⟨-, -, rfl⟩ := hr.unique c1
        exact absurd hc c2

theorem untilErr_length : ∀ l : List (Nat × RPoll), (untilErr l).length ≤ l.length
  | [] => Nat.le_refl _
  | (k, .err e) :: l => by simp [untilErr]
  | (k, .pending) :: l => by simpa [untilErr] using untilErr_length l
  | (k, .data bs) :: l => by simpa [untilErr] using untilErr_length l

/-- **C84**, the other way round: the client uploads a chunked body, has sent some chunks, whose framing takes at most 4096 bytes, and is silent now.  What the endpoint reads (before an error, with
non-empty buffers) is a prefix of their data, and all of it after a number of reads that does not depend on the length `N` of the silence; and while it lasts neither the end of the body nor an error
is reported, if there is room for the framing of another chunk and the end. -/
theorem C84_upload_partial {env : Env} (hpool : ∀ n, (env.pool n).Ok) {opts : ServerOpts} {endpoint : Endpoint σ} {fuel n N : Nat} {c : Conn ρ} {c' : Conn (Stall ρ)} {ev : List Event}
    {res : Option AcceptRes} {h wire p : Bytes} (hh : FirstHead (rem c.rd) h) (hrest : rem c.rd = h ++ wire) (hfin : fin c.rd = none) (hw : Within 0 4096 wire p)
    (hfuel : (rem c.rd).length + meas c.rd + c.wr.script.length + 2 ≤ fuel) (hs : acceptStep env opts endpoint fuel n (c.silent N) = .ret (c', ev, res))
    {head : ReqHead} (hcall : .call head none ∈ ev) (hk : ∀ x ∈ bodyReads ev, 0 < x.1) :
    received ((untilErr (bodyReads ev)).map (·.2)) <+: p ∧
      (p.length + meas c.rd + c.wr.script.length < (untilErr (bodyReads ev)).length → received ((untilErr (bodyReads ev)).map (·.2)) = p) ∧
      (Within 11 4096 wire p → (bodyReads ev).length ≤ N → ∀ x ∈ bodyReads ev, x.2 ≠ .data [] ∧ ∀ e, x.2 ≠ .err e) := by
  obtain ⟨body, b2, hb, h2⟩ := acceptStep_reads_thru (thru_talk N) hh hfuel hs hcall
  rw [hrest, List.drop_left, hfin] at hb
  have hk' : ∀ k ∈ (untilErr (bodyReads ev)).map (·.1), 0 < k := by
    intro k hk1
    obtain ⟨x, hx, rfl⟩ := List.mem_map.1 hk1
    exact hk x (untilErr_mem _ x hx)
  have hpre : received ((untilErr (bodyReads ev)).map (·.2)) <+: p := by
    cases hb with
    | @chunked r a1 a2 a3 =>
      have hb2 : BodyAt (env.pool n) wire none (meas (r.on fun r => Stall.talk r N)) none ((ReqBody.chunked (BufRd.new (ChunkedDecoder.new r (env.pool n)))).on fun r => Stall.talk r N) :=
        .chunked (r := r.on fun r => Stall.talk r N) a1 a2 (Nat.le_refl _)
      obtain ⟨r', t', e1, e2, e3, e4⟩ := hb2.chunked_polls h2
      exact (chunked_cut (hpool n) hk' e4 hw e1 e2).1
  refine ⟨hpre, fun hlen => ?_, fun hw' hlen => ?_⟩
  · obtain ⟨b1, ps, h1⟩ := hb.returns (hpool n) ((untilErr (bodyReads ev)).map (·.1))
    have := hb.unsilenced (thru_talk N) (hpool n) hw hk' (by rw [List.length_map]; omega) h1 h2
    exact hpre.eq_of_length (Nat.le_antisymm hpre.length_le this.length_le)
  · have hle := untilErr_length (bodyReads ev)
    have hno : ¬ (SawEof ((untilErr (bodyReads ev)).map (·.2)) ∨ ∃ e, .err e ∈ (untilErr (bodyReads ev)).map (·.2)) := by
      intro hx
      have key : ∀ E q, Roomy (wire ++ E) q [] → received ((untilErr (bodyReads ev)).map (·.2)) = q := by
        intro E q hq
        cases hb with
        | @chunked r a1 a2 a3 =>
          obtain ⟨b3, h3⟩ := (stall_lock (ρ := ρ) [.data E]).body.polls _ (body_later _ N [.data E]) (by rw [List.length_map]; omega) h2
          have hrem : rem (r.on fun r => Later.talk r (afterSilence N [.data E])) = wire ++ E := by
            show r.buf ++ Later.remL (Later.talk r.inner (afterSilence N [.data E])) = _
            have a1' : r.buf ++ rem r.inner = wire := a1
            have a2' : fin r.inner = none := a2
            simp only [Later.remL, a2', if_true, afterSilence_bytes, Script.bytes, List.append_nil]
            rw [← List.append_assoc, a1']
          have hb2 : BodyAt (env.pool n) (wire ++ E) (fin (r.on fun r => Later.talk r (afterSilence N [.data E]))) (meas (r.on fun r => Later.talk r (afterSilence N [.data E]))) none
              ((ReqBody.chunked (BufRd.new (ChunkedDecoder.new r (env.pool n)))).on fun r => Later.talk r (afterSilence N [.data E])) :=
            .chunked (r := r.on fun r => Later.talk r (afterSilence N [.data E])) hrem rfl (Nat.le_refl _)
          obtain ⟨r', t', e1, e2, e3, e4⟩ := hb2.chunked_polls h3
          exact (chunked_roomy (hpool n) hk' e4 hq (by simp) (x := []) (by rw [e1, List.append_nil])).2.1 hx
      have e0 := key _ _ (roomy0 hw')
      have e1 := key _ _ (roomy1 hw')
      rw [e0] at e1
      simp at e1
    have hne : ¬ ∃ e j, (j, RPoll.err e) ∈ bodyReads ev := by
      intro hx
      obtain ⟨e, j, hx⟩ := untilErr_err _ hx
      exact hno (.inr ⟨e, List.mem_map.2 ⟨_, hx, rfl⟩⟩)
    rw [untilErr_eq _ hne] at hno
    rintro ⟨j, q⟩ hx
    refine ⟨?_, ?_⟩
    · rintro rfl
      exact hno (.inl (List.mem_map.2 ⟨_, hx, rfl⟩))
    · rintro e rfl
      exact hne ⟨e, j, hx⟩

/-- **C84.**  The server streams events to the client: the stream has yielded the items `evs`, and now nothing comes for `M` polls.  Then the server has sent all of them, and the client, whose
connection carries what the server has sent and then is silent for `N` polls, gets `connect` to return, and reading the body yields a prefix of the items, and all of them within a number of reads
that depends on neither `M` nor `N`; while the connection is silent, neither the end of the body nor an error is reported.  Missing: streams whose chunks take more than 4096 bytes (`Within`); for these it is false (`C84_refuted`). -/
theorem C84_events_partial {hexLen : Nat → Nat} (hx : HexLenOk hexLen) {r : Response IntoAsyncRead} {evs : List Ev} (he : Script.ending evs = none) {M : Nat} {now : Bytes}
    (t : Transmittable (sseResponse r (evs ++ List.replicate M .pending)) now) (hwf : r.headers.WF) (hsmall : (Script.bytes evs).length < 2 ^ 64)
    {w : Writer} (hrel : w.Reliable) (hgot : w.got = []) {fuel : Nat}
    (h1 : 2 * ((headOf (sseResponse r (evs ++ List.replicate M .pending)) now).length + (Script.bytes evs).length + 1 + Script.pendings evs) + w.script.length < fuel) (h2 : fuel ≤ M) :
    ∃ w' wire, sendResponse hexLen now fuel (sseResponse r (evs ++ List.replicate M .pending)) w = .ret (w', .running) ∧
      w'.got = headOf (sseResponse r (evs ++ List.replicate M .pending)) now ++ wire ∧ Chunks wire (Script.bytes evs) ∧
      ∀ {io : ρ}, rem io = w'.got → fin io = none → Within 11 4096 wire (Script.bytes evs) ∨ wire.length + 11 ≤ 4096 →
        ∀ now' {pool : Pool}, pool.Ok → ∀ {cfuel : Nat}, 2 * (rem io).length + meas io < cfuel → ∀ N,
          ∃ res, ClientDecode.decode now' pool cfuel (Stall.talk io N) = .ret (.done (.ok res)) ∧
            ∀ ks, (∀ k ∈ ks, 0 < k) → ∃ b ps, polls res.body ks = .ret (b, ps) ∧ received ps <+: Script.bytes evs ∧
              ((Script.bytes evs).length + meas io < ks.length → received ps = Script.bytes evs) ∧ (ks.length ≤ N → ¬ SawEof ps ∧ ∀ e, .err e ∉ ps) := by
  obtain ⟨w', wire, a1, a2, a3⟩ := C69_prompt hx hwf he (N := M) (now := now) hrel rfl h1 h2
  rw [hgot, List.nil_append] at a2
  refine ⟨w', wire, a1, a2, a3, fun {io} hio hfin hroom now' pool hp cfuel hf N => ?_⟩
  rw [a2] at hio
  obtain ⟨b1, b2, b3, res, b4⟩ := t.accepted rfl hio now' (pool := pool) hf
  have hw : Within 11 4096 wire (Script.bytes evs) := hroom.elim id fun h => within_of_length (a3.frames hsmall) (by omega)
  obtain ⟨r2, c1, c2⟩ := C84_client_partial hp b4 b1 b2 b3 hio hfin (within_less hw (by omega)) N
  refine ⟨r2, c1, fun ks hk => ?_⟩
  obtain ⟨b, ps, d1, d2, d3, d4⟩ := c2 ks hk
  exact ⟨b, ps, d1, d2, d3, d4 hw⟩

end

/-! ## Examples and a counterexample -/

/-- The events `evs` are sent, and then the stream is silent for a long time: whether the server goes on sending, and what a client reads in `n` reads of 8192 bytes, after which the connection is silent:
how many bytes, and whether it is told that the body has ended. -/
def heard (evs : List Ev) (n : Nat) : Run (Bool × Nat × Bool) := do
  let (w, s) ← sendResponse exactHexLen (ascii "NOW") 100 (sseResponse (Response.new .empty) (evs ++ List.replicate 100 .pending)) ⟨[], [], 0⟩
  let d ← ClientDecode.decode (ascii "NOW") zeroPool 100 (Stall.talk ([.data w.got] : Script) 100)
  match d with
  | .done (.ok r) => do
    let (_, ps) ← polls r.body (List.replicate n 8192)
    .ret (decide (s = .running), (received ps).length, ps.contains (.data []))
  | _ => .ret (false, 0, false)

/-- An item of `n` bytes. -/
def item (n : Nat) : Ev := .data (List.replicate n 97)


/-- C84 is false of the code.  A stream of three items of 4000, 80 and 80 bytes goes on; the server has sent them; the client is told that the body has ended after the first two. -/
theorem C84_refuted : heard [item 4000, item 80, item 80] 4 = .ret (true, 4080, true) := by decide +kernel

/-- The response `sseBefore`, with the events `sseEvents`, meets the hypotheses of `C84_events_partial` (see also Props/Sse.lean), and so do the chunks that are sent. -/
example : Transmittable (sseResponse sseBefore (sseEvents ++ List.replicate 1000 .pending)) (ascii "NOW") ∧ sseBefore.headers.WF ∧ Script.ending sseEvents = none ∧ sseTransport.got = [] ∧
    Within 11 4096 (ascii "9\r\ndata: a\n\n\r\n9\r\ndata: b\n\n\r\n") (Script.bytes sseEvents) := by
  have hwf : sseBefore.headers.WF := (HeaderMap.wf_nil.insert (ascii "content-type") (ascii "text/html")).insert (ascii "x-a") (ascii "1")
  refine ⟨⟨rfl, by decide, sse_wf hwf _, (HeaderMap.plain_ok (by decide +kernel)).1, (HeaderMap.plain_ok (by decide +kernel)).2, nowOk, by decide +kernel, by decide +kernel⟩, hwf, rfl, rfl, ?_⟩
  refine within_of_length ?_ (by decide)
  have h1 : SizeLine (ascii "9\r\n") (ascii "data: a\n\n").length := ⟨ascii "9", [], [], by decide, by decide, by decide, by simp, .inl rfl⟩
  have h2 : SizeLine (ascii "9\r\n") (ascii "data: b\n\n").length := ⟨ascii "9", [], [], by decide, by decide, by decide, by simp, .inl rfl⟩
  exact Frames.cons h1 (by decide) (.cons h2 (by decide) .nil)

/-- Three short items arrive, and the client waits for more. -/
example : heard [item 9, item 8, item 7] 6 = .ret (true, 24, false) := by decide +kernel

/-- An upload that goes on: one chunk has arrived. -/
def uploading : Conn Script := ⟨[.data (chunkedPost ++ ascii "3\r\na"), .pending, .data (ascii "bc\r\n")], ⟨[], [], 0⟩, []⟩

/-- An endpoint that reads from it gets the chunk, and waits. -/
example : (acceptStep demoEnv plainOpts (reading [8, 8, 8, 8]) 1000 0 (uploading.silent 100) >>= fun x => Run.ret x.2) =
    .ret ([.call ⟨ascii "POST", ascii "/c", [(ascii "host", [ascii "x"]), (ascii "transfer-encoding", [ascii "chunked"])]⟩ none,
      .got 8 (.data (ascii "a")), .got 8 .pending, .got 8 (.data (ascii "bc")), .got 8 .pending,
      .wrote (responseHead .http11 200 [] (some 3) (ascii "NOW") ++ ascii "abc")], none) := by decide +kernel

/-- It meets the hypotheses of `C84_upload_partial`. -/
example : FirstHead (rem uploading.rd) chunkedPost ∧ rem uploading.rd = chunkedPost ++ ascii "3\r\nabc\r\n" ∧ fin uploading.rd = none ∧ Within 11 4096 (ascii "3\r\nabc\r\n") (ascii "abc") ∧
    (rem uploading.rd).length + meas uploading.rd + uploading.wr.script.length + 2 ≤ 1000 := by
  refine ⟨by show FirstHead (Script.bytes _) _; decide +kernel, by show Script.bytes _ = _; decide +kernel, rfl, within_of_length ?_ (by decide),
    by show (Script.bytes _).length + Script.pendings _ + _ + 2 ≤ _; decide +kernel⟩
  have h1 : SizeLine (ascii "3\r\n") (ascii "abc").length := ⟨ascii "3", [], [], by decide, by decide, by decide, by simp, .inl rfl⟩
  exact Frames.cons h1 (by decide) .nil

end Tophat
