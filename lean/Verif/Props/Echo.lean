import Verif.Props.Body
/-!
# Properties C65 and C67: an endpoint that awaits the body, and a client that gets back what it sent
-/

set_option linter.unusedSectionVars false
set_option synthInstance.maxSize 1000

namespace Tophat
open Spec

/-- An endpoint that awaits `read_to_end` on the body (as `into_bytes` does, src/body.rs:67-73), in the state `s`, and goes on with the result.  It is followed for `fuel` reads; `late` stands for what it
does if it is not done by then. -/
def Prog.readAll {σ : Type} (grow : Nat → Nat → Nat) (onEnd : Bytes → Prog σ) (onErr : IoErr → Prog σ) (late : Prog σ) : Nat → ToEnd → Prog σ
  | 0, _ => late
  | fuel + 1, s =>
    .read ((s.room grow).len - (s.room grow).got.length) fun
      | .pending => readAll grow onEnd onErr late fuel { s.room grow with len := (s.room grow).got.length }
      | .err e => onErr e
      | .data [] => onEnd (s.room grow).got
      | .data bs => readAll grow onEnd onErr late fuel { s.room grow with got := (s.room grow).got ++ bs }

/-- What it does with the result. -/
def Slurp.elim {α : Type} (onEnd : Bytes → α) (onErr : IoErr → α) (late : α) : Slurp → α
  | .running => late
  | .err e => onErr e
  | .eof bs => onEnd bs

section
variable {ρ : Type} [AsyncRead ρ] {σ : Type} [AsyncBufRead σ]

/-- `readAll` is `readToEnd`, run as (a part of) an endpoint. -/
theorem runProg_readAll {env : Env} {F n : Nat} {grow : Nat → Nat → Nat} {onEnd : Bytes → Prog σ} {onErr : IoErr → Prog σ} {late : Prog σ} {w : Writer} (fuel : Nat) :
    ∀ {body b' : ReqBody ρ} {s : ToEnd} {x : Slurp}, readToEnd grow fuel body s = .ret (b', x) →
    ∃ ev0, runProg env F n (Prog.readAll grow onEnd onErr late fuel s) body w =
      (runProg env F n (x.elim onEnd onErr late) b' w).bind fun r => .ret (r.1, r.2.1, ev0 ++ r.2.2.1, r.2.2.2) := by
  induction fuel with
  | zero =>
    intro body b' s x h
    simp only [readToEnd, Run.ret.injEq, Prod.mk.injEq] at h
    obtain ⟨rfl, rfl⟩ := h
    refine ⟨[], ?_⟩
    simp only [Prog.readAll, Slurp.elim, List.nil_append]
    cases runProg env F n late body w <;> rfl
  | succ fuel ih =>
    intro body b' s x h
    simp only [readToEnd] at h
    split at h
    · obtain ⟨⟨b1, p⟩, h1, h2⟩ := Run.bind_eq_ret.1 h
      dsimp only at h2
      have step : ∀ {a : Prog σ}, (∃ ev0, runProg env F n a b1 w = (runProg env F n (x.elim onEnd onErr late) b' w).bind fun r => .ret (r.1, r.2.1, ev0 ++ r.2.2.1, r.2.2.2)) →
          ∀ k q, ∃ ev0, (runProg env F n a b1 w >>= fun r => (Run.ret (r.1, r.2.1, Event.got k q :: r.2.2.1, r.2.2.2) : Run (ReqBody ρ × Writer × List Event × Option Glitch))) =
            (runProg env F n (x.elim onEnd onErr late) b' w).bind fun r => .ret (r.1, r.2.1, ev0 ++ r.2.2.1, r.2.2.2) := by
        rintro a ⟨ev0, h0⟩ k q
        refine ⟨.got k q :: ev0, ?_⟩
        rw [h0]
        cases runProg env F n (x.elim onEnd onErr late) b' w <;> rfl
      have here : ∀ a : Prog σ, ∃ ev0, runProg env F n a b1 w = (runProg env F n a b1 w).bind fun r => (Run.ret (r.1, r.2.1, ev0 ++ r.2.2.1, r.2.2.2) : Run (ReqBody ρ × Writer × List Event × Option Glitch)) := by
        intro a
        refine ⟨[], ?_⟩
        cases runProg env F n a b1 w <;> rfl
      simp only [Prog.readAll, runProg, h1, Run.ret_bind]
      cases p with
      | pending => exact step (ih h2) _ _
      | err e =>
        simp only [Run.ret.injEq, Prod.mk.injEq] at h2
        obtain ⟨rfl, rfl⟩ := h2
        exact step (here _) _ _
      | data bs =>
        cases bs with
        | nil =>
          simp only [Run.ret.injEq, Prod.mk.injEq] at h2
          obtain ⟨rfl, rfl⟩ := h2
          exact step (here _) _ _
        | cons a bs => exact step (ih h2) _ _
    · cases h

/-- Awaiting the whole body, and then answering as it should be answered. -/
theorem readAll_answersTo {grow : Nat → Nat → Nat} (hg : GrowOk grow) {P : InnerResponse σ → Prop} {onEnd : Bytes → Prog σ} {onErr : IoErr → Prog σ} {late : Prog σ} (fuel : Nat) :
    ∀ {s : ToEnd} {m : Nat} {left : Bytes}, s.got.length ≤ s.len → left.length + m < fuel → (∀ m', (onEnd (s.got ++ left)).AnswersTo P m' []) →
    (Prog.readAll grow onEnd onErr late fuel s).AnswersTo P m left := by
  induction fuel with
  | zero => intro s m left _ h; omega
  | succ fuel ih =>
    intro s m left hs hf ho
    have hle : (s.room grow).got.length ≤ (s.room grow).len := by
      unfold ToEnd.room
      split
      · dsimp only
        have := hg s.cap s.len
        split <;> omega
      · exact hs
    have hlt := room_lt hg s hle
    refine ⟨fun h0 => ih (Nat.le_refl _) (by omega) (by rw [room_got]; exact ho), fun bs rest h1 h2 h3 => ?_⟩
    cases bs with
    | nil =>
      rcases h3 rfl with h4 | rfl
      · omega
      · subst h1
        simpa [room_got] using ho m
    | cons b bs =>
      refine ih (s := { s.room grow with got := (s.room grow).got ++ b :: bs }) ?_ ?_ ?_
      · simp only [List.length_append]; omega
      · rw [h1] at hf
        simp only [List.length_append, List.length_cons] at hf
        omega
      · rw [room_got, List.append_assoc, ← h1]
        exact ho

end

/-! ## C67 -/

/-- The endpoint `|req, mut w| async { let bs = req.into_body().into_bytes().await?; w.set_body(Body::from_bytes(f(bs))); w.send().await }`; `text` is the text of an error, `late` as above. -/
def computing (grow : Nat → Nat → Nat) (f : Bytes → Bytes) (text : IoErr → Bytes) (late : Prog Cursor) (fuel : Nat) : Endpoint Cursor := fun _ _ =>
  Prog.readAll grow (fun bs => .send ⟨200, [], .http11, ⟨f bs⟩, some (f bs).length⟩ (fun _ => .ok) fun e => .glitch (.newWithErr (text e))) (fun e => .glitch (.newWithErr (text e))) late fuel (ToEnd.new 1024)

theorem decimal_length {k n : Nat} (h0 : 0 < k) (h : n < 10 ^ k) : (decimal n).length ≤ k := by
  induction k generalizing n with
  | zero => omega
  | succ k ih =>
    rw [decimal_eq]
    split
    · simp
    · rename_i hn
      have hk : 0 < k := by
        rcases Nat.eq_zero_or_pos k with rfl | h
        · simp at h; omega
        · exact h
      have := ih hk (n := n / 10) (by rw [Nat.pow_succ] at h; omega)
      simp only [List.length_append, List.length_singleton]
      omega

/-- A plain 200 with a body in memory arrives as it is sent, if the date is one and not too long. -/
theorem plain_transmittable {now bs : Bytes} (hc : (∀ b ∈ now, valueByte b) ∧ ∀ b, now.head? = some b → b ≠ 32 ∧ b ≠ 9) (hn : now.length ≤ 4096) (hb : bs.length < usizeLimit) :
    Transmittable (⟨200, [], .http11, ⟨bs⟩, some bs.length⟩ : InnerResponse Cursor) now := by
  have hd : (decimal bs.length).length ≤ 20 := decimal_length (by omega) (by unfold usizeLimit at hb; omega)
  have hp : HeaderMap.plain [] = true := by decide
  refine ⟨rfl, ⟨(by decide : (100 : UInt16) ≤ 200), (by decide : (200 : UInt16) < 1000)⟩, HeaderMap.wf_nil, (HeaderMap.plain_ok hp).1, (HeaderMap.plain_ok hp).2, hc, ?_, ?_⟩
  · show (sentFields [] (some bs.length) now).length ≤ 128
    unfold sentFields
    simp only [List.length_append]
    split <;> split <;> simp [HeaderMap.iter]
  · show (renderResponseHead .http11 200 (sentFields [] (some bs.length) now)).length < 8192
    have h1 : (Version.http11.debug ++ [32] ++ statusDisplay 200 ++ [13, 10]).length < 100 := by decide
    have h2 : (ascii "content-length").length = 14 := by decide
    have h3 : (ascii "date").length = 4 := by decide
    have h4 : (ascii "content-type").length = 12 := by decide
    have h5 : (ascii "application/octet-stream").length = 24 := by decide
    have h6 : (renderFields (sentFields [] (some bs.length) now)).length ≤ 200 + now.length := by
      unfold renderFields sentFields framingField
      simp only [List.flatMap_append, List.length_append]
      split <;> split <;> simp [HeaderMap.iter, h2, h3, h4, h5] <;> omega
    unfold renderResponseHead
    simp only [List.length_append] at h1 ⊢
    simp only [List.length_cons, List.length_nil] at h1 ⊢
    omega

section
variable {α : Type} [AsyncBufRead α] [LawfulBufRead α] {ρ : Type} [AsyncRead ρ] [LawfulRead ρ] {τ : Type} [AsyncRead τ] [LawfulRead τ]

/-- **C67.**  An endpoint awaits the body with `into_bytes` and answers with `f` of it.  A tophat client sends a request to it, and reads the body of the response with `into_bytes`.  Then the client has `f` of
the body that it sent, in whatever pieces and with whatever delays the bytes of request and response arrive.  (The request is `Requestable`, does not say `expect: 100-continue`, and the request and
`f` of its body fit into memory; `fuel` and the other bounds say that everybody goes on until they are done.) -/
theorem C67_exchange {env : Env} (hx : HexLenOk env.hexLen) {opts : ServerOpts} {req : ClientRequest α} {t : Bytes} {fs : List (Bytes × Bytes)}
    (hr : Requestable env.uriOk req t fs) (hexp : Expects fs = false) {n : Nat}
    (hc : (∀ b ∈ env.now n, valueByte b) ∧ ∀ b, (env.now n).head? = some b → b ≠ 32 ∧ b ≠ 9) (hnow : (env.now n).length ≤ 4096)
    {grow grow' : Nat → Nat → Nat} (hg : GrowOk grow) (hg' : GrowOk grow') {f : Bytes → Bytes} {text : IoErr → Bytes} {late : Prog Cursor} {fuel : Nat}
    (hlim : 8192 + (f (rem req.body)).length < usizeLimit)
    -- the client, and its connection `io`, `w`; it has written its request, and waits long enough for the response
    {now : Bytes} {pool : Pool} (hp : pool.Ok) {cfuel cfuel' : Nat} {w w' : Writer} (hw : w.got = [])
    (hsent : clientSend cfuel req w = .ret (w', .sent)) {io : τ} (hcf : 2 * (rem io).length + meas io < cfuel')
    -- the server, its connection `c`, and what it did
    {sfuel : Nat} {c c' : Conn ρ} (hgot : c.wr.got = []) (hrel : c.wr.Reliable) (ht : NoTimeout opts c) {ev : List Event} {res : Option AcceptRes}
    (hfuel : (rem req.body).length + (meas c.rd + c.wr.script.length) < fuel)
    (hs : acceptStep env opts (computing grow f text late fuel) sfuel n c = .ret (c', ev, res))
    -- the connection carries bytes both ways, in any fragments
    {x y : Bytes} (hup : rem c.rd = w'.got ++ x) (hdown : rem io = c'.wr.got ++ y) :
    ∃ rsp, connect now pool cfuel cfuel' req io w = .ret (w', .done (.ok rsp)) ∧ rsp.status = 200 ∧ rsp.length = some (f (rem req.body)).length ∧
      ∀ F, (f (rem req.body)).length + meas io < F → ∃ r, rsp.toBody.intoBytes grow' F = .ret (r, .ok (f (rem req.body))) := by
  obtain ⟨resp, k, rsp, p1, p2, p3, p4, p5, p6, p7⟩ := C65_exchange_partial (τ := τ) hx (endpoint := computing grow f text late fuel) hr hexp (n := n)
    (P := fun resp => resp = ⟨200, [], .http11, ⟨f (rem req.body)⟩, some (f (rem req.body)).length⟩)
    (by
      rintro resp rfl
      exact ⟨plain_transmittable hc hnow (by omega), rfl, _, rfl, hlim⟩)
    hp hw hsent hcf hgot hrel ht
    (fun hmap _ => readAll_answersTo hg fuel (by simp [ToEnd.new]) hfuel (fun m' => ⟨by simp [ToEnd.new], fun _ => trivial⟩))
    hs hup hdown
  subst p1
  injection p2 with p2
  subst p2
  refine ⟨rsp, p3, p4, p6, fun F hF => ?_⟩
  -- reading to the end
  obtain ⟨-, htot⟩ : True ∧ ∃ x, rsp.toBody.intoBytes grow' F = .ret x := by
    refine ⟨trivial, ?_⟩
    unfold connect at p3
    rw [hsent] at p3
    simp only [Run.ret_bind] at p3
    obtain ⟨d, h1, h2⟩ := Run.bind_eq_ret.1 p3
    cases d with
    | running => simp at h2
    | done r =>
      simp only [Run.ret.injEq, Prod.mk.injEq, ConnectRes.done.injEq, true_and] at h2
      subst h2
      exact (C66_client_no_panic_partial hg' hp h1 F).1
  obtain ⟨⟨r, z⟩, htot⟩ := htot
  refine ⟨r, ?_⟩
  rw [htot]
  unfold MsgBody.intoBytes at htot
  obtain ⟨⟨r1, sl⟩, h1, h2⟩ := Run.bind_eq_ret.1 htot
  simp only [Run.ret.injEq, Prod.mk.injEq] at h2
  obtain ⟨rfl, rfl⟩ := h2
  rw [clientToBody_reader] at h1
  obtain ⟨ks, ps, r2, a1, a2, a3, a4, a5⟩ := readToEnd_slurped hg' F h1
  have full : (rem (⟨f (rem req.body)⟩ : Cursor)).take (f (rem req.body)).length = f (rem req.body) := List.take_length
  have full' : ∀ (c : Cursor), c = ⟨f (rem req.body)⟩ → (rem c).take (f (rem req.body)).length = f (rem req.body) := by rintro c rfl; exact full
  have one : ∀ k, 0 < k → ∀ r3 q, pollRead r2 k = .ret (r3, q) → polls rsp.body (ks ++ [k]) = .ret (r3, ps ++ [q]) := fun k hk r3 q h => polls_snoc a2 a4 h
  have hpos : ∀ k, 0 < k → ∀ j ∈ ks ++ [k], 0 < j := by
    intro k hk j hj
    rcases List.mem_append.1 hj with hj | hj
    · exact a1 j hj
    · rw [List.mem_singleton.1 hj]; exact hk
  cases sl with
  | running =>
    obtain ⟨b, ps', q1, -, -, -, q2⟩ := p7 ks
    rw [a2] at q1
    injection q1 with q1; injection q1 with _ q1
    subst q1
    exact absurd (q2 a1 (by rw [a5.2]; exact hF)) a3
  | err e =>
    obtain ⟨k, hk, a5⟩ := a5
    obtain ⟨b, ps', q1, -, q2, -⟩ := p7 (ks ++ [k])
    rw [one k hk _ _ a5] at q1
    injection q1 with q1; injection q1 with _ q1
    subst q1
    exact absurd (by simp) (q2 e)
  | eof bs =>
    obtain ⟨a5, k, hk, a6⟩ := a5
    obtain ⟨b, ps', q1, -, -, q2, -⟩ := p7 (ks ++ [k])
    rw [one k hk _ _ a6] at q1
    injection q1 with q1; injection q1 with _ q1
    subst q1
    have := q2 (hpos k hk) (by unfold SawEof; simp)
    rw [received_append] at this
    simp only [received, List.append_nil] at this
    rw [a5, this]
    skip
    simp only [ToEnd.new, List.nil_append]
    first | rw [full] | rw [full' _ rfl]
    rfl

end

/-- The endpoint that answers with the body backwards. -/
def backwards : Endpoint Cursor := computing doubling List.reverse (fun _ => ascii "error") (.glitch .new) 200

/-- A client sends `hello` to it, and has `olleh`: the events of the server, and status, headers, length and body of the response. -/
example : exchange demoRequest backwards = .ret ([.call ⟨ascii "POST", ascii "/a?q=1", [(ascii "host", [ascii "h.org:81"]), (ascii "content-length", [ascii "5"]), (ascii "x-a", [ascii "1", ascii "2"])]⟩ (some 5),
      .got 1024 (.data (ascii "he")), .got 1022 .pending, .got 1022 (.data (ascii "llo")), .got 1019 (.data []), .wrote (responseHead .http11 200 [] (some 5) (ascii "NOW") ++ ascii "olleh")],
    some (200, [(ascii "content-length", [ascii "5"]), (ascii "date", [ascii "NOW"]), (ascii "content-type", [ascii "application/octet-stream"])], some 5, [.data (ascii "ol"), .pending, .data (ascii "leh"), .data []])) := by decide +kernel

/-- What the client writes, ... -/
def demoUp : Bytes := ascii "POST /a?q=1 HTTP/1.1\r\nhost: h.org:81\r\ncontent-length: 5\r\nx-a: 1\r\nx-a: 2\r\n\r\nhello"
/-- ... and what the server answers. -/
def demoDown : Bytes := responseHead .http11 200 [] (some 5) (ascii "NOW") ++ ascii "olleh"

/-- The server, with the client's bytes in pieces of 7. -/
def demoServed : Run (Bytes × Bool) :=
  acceptStep demoEnv plainOpts backwards 1000 0 (connOf (relayed.pieces 100 demoUp)) >>= fun x => .ret (x.1.wr.got, x.1.wr.script.isEmpty)

theorem demoServed_eq : demoServed = .ret (demoDown, true) := by decide +kernel

/-- All hypotheses of `C67_exchange` are met: the client's connection takes 50 bytes, waits, and takes the rest; the bytes arrive at the server, and at the client, in pieces of 7. -/
example : ∃ rsp, connect (ascii "NOW") zeroPool 100 1000 demoRequest ((relayed.pieces 100 demoDown).map Ev.data) ⟨[.accept 50, .pending, .accept 10], [], 0⟩ = .ret (⟨[], demoUp, demoUp.length⟩, .done (.ok rsp)) ∧
    rsp.status = 200 ∧ rsp.length = some 5 ∧ ∃ r, rsp.toBody.intoBytes doubling 200 = .ret (r, .ok (ascii "olleh")) := by
  have hs := demoServed_eq
  obtain ⟨⟨c', ev, res⟩, h1, h2⟩ := Run.bind_eq_ret.1 hs
  simp only [Run.ret.injEq, Prod.mk.injEq] at h2
  obtain ⟨rsp, a1, a2, a3, a4⟩ := C67_exchange (τ := Script) exactHexLen_ok demoRequest_ok (by decide +kernel) (n := 0) nowOk (by decide) doubling_ok doubling_ok (by decide +kernel) (now := ascii "NOW") zeroPool_ok (w := ⟨[.accept 50, .pending, .accept 10], [], 0⟩) rfl
    (show clientSend 100 demoRequest _ = .ret (⟨[], demoUp, demoUp.length⟩, .sent) by decide +kernel) (io := (relayed.pieces 100 demoDown).map Ev.data) (cfuel' := 1000) (by decide +kernel)
    (c := connOf (relayed.pieces 100 demoUp)) rfl (by intro e he; simp [connOf] at he) (.inl rfl) (by decide +kernel) h1 (x := []) (y := []) (by decide +kernel) (by rw [h2.1]; decide +kernel)
  exact ⟨rsp, a1, a2, a3, a4 200 (by decide +kernel)⟩

end Tophat
