import Verif.Spec.Fails
import Verif.Props.CorsExchange
/-!
# Property C94: texts over the network, as in examples/basic.rs
-/

set_option linter.unusedSectionVars false
set_option synthInstance.maxSize 1000

namespace Tophat
open Spec

section
variable {ρ : Type} [AsyncRead ρ] [LawfulRead ρ] {σ : Type} [AsyncBufRead σ] [LawfulBufRead σ]

theorem runProg_fails {env : Env} {fuel n : Nat} {gl : Glitch} (a : Prog σ) :
    ∀ (t : Take (BufRd ρ)) (body' : ReqBody ρ) (w w' : Writer) (ev : List Event) (g : Option Glitch) (m : Nat), fin t = none → meas t ≤ m → a.FailsTo gl m (rem t) →
    runProg env fuel n a (.fixed t) w = .ret (body', w', ev, g) → a.afterReads (bodyReads ev) = some (.glitch gl) := by
  induction a with
  | read k next ih =>
    intro t body' w w' ev g m hf hm ho h
    simp only [runProg] at h
    obtain ⟨t1, p, h1, hk⟩ := LawfulRead.read_ok t k
    have h1' : pollRead (ReqBody.fixed t) k = .ret (.fixed t1, p) := by
      show (pollRead t k >>= _) = _
      rw [h1]; rfl
    rw [h1'] at h
    simp only [Run.ret_bind] at h
    obtain ⟨⟨b2, w2, ev2, g2⟩, h3, h4⟩ := Run.bind_eq_ret.1 h
    simp only [Run.ret.injEq, Prod.mk.injEq] at h4
    obtain ⟨rfl, rfl, rfl, rfl⟩ := h4
    show Prog.afterReads (.read k next) ((k, p) :: bodyReads ev2) = _
    simp only [Prog.afterReads, if_true]
    cases hk with
    | pending a b c => exact ih _ _ _ _ _ _ _ (m - 1) (b.trans hf) (by omega) (a ▸ ho.1 (by omega)) h3
    | err a b => rw [hf] at b; cases b
    | data a b c d e =>
      refine ih _ _ _ _ _ _ _ m (c.trans hf) (by omega) (ho.2 _ _ b a fun h0 => ?_) h3
      by_cases hk0 : 0 < k
      · right
        have := (e hk0 h0).1
        rw [b] at this
        exact (List.append_eq_nil_iff.1 this).2
      · left; omega
  | send => intro t body' w w' ev g m hf hm ho; exact ho.elim
  | sendFor => intro t body' w w' ev g m hf hm ho; exact ho.elim
  | glitch g' =>
    intro t body' w w' ev g m hf hm ho h
    cases ho
    unfold runProg at h
    simp only [Run.ret.injEq, Prod.mk.injEq] at h
    rw [← h.2.2.1]
    rfl

/-- Awaiting the whole body, and then failing. -/
theorem readAll_failsTo {grow : Nat → Nat → Nat} (hg : GrowOk grow) {g : Glitch} {onEnd : Bytes → Prog σ} {onErr : IoErr → Prog σ} {late : Prog σ} (fuel : Nat) :
    ∀ {s : ToEnd} {m : Nat} {left : Bytes}, s.got.length ≤ s.len → left.length + m < fuel → (∀ m', (onEnd (s.got ++ left)).FailsTo g m' []) →
    (Prog.readAll grow onEnd onErr late fuel s).FailsTo g m left := by
  induction fuel with
  | zero => intro s m left _ h; omega
  | succ fuel ih =>
    intro s m left hs hf ho
    have hle : (s.room grow).got.length ≤ (s.room grow).len := by
      unfold ToEnd.room
      split
      · dsimp only
        have := hg s.cap s.len
        split <;> omega
      · exact hs
    have hlt := room_lt hg s hle
    refine ⟨fun h0 => ih (Nat.le_refl _) (by omega) (by rw [room_got]; exact ho), fun bs rest h1 h2 h3 => ?_⟩
    cases bs with
    | nil =>
      rcases h3 rfl with h4 | rfl
      · omega
      · subst h1
        simpa [room_got] using ho m
    | cons b bs =>
      refine ih (s := { s.room grow with got := (s.room grow).got ++ b :: bs }) ?_ ?_ ?_
      · simp only [List.length_append]; omega
      · rw [h1] at hf
        simp only [List.length_append, List.length_cons] at hf
        omega
      · rw [room_got, List.append_assoc, ← h1]
        exact ho

end

section
variable {α : Type} [AsyncBufRead α] [LawfulBufRead α] {β : Type} [AsyncBufRead β] [LawfulBufRead β] {ρ : Type} [AsyncRead ρ] [LawfulRead ρ] {τ : Type} [AsyncRead τ] [LawfulRead τ]

/-- **C91**, for endpoints that return an error because of what they find in the body: whatever they read of it, and however it is cut up and delayed, `connect` returns the error's status, headers and body. -/
theorem C91_body {env : Env} (hx : HexLenOk env.hexLen) {opts : ServerOpts} {endpoint : Endpoint β} {n : Nat} {pool : Pool} {cfuel cfuel' : Nat} {req : ClientRequest α} {io : τ} {w w' : Writer}
    {c c' : Conn ρ} (h : Exchange env opts endpoint n pool cfuel cfuel' req io w w' c c') {t : Bytes} {fs : List (Bytes × Bytes)} (hr : Requestable env.uriOk req t fs) (hexp : Expects fs = false)
    {g : Glitch} (hg : g.Transmittable (env.now n))
    (he : ∀ hmap, MapOf hmap fs → (endpoint ⟨req.method, t, hmap⟩ (some (rem req.body).length)).FailsTo g (meas c.rd + c.wr.script.length) (rem req.body)) (now : Bytes) :
    let body := glitchBody opts.verboseGlitch g.message g.trace
    ∃ rsp hs, connect now pool cfuel cfuel' req io w = .ret (w', .done (.ok rsp)) ∧ rsp.status = g.status.getD 500 ∧ GlitchHeaders (g.headers.getD []) body hs ∧
      MapOf rsp.headers (sentFields hs (some body.length) (env.now n)) ∧ rsp.length = some body.length ∧
      ∀ ks, ∃ b ps, polls rsp.body ks = .ret (b, ps) ∧ received ps <+: body ∧ (∀ x, .err x ∉ ps) ∧
        ((∀ k ∈ ks, 0 < k) → SawEof ps → received ps = body) ∧ ((∀ k ∈ ks, 0 < k) → body.length + meas io < ks.length → SawEof ps) := by
  obtain ⟨sfuel, ev, res, hs⟩ := h.served
  obtain ⟨x, hup⟩ := h.up
  obtain ⟨y, hdown⟩ := h.down
  have hrem : rem c.rd = renderRequest req.method t fs ++ (rem req.body ++ x) := by rw [hup, hr.postable.written h.fresh h.sent]; simp
  have hfirst : FirstHead (rem c.rd) (renderRequest req.method t fs) := by rw [hrem]; exact firstHead_render hr.method.2 hr.targetOk.1 hr.plain _
  have hhas := hasHead_render hr.method.2 hr.targetOk.1 hr.plain hr.few
  obtain ⟨-, v1, v2, v3⟩ := hr.values []
  have hlen : BodyLength fs (some (rem req.body).length) :=
    ((C25_lengths fs).2.1 [] _ _ v2 (by rw [v1]; rfl) (isLength_decimal hr.body.2) _).2 rfl
  obtain ⟨-, hmap, hsv⟩ := served_inv (acceptStep_spec hx hs) hfirst (.serve hhas hr.method.1 hr.good v3 hr.targetOk.2 hlen) (fun _ => h.reliable) h.timely
  obtain ⟨used', body, body', w1, w2, ev1, gl, ev2, a1, a2, a3, a4, a5, a6, a7⟩ := hsv.run
  have e2 : bodyReads ev2 = [] := by
    unfold answerGlitch at a5
    split at a5
    · simp only [Run.ret.injEq, Prod.mk.injEq] at a5; rw [← a5.2]; rfl
    · obtain ⟨⟨w3, r⟩, _, h2⟩ := Run.bind_eq_ret.1 a5
      simp only [Run.ret.injEq, Prod.mk.injEq] at h2; rw [← h2.2]; rfl
  have e3 : bodyReads ev = bodyReads ev1 := by
    rw [a7, bodyReads_append]
    have : bodyReads (Spec.interim (Expects fs)) = [] := by cases Expects fs <;> rfl
    rw [this, List.nil_append]
    show bodyReads (ev1 ++ ev2) = _
    rw [bodyReads_append, e2, List.append_nil]
  generalize hL : some (rem req.body).length = L at a3
  have hdrop : (rem c.rd).drop (renderRequest req.method t fs).length = rem req.body ++ x := by rw [hrem, List.drop_left]
  rw [hdrop] at a3
  cases a3 with
  | chunked => cases hL
  | fixed c1 c2 c3 =>
  rename_i rr k0
  injection hL with hL
  subst hL
  have hremT : rem (⟨rr, (rem req.body).length⟩ : Take (BufRd ρ)) = rem req.body := by
    show (rem rr).take _ = _
    rw [c1, List.take_left]
  have hfinT : fin (⟨rr, (rem req.body).length⟩ : Take (BufRd ρ)) = none := by
    show (if _ ≤ (rem rr).length then none else _) = _
    rw [c1, if_pos (by simp)]
  -- the same reads, whatever the map is: it is one map
  obtain ⟨-, ⟨hmap', -, m2, -⟩, -⟩ := C52_round_trip hx hr h.fresh h.sent hup h.reliable h.timely hs
  have hfail := runProg_fails _ _ _ _ _ _ _ _ hfinT c3 (by rw [hremT]; exact he hmap hsv.headers) a4
  rw [← e3] at hfail
  have hone : calls ev = [(⟨req.method, t, hmap⟩, some (rem req.body).length)] := by
    have : (⟨req.method, t, hmap⟩, some (rem req.body).length) ∈ calls ev := mem_calls.2 (by rw [a7]; simp)
    rw [m2, List.mem_singleton] at this
    rw [m2, this]
  refine (C91_endpoint hx hr hexp hg h.pool (now := now) h.fresh h.sent h.patient h.unanswered h.reliable h.timely hs (fun hm2 _ hin => ?_) hup hdown).2
  have := mem_calls.2 hin
  rw [hone, List.mem_singleton] at this
  injection this with this _
  rw [this]
  exact hfail

/-- What reading the body of a response to its end gives. -/
theorem slurp_of {r : ReplyBody τ} {D : Bytes} {m : Nat}
    (H : ∀ ks, ∃ b ps, polls r ks = .ret (b, ps) ∧ received ps <+: D ∧ (∀ x, .err x ∉ ps) ∧ ((∀ k ∈ ks, 0 < k) → SawEof ps → received ps = D) ∧ ((∀ k ∈ ks, 0 < k) → D.length + m < ks.length → SawEof ps))
    {grow : Nat → Nat → Nat} (hg : GrowOk grow) {F cap : Nat} (hF : D.length + m < F) {r' : ReplyBody τ} {x : Slurp} (h : readToEnd grow F r (ToEnd.new cap) = .ret (r', x)) : x = .eof D := by
  obtain ⟨ks, ps, r2, a1, a2, a3, a4, a5⟩ := readToEnd_slurped hg F h
  have hpos : ∀ k, 0 < k → ∀ j ∈ ks ++ [k], 0 < j := by
    intro k hk j hj
    rcases List.mem_append.1 hj with hj | hj
    · exact a1 j hj
    · rw [List.mem_singleton.1 hj]; exact hk
  cases x with
  | running =>
    obtain ⟨b, ps', q1, -, -, -, q2⟩ := H ks
    rw [a2] at q1
    injection q1 with q1; injection q1 with _ q1
    subst q1
    exact absurd (q2 a1 (by rw [a5.2]; exact hF)) a3
  | err e =>
    obtain ⟨k, hk, a5⟩ := a5
    obtain ⟨b, ps', q1, -, q2, -⟩ := H (ks ++ [k])
    rw [polls_snoc a2 a4 a5] at q1
    injection q1 with q1; injection q1 with _ q1
    subst q1
    exact absurd (by simp) (q2 e)
  | eof bs =>
    obtain ⟨a5, k, hk, a6⟩ := a5
    obtain ⟨b, ps', q1, -, -, q2, -⟩ := H (ks ++ [k])
    rw [polls_snoc a2 a4 a6] at q1
    injection q1 with q1; injection q1 with _ q1
    subst q1
    have := q2 (hpos k hk) (by unfold SawEof; simp)
    rw [received_append] at this
    simp only [received, List.append_nil] at this
    rw [a5, this]
    rfl

/-- What `connect` has decoded. -/
theorem connect_decoded {now : Bytes} {pool : Pool} {cf cf' : Nat} {req : ClientRequest α} {io : τ} {w w' : Writer} {rsp : ClientResponse τ} (hsent : clientSend cf req w = .ret (w', .sent))
    (h : connect now pool cf cf' req io w = .ret (w', .done (.ok rsp))) : ClientDecode.decode now pool cf' io = .ret (.done (.ok rsp)) := by
  unfold connect at h
  rw [hsent] at h
  simp only [Run.ret_bind] at h
  obtain ⟨d, h1, h2⟩ := Run.bind_eq_ret.1 h
  cases d with
  | running => simp at h2
  | done r =>
    simp only [Run.ret.injEq, Prod.mk.injEq, ConnectRes.done.injEq, true_and] at h2
    subst h2
    exact h1

/-- A body that is a text, read with `into_string`. -/
theorem text_of {now : Bytes} {pool : Pool} (hp : pool.Ok) {cf' : Nat} {io : τ} {rsp : ClientResponse τ} (h1 : ClientDecode.decode now pool cf' io = .ret (.done (.ok rsp))) {D : Bytes} {m : Nat}
    (hl : rsp.length = some D.length) (hD : D.length ≤ isizeMax)
    (H : ∀ ks, ∃ b ps, polls rsp.body ks = .ret (b, ps) ∧ received ps <+: D ∧ (∀ x, .err x ∉ ps) ∧ ((∀ k ∈ ks, 0 < k) → SawEof ps → received ps = D) ∧ ((∀ k ∈ ks, 0 < k) → D.length + m < ks.length → SawEof ps))
    {grow : Nat → Nat → Nat} (hg : GrowOk grow) {F : Nat} (hF : D.length + m < F) : ∃ r, rsp.toBody.intoString grow F = .ret (r, if utf8Valid D then .ok D else .conversion .notUtf8) := by
  obtain ⟨⟨r, z⟩, htot⟩ := (C66_client_no_panic_partial hg hp h1 F).2 (by rw [hl]; exact hD)
  refine ⟨r, ?_⟩
  rw [htot]
  unfold MsgBody.intoString at htot
  obtain ⟨cap, -, htot⟩ := Run.bind_eq_ret.1 htot
  obtain ⟨⟨r1, sl⟩, g1, g2⟩ := Run.bind_eq_ret.1 htot
  simp only [Run.ret.injEq, Prod.mk.injEq] at g2
  obtain ⟨rfl, rfl⟩ := g2
  rw [clientToBody_reader] at g1
  rw [slurp_of H hg hF g1]
  rfl

end

/-! ## C94 -/

/-- The endpoint of examples/basic.rs:20-32, `|req, mut w| async { let s = req.into_body().into_string().await?; w.set_body(f(s).into()); w.send().await }`, where `f(s)` is `format!("Hello, {}!", s)`; `text` is the text
of an error, `late` stands for what happens if the body is not read within `fuel` polls.  (The `println!`s are not modelled, and neither is the panic of `with_capacity` for bodies longer than `isize::MAX`; C66.) -/
def texting (grow : Nat → Nat → Nat) (f : Bytes → Bytes) (text : IoErr → Bytes) (late : Prog Cursor) (fuel : Nat) : Endpoint Cursor := fun _ len =>
  Prog.readAll grow (fun bs => if utf8Valid bs then .send ⟨200, [], .http11, ⟨f bs⟩, some (f bs).length⟩ (fun _ => .ok) fun e => .glitch (.newWithErr (text e)) else .glitch (.newWithErr (text .notUtf8)))
    (fun e => .glitch (.newWithErr (text e))) late fuel (ToEnd.new (len.getD 0))

/-- `format!("Hello, {}!", s)`. -/
def greet (s : Bytes) : Bytes := ascii "Hello, " ++ s ++ ascii "!"

section
variable {α : Type} [AsyncBufRead α] [LawfulBufRead α] {ρ : Type} [AsyncRead ρ] [LawfulRead ρ] {τ : Type} [AsyncRead τ] [LawfulRead τ]

/-- **C94.**  A client sends a text, with any number of any characters, to the endpoint of examples/basic.rs with any function `f` of texts, and reads the answer with `into_string`.  It has `f` of its text, in whatever
pieces and with whatever delays the bytes arrive, also if a character is cut in two. -/
theorem C94_text {env : Env} (hx : HexLenOk env.hexLen) {opts : ServerOpts} {grow grow' : Nat → Nat → Nat} (hg : GrowOk grow) (hg' : GrowOk grow') {f : Bytes → Bytes} {text : IoErr → Bytes} {late : Prog Cursor} {fuel : Nat}
    {n : Nat} {pool : Pool} {cf cf' : Nat} {req : ClientRequest α} {io : τ} {w w' : Writer} {c c' : Conn ρ} (h : Exchange env opts (texting grow f text late fuel) n pool cf cf' req io w w' c c')
    {t : Bytes} {fs : List (Bytes × Bytes)} (hr : Requestable env.uriOk req t fs) (hexp : Expects fs = false)
    (hc : (∀ b ∈ env.now n, valueByte b) ∧ ∀ b, (env.now n).head? = some b → b ≠ 32 ∧ b ≠ 9) (hnow : (env.now n).length ≤ 4096)
    (hfuel : (rem req.body).length + (meas c.rd + c.wr.script.length) < fuel)
    -- the texts
    {question answer : List Nat} (hq : ∀ x ∈ question, Scalar x) (ha : ∀ x ∈ answer, Scalar x) (hbody : rem req.body = encodeText question) (hf : f (encodeText question) = encodeText answer)
    (hlim : (encodeText answer).length ≤ isizeMax) (now : Bytes) :
    ∃ rsp, connect now pool cf cf' req io w = .ret (w', .done (.ok rsp)) ∧ rsp.status = 200 ∧ rsp.length = some (encodeText answer).length ∧
      ∀ F, (encodeText answer).length + meas io < F → ∃ r, rsp.toBody.intoString grow' F = .ret (r, .ok (encodeText answer)) := by
  have hu : utf8Valid (rem req.body) = true := (utf8Valid_iff _).2 ⟨question, hq, hbody⟩
  have hua : utf8Valid (encodeText answer) = true := (utf8Valid_iff _).2 ⟨answer, ha, rfl⟩
  have hlim' : 8192 + (encodeText answer).length < usizeLimit := by unfold isizeMax at hlim; unfold usizeLimit; omega
  obtain ⟨resp, k, rsp, rfl, p2, p3, p4, p5, p6, p7⟩ := h.result hx hr hexp
    (P := fun resp => resp = ⟨200, [], .http11, ⟨encodeText answer⟩, some (encodeText answer).length⟩)
    (by
      rintro resp rfl
      exact ⟨plain_transmittable hc hnow (by omega), rfl, _, rfl, hlim'⟩)
    (fun hmap _ => readAll_answersTo hg fuel (by simp [ToEnd.new]) hfuel (fun m' => by
      have e : (ToEnd.new ((some (rem req.body).length).getD 0)).got ++ rem req.body = rem req.body := by simp [ToEnd.new]
      rw [e, if_pos hu, hbody, hf]
      exact ⟨rfl, fun _ => trivial⟩))
    now
  injection p2 with p2
  subst p2
  refine ⟨rsp, p3, p4, p6, fun F hF => ?_⟩
  have hfull : (rem (⟨encodeText answer⟩ : Cursor)).take (encodeText answer).length = encodeText answer := List.take_length
  obtain ⟨r, hr2⟩ := text_of h.pool (connect_decoded h.sent p3) (m := meas io) p6 hlim (by rw [← hfull]; simpa only [hfull] using p7) hg' hF
  exact ⟨r, by rw [hr2, if_pos hua]⟩

/-- **C94.**  If what it sends is not UTF-8, the client gets an empty response with status 500 (with the text of the error as its body, if the server is verbose). -/
theorem C94_not_text {env : Env} (hx : HexLenOk env.hexLen) {opts : ServerOpts} {grow : Nat → Nat → Nat} (hg : GrowOk grow) {f : Bytes → Bytes} {text : IoErr → Bytes} {late : Prog Cursor} {fuel : Nat}
    {n : Nat} {pool : Pool} {cf cf' : Nat} {req : ClientRequest α} {io : τ} {w w' : Writer} {c c' : Conn ρ} (h : Exchange env opts (texting grow f text late fuel) n pool cf cf' req io w w' c c')
    {t : Bytes} {fs : List (Bytes × Bytes)} (hr : Requestable env.uriOk req t fs) (hexp : Expects fs = false)
    (hc : (∀ b ∈ env.now n, valueByte b) ∧ ∀ b, (env.now n).head? = some b → b ≠ 32 ∧ b ≠ 9) (hnow : (env.now n).length ≤ 7900)
    (hfuel : (rem req.body).length + (meas c.rd + c.wr.script.length) < fuel) (hno : ¬ IsUtf8 (rem req.body)) (htext : (text .notUtf8).length ≤ 1000000) (now : Bytes) :
    let body := if opts.verboseGlitch then text .notUtf8 else []
    ∃ rsp, connect now pool cf cf' req io w = .ret (w', .done (.ok rsp)) ∧ rsp.status = 500 ∧ rsp.length = some body.length ∧
      ∀ ks, ∃ b ps, polls rsp.body ks = .ret (b, ps) ∧ received ps <+: body ∧ (∀ x, .err x ∉ ps) ∧
        ((∀ k ∈ ks, 0 < k) → SawEof ps → received ps = body) ∧ ((∀ k ∈ ks, 0 < k) → body.length + meas io < ks.length → SawEof ps) := by
  have hu : ¬ utf8Valid (rem req.body) = true := fun h => hno ((utf8Valid_iff _).1 h)
  have hp : HeaderMap.plain [] = true := by decide
  have hgl : Glitch.Transmittable (.newWithErr (text .notUtf8)) (env.now n) := by
    refine ⟨⟨by simp [Glitch.newWithErr], ?_⟩, .inl rfl, (by intro st h; cases h), (HeaderMap.plain_ok hp).1, (HeaderMap.plain_ok hp).2, hc, Nat.zero_le _, ?_⟩
    · show 8192 + (0 + 1 + (text .notUtf8).length) < usizeLimit
      unfold usizeLimit; omega
    · show (renderFields (HeaderMap.iter [])).length + (env.now n).length ≤ 7900
      have : (renderFields (HeaderMap.iter [])).length = 0 := rfl
      omega
  obtain ⟨rsp, hs, h1, h2, -, -, h5, h6⟩ := C91_body hx h hr hexp hgl
    (fun hmap _ => readAll_failsTo hg fuel (by simp [ToEnd.new]) hfuel (fun m' => by
      have e : (ToEnd.new ((some (rem req.body).length).getD 0)).got ++ rem req.body = rem req.body := by simp [ToEnd.new]
      rw [e, if_neg hu]
      exact rfl)) now
  have e : glitchBody opts.verboseGlitch (Glitch.newWithErr (text .notUtf8)).message (Glitch.newWithErr (text .notUtf8)).trace = if opts.verboseGlitch then text .notUtf8 else [] := by
    cases opts.verboseGlitch <;> rfl
  rw [e] at h5 h6
  exact ⟨rsp, h1, h2, h5, h6⟩

end

/-! ## A concrete case -/

/-- A request whose body is the character `é`, cut in two. -/
def eRequest : ClientRequest Script := { demoRequest with headers := [], body := [.data [195], .pending, .data [169]], length := some 2 }
/-- Its bytes. -/
def eUp : Bytes := ascii "POST /a?q=1 HTTP/1.1\r\nhost: h.org:81\r\ncontent-length: 2\r\n\r\n" ++ [195, 169]
/-- The answer. -/
def eDown : Bytes := responseHead .http11 200 [] (some 10) (ascii "NOW") ++ greet [195, 169]
/-- The endpoint of examples/basic.rs. -/
def basicDemo : Endpoint Cursor := texting doubling greet (fun _ => ascii "stream did not contain valid UTF-8") (.glitch .new) 200

theorem eRequest_ok : Requestable demoEnv.uriOk eRequest (ascii "/a?q=1") [(ascii "host", ascii "h.org:81"), (ascii "content-length", ascii "2")] :=
  ⟨demoRequest_ok.method, demoRequest_ok.target, demoRequest_ok.targetOk, (HeaderMap.plain_ok (by decide +kernel)).1, (HeaderMap.plain_ok (by decide +kernel)).2, demoRequest_ok.host, by decide, by decide,
    by decide, by decide +kernel, by decide⟩

/-- All hypotheses of `C94_text` are met. -/
example : ∃ rsp, connect (ascii "NOW") zeroPool 100 1000 eRequest ((relayed.pieces 100 eDown).map Ev.data) ⟨[], [], 0⟩ = .ret (⟨[], eUp, eUp.length⟩, .done (.ok rsp)) ∧
    rsp.status = 200 ∧ ∃ r, rsp.toBody.intoString doubling 200 = .ret (r, .ok (greet [195, 169])) := by
  obtain ⟨c', x⟩ := exchange_of (endpoint := basicDemo) (req := eRequest) (up := eUp) (down := eDown) (by decide +kernel) (by decide +kernel) (by decide +kernel) (by decide +kernel) (by decide +kernel)
  obtain ⟨rsp, a1, a2, -, a3⟩ := C94_text (τ := Script) exactHexLen_ok doubling_ok doubling_ok x eRequest_ok (by decide +kernel) nowOk (by decide) (by decide +kernel)
    (question := [233]) (answer := [72, 101, 108, 108, 111, 44, 32, 233, 33]) (by unfold Scalar; decide) (by unfold Scalar; decide) (by decide) (by decide) (by decide) (ascii "NOW")
  exact ⟨rsp, a1, a2, a3 200 (by decide +kernel)⟩

/-- The same body without its second half. -/
def halfRequest : ClientRequest Script := { eRequest with body := [.data [195]], length := some 1 }
/-- Its bytes. -/
def halfUp : Bytes := ascii "POST /a?q=1 HTTP/1.1\r\nhost: h.org:81\r\ncontent-length: 1\r\n\r\n" ++ [195]
/-- The answer. -/
def halfDown : Bytes := responseHead .http11 500 [] (some 0) (ascii "NOW")

theorem halfRequest_ok : Requestable demoEnv.uriOk halfRequest (ascii "/a?q=1") [(ascii "host", ascii "h.org:81"), (ascii "content-length", ascii "1")] :=
  ⟨demoRequest_ok.method, demoRequest_ok.target, demoRequest_ok.targetOk, (HeaderMap.plain_ok (by decide +kernel)).1, (HeaderMap.plain_ok (by decide +kernel)).2, demoRequest_ok.host, by decide, by decide,
    by decide, by decide +kernel, by decide⟩

/-- All hypotheses of `C94_not_text` are met. -/
example : ∃ rsp, connect (ascii "NOW") zeroPool 100 1000 halfRequest ((relayed.pieces 100 halfDown).map Ev.data) ⟨[], [], 0⟩ = .ret (⟨[], halfUp, halfUp.length⟩, .done (.ok rsp)) ∧ rsp.status = 500 ∧ rsp.length = some 0 := by
  obtain ⟨c', x⟩ := exchange_of (endpoint := basicDemo) (req := halfRequest) (up := halfUp) (down := halfDown) (by decide +kernel) (by decide +kernel) (by decide +kernel) (by decide +kernel) (by decide +kernel)
  obtain ⟨rsp, a1, a2, a3, -⟩ := C94_not_text (τ := Script) exactHexLen_ok doubling_ok x halfRequest_ok (by decide +kernel) nowOk (by decide) (by decide +kernel)
    (fun h => by have := (utf8Valid_iff _).2 h; revert this; decide) (by decide) (ascii "NOW")
  exact ⟨rsp, a1, a2, a3⟩

end Tophat
