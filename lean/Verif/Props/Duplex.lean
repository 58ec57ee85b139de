import Verif.Proofs.DuplexRun
import Verif.Props.Echo
/-!
# Property C86: client and server do not wait for each other forever
-/

set_option linter.unusedSectionVars false
set_option synthInstance.maxSize 1000

namespace Tophat
open Spec

section
variable {α : Type} [AsyncBufRead α] [LawfulBufRead α] {β : Type} [AsyncBufRead β] [LawfulBufRead β]

/-- What the server makes of a `Requestable` request. -/
theorem exch_of {env : Env} {n : Nat} {req : ClientRequest α} {t : Bytes} {fs : List (Bytes × Bytes)} (hr : Requestable env.uriOk req t fs) (hexp : Expects fs = false) (hfin : fin req.body = none) :
    ∃ hmap, MapOf hmap fs ∧ Exch env n (renderRequest req.method t fs) (rem req.body) req.body ⟨req.method, t, hmap⟩ := by
  have hfirst : ∀ x, FirstHead (renderRequest req.method t fs ++ x) (renderRequest req.method t fs) := firstHead_render hr.method.2 hr.targetOk.1 hr.plain
  have hhas := hasHead_render hr.method.2 hr.targetOk.1 hr.plain hr.few
  obtain ⟨-, v1, v2, v3⟩ := hr.values []
  have hlen : BodyLength fs (some (rem req.body).length) :=
    ((C25_lengths fs).2.1 [] _ _ v2 (by rw [v1]; rfl) (isLength_decimal hr.body.2) _).2 rfl
  have hj : Judged env.uriOk _ _ := .serve hhas hr.method.1 hr.good v3 hr.targetOk.2 hlen
  rcases parseHead_spec env.uriOk (renderRequest req.method t fs) with ⟨f, h1, h2, h3⟩ | ⟨p, fs', h1, h2, h3, h4⟩
  · have := hj.unique h2
    cases f <;> first | exact absurd rfl (h3 _) | (simp only [failVerdict] at this; cases this)
  · have key : ∀ r : BufRd Pipe, p.method = req.method ∧ p.path = t ∧ fs' = fs ∧
        finishDecode env.uriOk (env.pool n) r p = .request ⟨⟨req.method, t, p.acc.headers⟩, .fixed ⟨r, (rem req.body).length⟩, some (rem req.body).length⟩ := by
      intro r
      rcases finishDecode_spec env.uriOk (env.pool n) r h2 h3 h4 with ⟨f, a1, a2, -⟩ | ⟨len, body, a1, a2, a3⟩
      · cases hj.unique a2
      · have := hj.unique a2
        injection this with e1 e2 e3 e4 e5
        subst e4
        rcases a3 with ⟨k, rfl, rfl⟩ | ⟨rfl, -⟩
        · injection e5 with e5
          subst e5
          exact ⟨e2.symm, e3.symm, rfl, by rw [a1, e2, e3]⟩
        · cases e5
    obtain ⟨e1, e2, e3, -⟩ := key ⟨⟨[]⟩, []⟩
    subst e3
    exact ⟨p.acc.headers, h4.headers, ⟨rfl, hfin⟩, hfirst, p, h1, by rw [interimBytes_eq h4, hexp]; rfl, fun r => (key r).2.2.2⟩

/-- The encoder of a `Requestable` request. -/
theorem encoder_of {uriOk : Bytes → Bool} {req : ClientRequest α} {t : Bytes} {fs : List (Bytes × Bytes)} (hr : Requestable uriOk req t fs) :
    ∃ enc, ClientEncoder.encode req = .ret (.ok enc) ∧ ClientEncoder.Inv (renderRequest req.method t fs) req.body enc [] := by
  have he := encode_spec req
  rw [hr.head] at he
  refine ⟨_, he, ?_⟩
  refine ⟨rfl, Nat.zero_le _, rfl, fun _ => ⟨?_, rfl, rfl, rfl⟩, by simp⟩
  show 0 < (renderRequest req.method t fs).length
  unfold renderRequest
  simp only [List.length_append]
  have : (ascii "\r\n").length = 2 := rfl
  omega

/-- **C86.**  A tophat client connected to a tophat server by two pipes, whatever their capacities, each of them polled again and again, in whatever order: nothing panics, and after some time the exchange is over: the server has
sent its response, and the client has all of it, to the last byte.  The endpoint reads the whole body of the request before it answers (`Collects`) with a response that can be sent; the request
is `Requestable` and does not say `expect: 100-continue`. -/
theorem C86_no_deadlock_partial {env : Env} (hx : HexLenOk env.hexLen) {opts : ServerOpts} {n : Nat} {endpoint : Endpoint β} {caps : Caps} (hup : 0 < caps.up) (hdown : 0 < caps.down)
    {req : ClientRequest α} {t : Bytes} {fs : List (Bytes × Bytes)} (hr : Requestable env.uriOk req t fs) (hexp : Expects fs = false) (hfin : fin req.body = none)
    {P : InnerResponse β → Prop} (hP : ∀ resp, P resp → Sendable (env.now n) resp ∧ fin resp.body = none)
    (he : ∀ hmap, MapOf hmap fs → (endpoint ⟨req.method, t, hmap⟩ (some (rem req.body).length)).Collects P (rem req.body))
    {sched : Nat → Who} (hf : Fair sched) :
    ∃ enc, ClientEncoder.encode req = .ret (.ok enc) ∧ (∀ k, ∃ s, (Duplex.start enc).run env opts n endpoint caps sched k = .ret s) ∧
      ∃ k resp msg, P resp ∧ IsResponse (headOf resp (env.now n)) resp.length (rem resp.body) msg ∧
        ∀ j, k ≤ j → ∃ s, (Duplex.start enc).run env opts n endpoint caps sched j = .ret s ∧ s.Over msg := by
  obtain ⟨enc, e1, e2⟩ := encoder_of hr
  obtain ⟨hmap, m1, hex⟩ := exch_of (n := n) hr hexp hfin
  refine ⟨enc, e1, ?_⟩
  obtain ⟨wt, hw⟩ := weighs_of (fun resp hp => sends_of hx (hP resp hp).1 (hP resp hp).2) _ _ (he hmap m1)
  have hstart : ∃ m, DuplexAt env n (renderRequest req.method t fs) (rem req.body) req.body P (endpoint ⟨req.method, t, hmap⟩ (some (rem req.body).length)) m (Duplex.start enc) :=
    ⟨_, _, _, [], [], [], .sending (CopyAt.init e2) (Nat.le_refl _), .decoding noHead_nil rfl hw (Nat.le_refl _), rfl, Nat.le_refl _⟩
  obtain ⟨m, hstart⟩ := hstart
  constructor
  · have key : ∀ k, ∃ s m, (Duplex.start enc).run env opts n endpoint caps sched k = .ret s ∧
        DuplexAt env n (renderRequest req.method t fs) (rem req.body) req.body P (endpoint ⟨req.method, t, hmap⟩ (some (rem req.body).length)) m s := by
      intro k
      induction k with
      | zero => exact ⟨_, m, rfl, hstart⟩
      | succ k ih =>
        obtain ⟨s, m, i1, i2⟩ := ih
        obtain ⟨s', c1, c2⟩ := duplex_step (opts := opts) (caps := caps) hex i2 (sched k)
        simp only [Duplex.run, i1, Run.ret_bind, c1]
        rcases c2 with ⟨m', -, c2⟩ | rfl
        · exact ⟨_, m', rfl, c2⟩
        · exact ⟨_, m, rfl, i2⟩
    exact fun k => (key k).imp fun s h => h.choose_spec.1
  · obtain ⟨k, s, resp, msg, -, h1, h2, h3, h4⟩ := duplex_over (opts := opts) hex hup hdown hf m 0 _ rfl hstart
    refine ⟨k, resp, msg, h2, h3, fun j hj => ?_⟩
    obtain ⟨d, rfl⟩ : ∃ d, j = k + d := ⟨j - k, by omega⟩
    clear hj
    induction d with
    | zero => exact ⟨s, h1, h4⟩
    | succ d ih =>
      obtain ⟨⟨cli, srv, down⟩, i1, ⟨io, i2⟩, i3, i4⟩ := ih
      dsimp only at i2 i3 i4
      subst i2 i3 i4
      show ∃ s, (Duplex.run env opts n endpoint caps sched _ (k + d) >>= _) = _ ∧ _
      rw [i1]
      simp only [Run.ret_bind]
      cases sched (k + d) with
      | client => exact ⟨_, rfl, ⟨io, rfl⟩, by simp, rfl⟩
      | server => exact ⟨_, rfl, ⟨io, rfl⟩, rfl, rfl⟩

/-- **C86**, with what `connect` makes of what it has got: if the response has a declared length and arrives as it is sent (`Transmittable`), then from the bytes that the client has at the end of the exchange, in whatever
pieces and with whatever delays it reads them, `connect` returns the response that the endpoint sent, and reading its body yields the body that the endpoint sent. -/
theorem C86_received_partial {τ : Type} [AsyncRead τ] [LawfulRead τ] {env : Env} (hx : HexLenOk env.hexLen) {opts : ServerOpts} {n : Nat} {endpoint : Endpoint β} {caps : Caps}
    (hup : 0 < caps.up) (hdown : 0 < caps.down)
    {req : ClientRequest α} {t : Bytes} {fs : List (Bytes × Bytes)} (hr : Requestable env.uriOk req t fs) (hexp : Expects fs = false) (hfin : fin req.body = none)
    {P : InnerResponse β → Prop} (hP : ∀ resp, P resp → Transmittable resp (env.now n) ∧ fin resp.body = none ∧ ∃ k, resp.length = some k ∧ 8192 + k < usizeLimit ∧ k ≤ (rem resp.body).length)
    (he : ∀ hmap, MapOf hmap fs → (endpoint ⟨req.method, t, hmap⟩ (some (rem req.body).length)).Collects P (rem req.body))
    {sched : Nat → Who} (hf : Fair sched) :
    ∃ enc, ClientEncoder.encode req = .ret (.ok enc) ∧ ∃ k0 resp k msg, P resp ∧ resp.length = some k ∧
      (∀ j, k0 ≤ j → ∃ s, (Duplex.start enc).run env opts n endpoint caps sched j = .ret s ∧ s.Over msg) ∧
      ∀ {io : τ}, rem io = msg → ∀ (now : Bytes) {pool : Pool}, pool.Ok → ∀ {fuel : Nat}, 2 * (rem io).length + meas io < fuel →
        ∃ rsp, ClientDecode.decode now pool fuel io = .ret (.done (.ok rsp)) ∧ rsp.status = resp.status ∧ MapOf rsp.headers (sentFields resp.headers (some k) (env.now n)) ∧ rsp.length = some k ∧
          ∀ ks, ∃ b ps, polls rsp.body ks = .ret (b, ps) ∧ received ps <+: (rem resp.body).take k ∧ (∀ x, .err x ∉ ps) ∧
            ((∀ k ∈ ks, 0 < k) → SawEof ps → received ps = (rem resp.body).take k) ∧ ((∀ k ∈ ks, 0 < k) → k + meas io < ks.length → SawEof ps) := by
  obtain ⟨enc, h1, -, k0, resp, msg, h2, h3, h4⟩ := C86_no_deadlock_partial hx (opts := opts) (n := n) (endpoint := endpoint) hup hdown hr hexp hfin (P := P)
    (fun resp hp => by
      obtain ⟨a1, a2, k, a3, a4, a5⟩ := hP resp hp
      exact ⟨⟨a1.wf, by rw [a3]; exact ⟨a4, a5⟩⟩, a2⟩) he hf
  obtain ⟨a1, a2, k, a3, a4, a5⟩ := hP resp h2
  refine ⟨enc, h1, k0, resp, k, msg, h2, a3, h4, ?_⟩
  intro io hio now pool hp fuel hfuel
  -- the same bytes, as `send` writes them to a transport that takes everything
  have hlim : ∀ n, resp.length = some n → 8192 + n < usizeLimit := fun m hm => by rw [a3] at hm; injection hm with hm; omega
  obtain ⟨bound, hb⟩ := C10_send_returns_partial hx (resp := resp) (now := env.now n) a1.wf hlim ⟨[], [], 0⟩ (by rw [a3]; exact .inl a5)
  obtain ⟨w', r, hs, hrun⟩ := hb (bound + 1) (by omega)
  obtain ⟨amt, msg', rfl, k1, k2⟩ := sendFully_whole hx (n := n) (fuel := bound + 1) a1.wf a2 hlim (w := ⟨[], [], 0⟩) (r := r) (w' := w') (by intro e he; cases he) (by
    unfold sendFully
    rw [hs]
    simp only [Run.ret_bind, if_neg hrun])
  obtain ⟨msg'', q1, -, q2, -⟩ := C10_bytes_written hx a1.wf hlim hs
  have hmsg : w'.got ++ [] = msg := by
    rw [List.append_nil, q1]
    rw [a3] at q2 h3
    have e1 : msg'' = headOf resp (env.now n) ++ (rem resp.body).take k := q2
    have e2 : msg = headOf resp (env.now n) ++ (rem resp.body).take k := h3
    rw [e1, e2]
    rfl
  obtain ⟨rsp, g1, g2, g3, -, g5, g6⟩ := C55_round_trip hx a1 a3 a4 rfl hs (hio.trans hmsg.symm) now hp hfuel
  exact ⟨rsp, g1, g2, g3, g5, g6⟩

/-- C86 is false of the code for endpoints that answer before they have read the request's body: if the body is larger than what the connection and tophat's buffer hold, and the response is larger than
what the connection holds, the client waits until the server reads, the server waits until the client reads, and no schedule helps. -/
theorem C86_stuck {env : Env} (hx : HexLenOk env.hexLen) {opts : ServerOpts} {n : Nat} {endpoint : Endpoint β} {caps : Caps}
    {req : ClientRequest α} {t : Bytes} {fs : List (Bytes × Bytes)} (hr : Requestable env.uriOk req t fs) (hexp : Expects fs = false) (hfin : fin req.body = none)
    (hlong : 8192 + caps.up < (rem req.body).length)
    (he : ∀ hmap, MapOf hmap fs → ∃ resp onOk onErr, endpoint ⟨req.method, t, hmap⟩ (some (rem req.body).length) = .send resp onOk onErr ∧ Sendable (env.now n) resp ∧ fin resp.body = none ∧
      ∀ msg, IsResponse (headOf resp (env.now n)) resp.length (rem resp.body) msg → caps.down < msg.length)
    (sched : Nat → Who) :
    ∃ enc, ClientEncoder.encode req = .ret (.ok enc) ∧
      ∀ k, ∃ s, (Duplex.start enc).run env opts n endpoint caps sched k = .ret s ∧ (∃ c, s.cli = .sending c) ∧ ∀ io, s.srv ≠ .done io := by
  obtain ⟨enc, e1, e2⟩ := encoder_of hr
  obtain ⟨hmap, m1, hex⟩ := exch_of (n := n) hr hexp hfin
  refine ⟨enc, e1, ?_⟩
  obtain ⟨resp, onOk, onErr, a1, a2, a3, a4⟩ := he hmap m1
  obtain ⟨r, I, work, F, s1, s2, -, s4⟩ := sends_of hx a2 a3
  generalize hH : renderRequest req.method t fs = H at *
  have cspec := (ClientEncoder.encSpec H req.body).mono (E' := fun _ _ => False) (fun _ x hx => by rw [hfin] at hx; cases hx) id
  have key : ∀ k, ∃ s : Duplex α β, (Duplex.start enc).run env opts n endpoint caps sched k = .ret s ∧ s.srv.io.inside.length ≤ caps.up ∧ s.down.length ≤ caps.down ∧
      ∃ c out sent, s.cli = .sending c ∧ CopyAt (ClientEncoder.Inv H req.body) c out sent ∧
        ((∃ buf nread ins, s.srv = .decoding (.head ⟨⟨ins⟩, []⟩ buf nread) ∧ NoHead buf ∧ sent = buf ++ ins ∧ s.down = []) ∨
         (∃ b ins m, s.srv = .running (.send resp onOk onErr) (.fixed ⟨⟨⟨ins⟩, b⟩, m⟩) ∧ b.length ≤ 8192 ∧ sent = H ++ (b ++ ins) ∧ s.down = []) ∨
         (∃ e out' b ins m, s.srv = .sending e (.fixed ⟨⟨⟨ins⟩, b⟩, m⟩) ∧ b.length ≤ 8192 ∧ sent = H ++ (b ++ ins) ∧ CopyAt I e out' s.down)) := by
    intro k
    induction k with
    | zero => exact ⟨_, rfl, Nat.zero_le _, Nat.zero_le _, _, _, _, rfl, CopyAt.init e2, .inl ⟨[], 0, [], rfl, noHead_nil, rfl, rfl⟩⟩
    | succ k ih =>
      obtain ⟨⟨cli, srv, down⟩, i1, i2, i3, c, out, sent, i4, i5, i6⟩ := ih
      dsimp only at i2 i3 i4 i6
      subst i4
      show ∃ s, (Duplex.run env opts n endpoint caps sched _ k >>= _) = _ ∧ _
      rw [i1]
      simp only [Run.ret_bind]
      cases sched k with
      | client =>
        obtain ⟨c', r, bs, k1, k2, k3⟩ := copyStep_spec cspec i5 (caps.up - srv.io.inside.length)
        simp only [Duplex.step, Duplex.clientStep, k1, Run.ret_bind]
        cases r with
        | err x => exact k3.elim
        | ok amt =>
          exfalso
          obtain ⟨⟨k3, -⟩, -⟩ := k3
          have hlen := congrArg List.length k3
          rw [List.length_append] at hlen
          rcases i6 with ⟨buf, nread, ins, rfl, j1, j2, -⟩ | ⟨b, ins, m, rfl, j1, j2, -⟩ | ⟨e, out', b, ins, m, rfl, j1, j2, -⟩
          · have : ins.length ≤ caps.up := i2
            have hlt : buf.length < H.length := by
              apply Nat.lt_of_not_le
              intro hle
              exact j1 H (List.prefix_of_prefix_length_le (⟨_, k3.symm⟩ : H <+: sent) ⟨_, j2.symm⟩ hle) (hex.first []).2.1
            rw [j2, List.length_append] at hlen
            omega
          · have : ins.length ≤ caps.up := i2
            rw [j2, List.length_append, List.length_append] at hlen
            omega
          · have : ins.length ≤ caps.up := i2
            rw [j2, List.length_append, List.length_append] at hlen
            omega
        | running =>
          have fd : (srv.feed bs).io.inside = srv.io.inside ++ bs := by
            rcases i6 with ⟨buf, nread, ins, rfl, -⟩ | ⟨b, ins, m, rfl, -⟩ | ⟨e, out', b, ins, m, rfl, -⟩ <;> rfl
          refine ⟨_, rfl, ?_, i3, ?_⟩
          · rw [fd, List.length_append]; omega
          · have hc : ∃ out', CopyAt (ClientEncoder.Inv H req.body) c' out' (sent ++ bs) := by
              rcases k3 with ⟨-, -, rfl, rfl⟩ | ⟨out', k3, -⟩
              · exact ⟨out, by simpa using i5⟩
              · exact ⟨out', k3⟩
            obtain ⟨out'', hc⟩ := hc
            refine ⟨c', out'', sent ++ bs, rfl, hc, ?_⟩
            rcases i6 with ⟨buf, nread, ins, rfl, j1, j2, j3⟩ | ⟨b, ins, m, rfl, j1, j2, j3⟩ | ⟨e, out', b, ins, m, rfl, j1, j2, j3⟩
            · exact .inl ⟨buf, nread, ins ++ bs, rfl, j1, by rw [j2, List.append_assoc], j3⟩
            · exact .inr (.inl ⟨b, ins ++ bs, m, rfl, j1, by rw [j2]; simp, j3⟩)
            · exact .inr (.inr ⟨e, out', b, ins ++ bs, m, rfl, j1, by rw [j2]; simp, j3⟩)
      | server =>
        rcases i6 with ⟨buf, nread, ins, rfl, j1, j2, j3⟩ | ⟨b, ins, m, rfl, j1, j2, j3⟩ | ⟨e, out', b, ins, m, rfl, j1, j2, j3⟩
        · subst j3
          have i2' : ins.length ≤ caps.up := i2
          unfold Duplex.step Duplex.serverStep
          dsimp only [DecFut.io]
          simp only [DecFut.poll]
          rcases headGo_pipe (ins.length + 2) ⟨ins⟩ [] buf nread j1 (by simp only [List.length_nil]; omega) (by simp) with ⟨nr, k1, k2, k3⟩ | ⟨p', b', hh, k1, k2, k3, k4⟩
          · rw [k1]
            simp only [Run.ret_bind, List.nil_append, List.append_nil] at k2 ⊢
            exact ⟨_, rfl, Nat.zero_le _, Nat.zero_le _, c, out, sent, rfl, i5, .inl ⟨_, nr, [], rfl, k2, by rw [j2]; simp, rfl⟩⟩
          · rw [k1]
            simp only [Run.ret_bind, List.nil_append] at k2 k3 ⊢
            have hsent : sent <+: H ++ rem req.body := List.IsPrefix.trans ⟨_, i5.rest.symm⟩ i5.inv.out
            have hh' : hh = H := by
              rw [← j2] at k2
              have hW : FirstHead (H ++ rem req.body) hh := ⟨k2.1.trans hsent, k2.2⟩
              exact hW.unique (hex.first _)
            subst hh'
            obtain ⟨p, q1, q2, q3⟩ := hex.parsed
            rw [q1]
            have hint : ∀ wr : Writer, pollInterim env.uriOk (env.pool n) (⟨p', b'⟩ : BufRd Pipe) p [] wr =
                .ret (wr, .ready (.request ⟨⟨req.method, t, hmap⟩, .fixed ⟨⟨p', b'⟩, (rem req.body).length⟩, some (rem req.body).length⟩)) := by
              intro wr
              unfold pollInterim writeAll
              simp only [writeAllGo, if_true, Run.ret_bind, q3]
            simp only [q2, hint, Run.ret_bind, List.append_nil, SrvTask.decoded, a1]
            obtain ⟨i'⟩ := p'
            have hlen : i'.length ≤ ins.length := by
              have hlt : buf.length < hh.length := by
                apply Nat.lt_of_not_le
                intro hle
                exact j1 hh (List.prefix_of_prefix_length_le k2.1 (List.prefix_append _ _) hle) k2.2.1
              have := congrArg List.length k3
              simp only [List.length_append] at this
              omega
            exact ⟨_, rfl, by show i'.length ≤ _; omega, Nat.zero_le _, c, out, sent, rfl, i5, .inr (.inl ⟨b', i', _, rfl, k4, by rw [j2]; exact k3, rfl⟩)⟩
        · subst j3
          exact ⟨_, rfl, i2, Nat.zero_le _, c, out, sent, rfl, i5, .inr (.inr ⟨_, _, b, ins, m, rfl, j1, j2, CopyAt.init s2⟩)⟩
        · obtain ⟨e', r, bs, k1, k2, k3⟩ := copyStep_spec s1 j3 (caps.down - down.length)
          simp only [Duplex.step, Duplex.serverStep, k1, Run.ret_bind]
          cases r with
          | err x => exact k3.elim
          | ok amt =>
            exfalso
            have := a4 _ (s4 _ k3.1)
            omega
          | running =>
            refine ⟨_, rfl, i2, by rw [List.length_append]; omega, c, out, sent, rfl, i5, .inr (.inr ?_)⟩
            rcases k3 with ⟨-, -, rfl, rfl⟩ | ⟨out', k3, -⟩
            · exact ⟨e', _, b, ins, m, rfl, j1, j2, by simpa using j3⟩
            · exact ⟨e', out', b, ins, m, rfl, j1, j2, k3⟩
  intro k
  obtain ⟨s, h1, -, -, c, out, sent, h2, -, h3⟩ := key k
  refine ⟨s, h1, ⟨c, h2⟩, fun io => ?_⟩
  rcases h3 with ⟨_, _, _, h3, _⟩ | ⟨_, _, _, h3, _⟩ | ⟨_, _, _, _, _, h3, _⟩ <;> rw [h3] <;> simp

end

/-! ## An endpoint that awaits the body -/

/-- Awaiting the whole body with `into_bytes`, and then answering. -/
theorem readAll_collects {σ : Type} {grow : Nat → Nat → Nat} (hg : GrowOk grow) {P : InnerResponse σ → Prop} {onEnd : Bytes → Prog σ} {onErr : IoErr → Prog σ} {late : Prog σ} (fuel : Nat) :
    ∀ {s : ToEnd} {left : Bytes}, s.got.length ≤ s.len → left.length < fuel → (onEnd (s.got ++ left)).Collects P [] →
    (Prog.readAll grow onEnd onErr late fuel s).Collects P left := by
  induction fuel with
  | zero => intro s left _ h; omega
  | succ fuel ih =>
    intro s left hs hf ho
    have hle : (s.room grow).got.length ≤ (s.room grow).len := by
      unfold ToEnd.room
      split
      · dsimp only
        have := hg s.cap s.len
        split <;> omega
      · exact hs
    have hlt := room_lt hg s hle
    refine ⟨by omega, fun bs rest h1 h2 h3 => ?_⟩
    cases bs with
    | nil =>
      obtain rfl := h3 rfl
      subst h1
      simpa [room_got] using ho
    | cons b bs =>
      refine ih (s := { s.room grow with got := (s.room grow).got ++ b :: bs }) ?_ ?_ ?_
      · simp only [List.length_append]; omega
      · rw [h1] at hf
        simp only [List.length_append, List.length_cons] at hf
        omega
      · rw [room_got, List.append_assoc, ← h1]
        exact ho

/-- **C86**, for an endpoint that awaits the body with `into_bytes` and answers with `f` of it: over pipes of whatever capacities, and whatever the order of the polls, the client gets `f` of the body that it sent. -/
theorem C86_computing {α : Type} [AsyncBufRead α] [LawfulBufRead α] {env : Env} (hx : HexLenOk env.hexLen) {opts : ServerOpts} {n : Nat} {caps : Caps} (hup : 0 < caps.up) (hdown : 0 < caps.down)
    {req : ClientRequest α} {t : Bytes} {fs : List (Bytes × Bytes)} (hr : Requestable env.uriOk req t fs) (hexp : Expects fs = false) (hfin : fin req.body = none)
    {grow : Nat → Nat → Nat} (hg : GrowOk grow) {f : Bytes → Bytes} {text : IoErr → Bytes} {late : Prog Cursor} {fuel : Nat} (hfuel : (rem req.body).length < fuel)
    (hlim : 8192 + (f (rem req.body)).length < usizeLimit) {sched : Nat → Who} (hf : Fair sched) :
    ∃ enc, ClientEncoder.encode req = .ret (.ok enc) ∧
      ∃ k, ∀ j, k ≤ j → ∃ s, (Duplex.start enc).run env opts n (computing grow f text late fuel) caps sched j = .ret s ∧
        s.Over (responseHead .http11 200 [] (some (f (rem req.body)).length) (env.now n) ++ f (rem req.body)) := by
  obtain ⟨enc, h1, -, k, resp, msg, rfl, h3, h4⟩ := C86_no_deadlock_partial hx (opts := opts) (n := n) (endpoint := computing grow f text late fuel) hup hdown hr hexp hfin
    (P := fun resp => resp = ⟨200, [], .http11, ⟨f (rem req.body)⟩, some (f (rem req.body)).length⟩)
    (by rintro resp rfl; exact ⟨⟨HeaderMap.wf_nil, hlim, Nat.le_refl _⟩, rfl⟩)
    (fun hmap _ => readAll_collects hg fuel (by simp [ToEnd.new]) hfuel ⟨rfl, by simp [ToEnd.new]⟩) hf
  refine ⟨enc, h1, k, fun j hj => ?_⟩
  have h3' : msg = responseHead .http11 200 [] (some (f (rem req.body)).length) (env.now n) ++ (f (rem req.body)).take (f (rem req.body)).length := h3
  rw [List.take_length] at h3'
  rw [← h3']
  exact h4 j hj

/-! ## Examples -/

/-- A schedule: one after the other. -/
def alternate (k : Nat) : Who := if k % 2 = 0 then .client else .server

theorem alternate_fair : Fair alternate := by
  intro who n
  cases who with
  | client => exact ⟨2 * n, by omega, by simp [alternate]⟩
  | server => exact ⟨2 * n + 1, by omega, by simp only [alternate]; rw [if_neg (by omega)]⟩

/-- The endpoint of `reading` reads a body of at most `ks.length` bytes. -/
theorem reading_collects (ks : List Nat) (hk : ∀ k ∈ ks, 0 < k) : ∀ (acc left : Bytes), left.length ≤ ks.length →
    (readThenSend ks acc).Collects (fun resp => resp = ⟨200, [], .http11, ⟨acc ++ left⟩, some (acc ++ left).length⟩) left := by
  induction ks with
  | nil =>
    intro acc left h
    have : left = [] := List.length_eq_zero_iff.1 (by simpa using h)
    subst this
    exact ⟨rfl, by simp⟩
  | cons k ks ih =>
    intro acc left h
    refine ⟨hk k (by simp), fun bs rest h1 h2 h3 => ?_⟩
    have := ih (fun k h => hk k (by simp [h])) (acc ++ bs) rest (by
      rw [h1] at h
      simp only [List.length_append, List.length_cons] at h
      cases bs with
      | nil => rw [h3 rfl]; simp
      | cons => simp only [List.length_cons] at h; omega)
    rw [h1]
    simpa using this

/-- The hypotheses of `C86_no_deadlock_partial` can be met: pipes that hold one byte, the request `demoRequest`, an endpoint that reads five times, each of the two polled in turn. -/
example : ∃ enc, ClientEncoder.encode demoRequest = .ret (.ok enc) ∧ ∃ k msg, IsResponse (responseHead .http11 200 [] (some 5) (ascii "NOW")) (some 5) (ascii "hello") msg ∧
    ∀ j, k ≤ j → ∃ s, (Duplex.start enc).run demoEnv plainOpts 0 (reading [3, 3, 3, 3, 3]) ⟨1, 1⟩ alternate j = .ret s ∧ s.Over msg := by
  have hb : rem demoRequest.body = ascii "hello" := by decide
  obtain ⟨enc, h1, -, k, resp, msg, rfl, h3, h4⟩ := C86_no_deadlock_partial exactHexLen_ok (opts := plainOpts) (n := 0) (endpoint := reading [3, 3, 3, 3, 3]) (caps := ⟨1, 1⟩) (by decide) (by decide)
    demoRequest_ok (by decide +kernel) (by decide)
    (P := fun resp => resp = ⟨200, [], .http11, ⟨ascii "hello"⟩, some (ascii "hello").length⟩)
    (by rintro resp rfl; exact ⟨⟨HeaderMap.wf_nil, by decide, by decide⟩, rfl⟩)
    (fun hmap _ => by rw [hb]; exact reading_collects _ (by decide) [] _ (by decide)) alternate_fair
  exact ⟨enc, h1, k, msg, h3, h4⟩

/-- What the client has heard after `k` steps, and whether the server is done. -/
def heardAfter (caps : Caps) (k : Nat) : Run (Option (Option Bytes × Bool)) := do
  match ← ClientEncoder.encode demoRequest with
  | .ok enc => do
    let s : Duplex Script Cursor ← (Duplex.start enc).run demoEnv plainOpts 0 (reading [3, 3, 3, 3, 3]) caps alternate k
    .ret (some (match s.cli with | .listening heard => some heard | _ => none, match s.srv with | .done _ => true | _ => false))
  | _ => .ret none

/-- Such an exchange, over pipes that hold 60 bytes. -/
example : heardAfter ⟨60, 60⟩ 30 = .ret (some (some (responseHead .http11 200 [] (some 5) (ascii "NOW") ++ ascii "hello"), true)) := by decide +kernel

/-- A request with a body of `N` zeros. -/
def bulky (N : Nat) : ClientRequest Cursor where
  method := ascii "POST"
  uri := ⟨ascii "/a", none, some (ascii "h.org"), none⟩
  headers := []
  body := ⟨List.replicate N 0⟩
  length := some N

/-- An endpoint that answers at once, with `N` zeros. -/
def hasty (N : Nat) : Endpoint Cursor := fun _ _ => .send ⟨200, [], .http11, ⟨List.replicate N 0⟩, some N⟩ (fun _ => .ok) fun _ => .glitch .new

/-- The fields of `bulky`. -/
def bulkyFields (N : Nat) : List (Bytes × Bytes) := [(ascii "host", ascii "h.org"), (ascii "content-length", decimal N)]

theorem bulky_ok {N : Nat} (h : N < 2 ^ 64) : Requestable demoEnv.uriOk (bulky N) (ascii "/a") (bulkyFields N) := by
  have tok : ∀ n : Bytes, (n.all fun b => isTokenByte b) = true → ∀ b ∈ n, tokenByte b := fun n h b hb => (Httparse.isTokenByte_iff b).1 (List.all_eq_true.1 h b hb)
  have hlen : (rem (bulky N).body).length = N := List.length_replicate
  refine ⟨⟨(by decide : ascii "POST" ≠ []), tok (ascii "POST") (by decide)⟩, rfl, ⟨?_, by decide +kernel⟩, (HeaderMap.plain_ok (m := []) (by decide)).1, (HeaderMap.plain_ok (m := []) (by decide)).2, ?_, rfl, rfl,
    ⟨by rw [hlen]; rfl, by rw [hlen]; exact h⟩, by rw [hlen]; rfl, by simp [bulkyFields]⟩
  · unfold targetByte; decide
  · intro a ha
    have : a = ascii "h.org" := by
      have e : authority (bulky N).uri = some (ascii "h.org") := by
        show authority ⟨ascii "/a", none, some (ascii "h.org"), none⟩ = _
        decide +kernel
      rw [e] at ha; injection ha with ha; exact ha.symm
    subst this
    unfold PlainField
    refine ⟨by decide, tok _ (by decide), ?_, ?_⟩
    · unfold valueByte; decide
    · intro b hb
      have e : (ascii "h.org").head? = some 104 := by decide
      have hb' : (ascii "h.org").head? = some b := hb
      rw [e] at hb'; injection hb' with hb'; subst hb'; decide

/-- C86 is false of the code for endpoints that answer before they have read the body: whatever the capacities of the connection, there are a request and a response with which, under every schedule, the client is
sending for ever and the server never done. -/
theorem C86_refuted (caps : Caps) (h1 : caps.up < 2 ^ 63) (h2 : caps.down < 2 ^ 63) : ∃ (req : ClientRequest Cursor) (endpoint : Endpoint Cursor) (t : Bytes) (fs : List (Bytes × Bytes)),
    Requestable demoEnv.uriOk req t fs ∧ Expects fs = false ∧ fin req.body = none ∧
    (∀ head len, ∃ resp onOk onErr, endpoint head len = .send resp onOk onErr ∧ Sendable (demoEnv.now 0) resp ∧ fin resp.body = none) ∧
    ∃ enc, ClientEncoder.encode req = .ret (.ok enc) ∧ ∀ sched k, ∃ s, (Duplex.start enc).run demoEnv plainOpts 0 endpoint caps sched k = .ret s ∧ ∀ msg, ¬ s.Over msg := by
  have hr := bulky_ok (N := caps.up + 8193) (by omega)
  have hx : Expects (bulkyFields (caps.up + 8193)) = false := by
    unfold Expects valuesOf bulkyFields
    simp only [List.filter, show (lower (ascii "host") == ascii "expect") = false by decide, show (lower (ascii "content-length") == ascii "expect") = false by decide]
    decide
  have hs : Sendable (demoEnv.now 0) (⟨200, [], .http11, ⟨List.replicate (caps.down + 1) 0⟩, some (caps.down + 1)⟩ : InnerResponse Cursor) :=
    ⟨HeaderMap.wf_nil, by unfold usizeLimit; omega, by show _ ≤ (List.replicate (caps.down + 1) (0 : UInt8)).length; simp⟩
  have hstuck := C86_stuck exactHexLen_ok (env := demoEnv) (opts := plainOpts) (n := 0) (endpoint := hasty (caps.down + 1)) (caps := caps) hr hx rfl
    (by show _ < (List.replicate (caps.up + 8193) (0 : UInt8)).length; simp; omega)
    (fun hmap _ => ⟨_, _, _, rfl, hs, rfl, fun msg hm => by
      have hm' : msg = _ ++ (List.replicate (caps.down + 1) (0 : UInt8)).take (caps.down + 1) := hm
      rw [hm']
      simp
      omega⟩)
  refine ⟨bulky (caps.up + 8193), hasty (caps.down + 1), _, _, hr, hx, rfl, fun head len => ⟨_, _, _, rfl, hs, rfl⟩, ?_⟩
  obtain ⟨enc, e1, -⟩ := encoder_of hr
  refine ⟨enc, e1, fun sched k => ?_⟩
  obtain ⟨enc', g1, g2⟩ := hstuck sched
  rw [e1] at g1
  injection g1 with g1
  injection g1 with g1
  subst g1
  obtain ⟨s, g3, -, g4⟩ := g2 k
  exact ⟨s, g3, fun msg ho => ho.1.elim fun io hio => g4 io hio⟩

end Tophat
