import Verif.Props.Identity
import Verif.Props.RoutedExchange
/-!
# Property C83: a user who has logged in is recognised, over the network
-/

set_option linter.unusedSectionVars false
set_option synthInstance.maxSize 1000

namespace Tophat
open Spec

section
variable {α : Type} [AsyncBufRead α] [LawfulBufRead α] {β : Type} [AsyncBufRead β] [LawfulBufRead β] {ρ : Type} [AsyncRead ρ] [LawfulRead ρ] {τ : Type} [AsyncRead τ] [LawfulRead τ]

/-- A client and a server are connected, and do what they do: the client writes its request to `w`, which becomes `w'`; the server, with its `n`-th request on the connection `c`, which becomes
`c'`, runs the endpoint; what the client has written arrives at the server, and what the server has written at the client (on `io`), in any fragments; the transport does not fail, and the client
waits long enough for the response. -/
structure Exchange (env : Env) (opts : ServerOpts) (endpoint : Endpoint β) (n : Nat) (pool : Pool) (cfuel cfuel' : Nat) (req : ClientRequest α) (io : τ) (w w' : Writer) (c c' : Conn ρ) : Prop where
  pool : pool.Ok
  fresh : w.got = []
  sent : clientSend cfuel req w = .ret (w', .sent)
  patient : 2 * (rem io).length + meas io < cfuel'
  unanswered : c.wr.got = []
  reliable : c.wr.Reliable
  timely : NoTimeout opts c
  served : ∃ sfuel ev res, acceptStep env opts endpoint sfuel n c = .ret (c', ev, res)
  up : ∃ x, rem c.rd = w'.got ++ x
  down : ∃ y, rem io = c'.wr.got ++ y

/-- `C65_exchange_partial` in these terms. -/
theorem Exchange.result {env : Env} (hx : HexLenOk env.hexLen) {opts : ServerOpts} {endpoint : Endpoint β} {n : Nat} {pool : Pool} {cfuel cfuel' : Nat} {req : ClientRequest α} {io : τ} {w w' : Writer}
    {c c' : Conn ρ} (h : Exchange env opts endpoint n pool cfuel cfuel' req io w w' c c') {t : Bytes} {fs : List (Bytes × Bytes)} (hr : Requestable env.uriOk req t fs) (hexp : Expects fs = false)
    {P : InnerResponse β → Prop} (hP : ∀ resp, P resp → Transmittable resp (env.now n) ∧ fin resp.body = none ∧ ∃ k, resp.length = some k ∧ 8192 + k < usizeLimit)
    (he : ∀ hmap, MapOf hmap fs → (endpoint ⟨req.method, t, hmap⟩ (some (rem req.body).length)).AnswersTo P (meas c.rd + c.wr.script.length) (rem req.body)) (now : Bytes) :
    ∃ resp k rsp, P resp ∧ resp.length = some k ∧ connect now pool cfuel cfuel' req io w = .ret (w', .done (.ok rsp)) ∧ rsp.status = resp.status ∧
      MapOf rsp.headers (sentFields resp.headers (some k) (env.now n)) ∧ rsp.length = some k ∧
      ∀ ks, ∃ b ps, polls rsp.body ks = .ret (b, ps) ∧ received ps <+: (rem resp.body).take k ∧ (∀ x, .err x ∉ ps) ∧
        ((∀ k ∈ ks, 0 < k) → SawEof ps → received ps = (rem resp.body).take k) ∧ ((∀ k ∈ ks, 0 < k) → k + meas io < ks.length → SawEof ps) := by
  obtain ⟨sfuel, ev, res, hs⟩ := h.served
  obtain ⟨x, hup⟩ := h.up
  obtain ⟨y, hdown⟩ := h.down
  exact C65_exchange_partial hx hr hexp hP h.pool h.fresh h.sent h.patient h.unanswered h.reliable h.timely he hs hup hdown

end

/-- The endpoint of examples/identity.rs:95-116: it answers with a text that depends on `identity.authorized_user(&req)`, which is asked at `time`. -/
def greeting {σ : Type} (lib : JwtLib) (id : Identity) (time : Nat) (say : Option Bytes → Bytes) (text : IoErr → Bytes) : Endpoint (BodyReader σ) := fun head _ =>
  .send ((freshResponse : Response σ).setText (say (id.authorizedUser lib time head.headers))).toInner (fun _ => .ok) fun x => .glitch (.newWithErr (text x))

/-- A short text arrives. -/
theorem text_transmittable {σ : Type} [AsyncBufRead σ] [LawfulBufRead σ] {now bs : Bytes} (hc : (∀ b ∈ now, valueByte b) ∧ ∀ b, now.head? = some b → b ≠ 32 ∧ b ≠ 9) (hn : now.length ≤ 4096)
    (hb : bs.length < usizeLimit) : Transmittable ((freshResponse : Response σ).setText bs).toInner now := by
  have hd : (decimal bs.length).length ≤ 20 := decimal_length (by omega) (by unfold usizeLimit at hb; omega)
  have hp : HeaderMap.plain [(ascii "content-type", [ascii "text/plain"])] = true := by decide
  have hf : sentFields [(ascii "content-type", [ascii "text/plain"])] (some bs.length) now =
      [(ascii "content-length", decimal bs.length), (ascii "date", now), (ascii "content-type", ascii "text/plain")] := by
    have e1 : HeaderMap.getAll [(ascii "content-type", [ascii "text/plain"])] (ascii "date") = [] := by decide
    have e2 : HeaderMap.getAll [(ascii "content-type", [ascii "text/plain"])] (ascii "content-type") = [ascii "text/plain"] := by decide
    have e3 : (HeaderMap.iter [(ascii "content-type", [ascii "text/plain"])]).filter (fun f => f.1 ≠ ascii "content-length" ∧ f.1 ≠ ascii "transfer-encoding") = [(ascii "content-type", ascii "text/plain")] := by decide
    unfold sentFields framingField
    rw [e1, e2, e3]
    simp
  refine ⟨rfl, ⟨(by decide : (100 : UInt16) ≤ 200), (by decide : (200 : UInt16) < 1000)⟩, (show HeaderMap.WF [(ascii "content-type", [ascii "text/plain"])] from ⟨by decide, by decide⟩), (HeaderMap.plain_ok hp).1, (HeaderMap.plain_ok hp).2, hc, ?_, ?_⟩
  · show (sentFields [(ascii "content-type", [ascii "text/plain"])] (some bs.length) now).length ≤ 128
    rw [hf]; simp
  · show (renderResponseHead .http11 200 (sentFields [(ascii "content-type", [ascii "text/plain"])] (some bs.length) now)).length < 8192
    have h1 : (Version.http11.debug ++ [32] ++ statusDisplay 200 ++ [13, 10]).length < 100 := by decide
    have h2 : (ascii "content-length").length = 14 := by decide
    have h3 : (ascii "date").length = 4 := by decide
    have h4 : (ascii "content-type").length = 12 := by decide
    have h5 : (ascii "text/plain").length = 10 := by decide
    rw [hf]
    unfold renderResponseHead renderFields
    simp only [List.length_append] at h1 ⊢
    simp [h2, h3, h4, h5] at h1 ⊢
    omega

section
variable {α : Type} [AsyncBufRead α] [LawfulBufRead α] {σ : Type} [AsyncBufRead σ] [LawfulBufRead σ] {ρ : Type} [AsyncRead ρ] [LawfulRead ρ] {τ : Type} [AsyncRead τ] [LawfulRead τ]

/-- The cookie arrives. -/
theorem Exchange.cookie {env : Env} (hx : HexLenOk env.hexLen) {opts : ServerOpts} {endpoint : Endpoint (BodyReader σ)} {n : Nat} {pool : Pool} {cf cf' : Nat} {req : ClientRequest α} {io : τ} {w w' : Writer} {c c' : Conn ρ}
    (h : Exchange env opts endpoint n pool cf cf' req io w w' c c') {t : Bytes} {fs : List (Bytes × Bytes)} (hr : Requestable env.uriOk req t fs) (hexp : Expects fs = false)
    {login : Response σ} {text : Bytes} (g1 : login.headers.getAll (ascii "set-cookie") = [text]) (g4 : login.body = (freshResponse : Response σ).body) (htr : Transmittable login.toInner (env.now n))
    (he : ∀ hmap, MapOf hmap fs → (endpoint ⟨req.method, t, hmap⟩ (some (rem req.body).length)).AnswersTo (· = login.toInner) (meas c.rd + c.wr.script.length) (rem req.body)) (now : Bytes) :
    ∃ rsp, connect now pool cf cf' req io w = .ret (w', .done (.ok rsp)) ∧ rsp.headers.getAll (ascii "set-cookie") = [text] := by
  have hlen : login.toInner.length = some 0 := by
    unfold Response.toInner
    rw [g4]; rfl
  have hbody : login.toInner.body = (Response.toInner (freshResponse : Response σ)).body := by
    unfold Response.toInner
    rw [g4]
  obtain ⟨resp, k, rsp, rfl, h2, h3, -, h5, -⟩ := h.result hx hr hexp (P := (· = login.toInner))
    (by rintro resp rfl; exact ⟨htr, by rw [hbody]; rfl, 0, hlen, by decide⟩) he now
  refine ⟨rsp, h3, ?_⟩
  rw [h5.2]
  have := valuesOf_sent htr.valid (some k) (env.now n) (ascii "set-cookie")
  unfold valuesOf at this
  rw [this]
  have e : login.toInner.headers = login.headers := rfl
  rw [e, g1]
  rw [if_neg (show ¬ (framingField (some k)).1 = ascii "set-cookie" from show ¬ ascii "content-length" = ascii "set-cookie" by decide), if_neg (fun h => absurd h.2 (by decide)), if_pos (by decide), if_neg (fun h => absurd h.2 (by decide))]
  rfl

/-- Whoever is recognised by the cookie is greeted. -/
theorem Exchange.greeted {lib : JwtLib} {id : Identity} {token : Bytes} {env : Env} (hx : HexLenOk env.hexLen) {opts : ServerOpts} {n : Nat} {pool : Pool} {cf cf' : Nat} {req : ClientRequest α} {io : τ} {w w' : Writer} {c c' : Conn ρ}
    {time : Nat} {say : Option Bytes → Bytes} {text : IoErr → Bytes}
    (h : Exchange env opts (greeting (σ := σ) lib id time say text) n pool cf cf' req io w w' c c') {t : Bytes} {fs : List (Bytes × Bytes)} (hr : Requestable env.uriOk req t fs) (hexp : Expects fs = false)
    (hc : (∀ b ∈ env.now n, valueByte b) ∧ ∀ b, (env.now n).head? = some b → b ≠ 32 ∧ b ≠ 9) (hnow : (env.now n).length ≤ 4096) {u : Option Bytes} (hlim : 8192 + (say u).length < usizeLimit)
    (hs : SendsFirst req.headers id.cookieName token) (g6 : ∀ headers, SendsFirst headers id.cookieName token → id.authorizedUser lib time headers = u) (now : Bytes) :
    ∃ rsp, connect now pool cf cf' req io w = .ret (w', .done (.ok rsp)) ∧ rsp.status = 200 ∧ rsp.length = some (say u).length ∧
      ∀ ks, (∀ k ∈ ks, 0 < k) → (say u).length + meas io < ks.length → ∃ b ps, polls rsp.body ks = .ret (b, ps) ∧ received ps = say u := by
  obtain ⟨resp, k, rsp, rfl, k2, k3, k4, -, k5, k6⟩ := h.result hx hr hexp
    (P := (· = ((freshResponse : Response σ).setText (say u)).toInner))
    (by rintro resp rfl; exact ⟨text_transmittable hc hnow (by omega), rfl, _, rfl, hlim⟩)
    (by
      intro hmap hm
      have hck : SendsFirst hmap id.cookieName token := by
        unfold SendsFirst at hs ⊢
        have e := (hr.values (ascii "cookie")).1 (by decide) (by decide) (by decide)
        rw [hm.2]
        unfold valuesOf at e
        rw [e]
        exact hs
      unfold greeting
      rw [show (ReqHead.mk req.method t hmap).headers = hmap from rfl, g6 hmap hck]
      exact ⟨rfl, fun _ => trivial⟩)
    now
  have hk : (say u).length = k := by
    have : some (say u).length = some k := k2
    injection this
  subst hk
  refine ⟨rsp, k3, k4, k5, fun ks hks hlen => ?_⟩
  obtain ⟨b, ps, a1, -, -, a2, a3⟩ := k6 ks
  refine ⟨b, ps, a1, ?_⟩
  rw [a2 hks (a3 hks hlen)]
  exact List.take_length

/-- **C83.**  A client sends a request to an endpoint that answers with `identity.set_auth_token(user, ..)`, at time `issued`.  `connect` returns a response with a cookie.  The client sends another request, with
this cookie (first), to a server with the same identity, perhaps on another connection or another machine, whose endpoint greets `identity.authorized_user(..)` at `time`.  Then the client gets the greeting
for `user` until the token expires, and for nobody after that. -/
theorem C83_session {lib : JwtLib} {id : Identity} (hn : CookieName id.cookieName) {issued : Nat} {user : Bytes}
    -- the first exchange
    {env : Env} (hx : HexLenOk env.hexLen) {opts : ServerOpts} {endpoint : Endpoint (BodyReader σ)} {n : Nat} {pool : Pool} {cf cf' : Nat} {req : ClientRequest α} {io : τ} {w w' : Writer} {c c' : Conn ρ}
    (h : Exchange env opts endpoint n pool cf cf' req io w w' c c') {t : Bytes} {fs : List (Bytes × Bytes)} (hr : Requestable env.uriOk req t fs) (hexp : Expects fs = false)
    {login : Response σ} (hlogin : id.setAuthToken lib issued user freshResponse = .ret login) (htr : Transmittable login.toInner (env.now n))
    (he : ∀ hmap, MapOf hmap fs → (endpoint ⟨req.method, t, hmap⟩ (some (rem req.body).length)).AnswersTo (· = login.toInner) (meas c.rd + c.wr.script.length) (rem req.body)) (now : Bytes) :
    ∃ rsp cookie token, connect now pool cf cf' req io w = .ret (w', .done (.ok rsp)) ∧ login.headers.getAll (ascii "set-cookie") = [cookie] ∧ rsp.headers.getAll (ascii "set-cookie") = [cookie] ∧
      FirstCookie cookie id.cookieName token ∧
      -- the second one
      ∀ {env : Env} (_ : HexLenOk env.hexLen) {opts : ServerOpts} {n : Nat} {pool : Pool} {cf cf' : Nat} {req : ClientRequest α} {io : τ} {w w' : Writer} {c c' : Conn ρ}
        {time : Nat} {say : Option Bytes → Bytes} {text : IoErr → Bytes}
        (_ : Exchange env opts (greeting (σ := σ) lib id time say text) n pool cf cf' req io w w' c c') {t : Bytes} {fs : List (Bytes × Bytes)} (_ : Requestable env.uriOk req t fs) (_ : Expects fs = false)
        (_ : (∀ b ∈ env.now n, valueByte b) ∧ ∀ b, (env.now n).head? = some b → b ≠ 32 ∧ b ≠ 9) (_ : (env.now n).length ≤ 4096) (_ : 8192 + (say (if time ≤ issued + id.expirationTime then some user else none)).length < usizeLimit)
        (_ : SendsFirst req.headers id.cookieName token) (now : Bytes),
        ∃ rsp, connect now pool cf cf' req io w = .ret (w', .done (.ok rsp)) ∧ rsp.status = 200 ∧
          rsp.length = some (say (if time ≤ issued + id.expirationTime then some user else none)).length ∧
          ∀ ks, (∀ k ∈ ks, 0 < k) → (say (if time ≤ issued + id.expirationTime then some user else none)).length + meas io < ks.length →
            ∃ b ps, polls rsp.body ks = .ret (b, ps) ∧ received ps = say (if time ≤ issued + id.expirationTime then some user else none) := by
  obtain ⟨text, token, g1, -, g3, g4, g5, g6⟩ := C46_authorized_partial HeaderMap.wf_nil hlogin
  obtain ⟨rsp, h3, h5⟩ := h.cookie hx hr hexp g1 g4 htr he now
  refine ⟨rsp, text, token, h3, g1, h5, g5 hn, ?_⟩
  intro env hx opts n pool cf cf' req io w w' c c' time say text h t fs hr hexp hc hnow hlim hs now
  exact h.greeted hx hr hexp hc hnow hlim hs (fun headers hh => g6 headers time hh) now

/-- **C83.**  A client that gets the cookie of `identity.forget(..)`, and sends it back, is greeted as nobody, at any time. -/
theorem C83_logout {lib : JwtLib} {id : Identity} (hn : CookieName id.cookieName) {issued : Nat}
    -- the first exchange
    {env : Env} (hx : HexLenOk env.hexLen) {opts : ServerOpts} {endpoint : Endpoint (BodyReader σ)} {n : Nat} {pool : Pool} {cf cf' : Nat} {req : ClientRequest α} {io : τ} {w w' : Writer} {c c' : Conn ρ}
    (h : Exchange env opts endpoint n pool cf cf' req io w w' c c') {t : Bytes} {fs : List (Bytes × Bytes)} (hr : Requestable env.uriOk req t fs) (hexp : Expects fs = false)
    {logout : Response σ} (hlogout : id.forget lib issued freshResponse = .ret logout) (htr : Transmittable logout.toInner (env.now n))
    (he : ∀ hmap, MapOf hmap fs → (endpoint ⟨req.method, t, hmap⟩ (some (rem req.body).length)).AnswersTo (· = logout.toInner) (meas c.rd + c.wr.script.length) (rem req.body)) (now : Bytes) :
    ∃ rsp cookie token, connect now pool cf cf' req io w = .ret (w', .done (.ok rsp)) ∧ logout.headers.getAll (ascii "set-cookie") = [cookie] ∧ rsp.headers.getAll (ascii "set-cookie") = [cookie] ∧
      FirstCookie cookie id.cookieName token ∧
      -- the second one
      ∀ {env : Env} (_ : HexLenOk env.hexLen) {opts : ServerOpts} {n : Nat} {pool : Pool} {cf cf' : Nat} {req : ClientRequest α} {io : τ} {w w' : Writer} {c c' : Conn ρ}
        {time : Nat} (_ : 0 < time) {say : Option Bytes → Bytes} {text : IoErr → Bytes}
        (_ : Exchange env opts (greeting (σ := σ) lib id time say text) n pool cf cf' req io w w' c c') {t : Bytes} {fs : List (Bytes × Bytes)} (_ : Requestable env.uriOk req t fs) (_ : Expects fs = false)
        (_ : (∀ b ∈ env.now n, valueByte b) ∧ ∀ b, (env.now n).head? = some b → b ≠ 32 ∧ b ≠ 9) (_ : (env.now n).length ≤ 4096) (_ : 8192 + (say none).length < usizeLimit)
        (_ : SendsFirst req.headers id.cookieName token) (now : Bytes),
        ∃ rsp, connect now pool cf cf' req io w = .ret (w', .done (.ok rsp)) ∧ rsp.status = 200 ∧ rsp.length = some (say none).length ∧
          ∀ ks, (∀ k ∈ ks, 0 < k) → (say none).length + meas io < ks.length → ∃ b ps, polls rsp.body ks = .ret (b, ps) ∧ received ps = say none := by
  obtain ⟨token, g1, -, -, g4, g5, g6⟩ := C48_forget HeaderMap.wf_nil hlogout
  obtain ⟨rsp, h3, h5⟩ := h.cookie hx hr hexp g1 g4 htr he now
  refine ⟨rsp, _, token, h3, g1, h5, g5 hn, ?_⟩
  intro env hx opts n pool cf cf' req io w w' c c' time ht say text h t fs hr hexp hc hnow hlim hs now
  exact h.greeted hx hr hexp hc hnow hlim hs (fun headers hh => g6 headers time ht hh) now

end

/-! ## A concrete case -/

/-- A client and a server, connected by pieces of 7 bytes. -/
theorem exchange_of {σ : Type} [AsyncBufRead σ] {endpoint : Endpoint σ} {req : ClientRequest Script} {up down : Bytes} (h1 : clientSend 100 req ⟨[], [], 0⟩ = .ret (⟨[], up, up.length⟩, .sent))
    (h2 : (acceptStep demoEnv plainOpts endpoint 1000 0 (connOf (relayed.pieces 100 up)) >>= fun x => .ret x.1.wr.got) = .ret down)
    (h3 : rem (connOf (relayed.pieces 100 up)).rd = up) (h4 : rem ((relayed.pieces 100 down).map Ev.data : Script) = down) (h5 : 2 * down.length + meas ((relayed.pieces 100 down).map Ev.data : Script) < 1000) :
    ∃ c', Exchange demoEnv plainOpts endpoint 0 zeroPool 100 1000 req ((relayed.pieces 100 down).map Ev.data : Script) ⟨[], [], 0⟩ ⟨[], up, up.length⟩ (connOf (relayed.pieces 100 up)) c' := by
  obtain ⟨⟨c', ev, res⟩, a1, a2⟩ := Run.bind_eq_ret.1 h2
  simp only [Run.ret.injEq] at a2
  exact ⟨c', zeroPool_ok, rfl, h1, by rw [h4]; exact h5, rfl, by intro e he; simp [connOf] at he, .inl rfl, ⟨1000, ev, res, a1⟩, ⟨[], by rw [h3, List.append_nil]⟩, ⟨[], by rw [h4, a2, List.append_nil]⟩⟩

/-- The response with which `u` logs in at time 5. -/
def demoLogin : Response Script := ⟨200, [(ascii "set-cookie", [ascii "jwt=xxxxxxxxxxxxxxx.HI.HF.GL; HttpOnly; Path=/; Max-Age=10"])], .http11, .empty⟩

/-- The endpoint that sends it. -/
def loginDemo : Endpoint (BodyReader Script) := fun _ _ => .send demoLogin.toInner (fun _ => .ok) fun _ => .glitch .new

/-- The request of somebody who has logged in. -/
def cookieRequest : ClientRequest Script := { demoRequest with headers := [(ascii "cookie", [ascii "lang=en", ascii "jwt=xxxxxxxxxxxxxxx.HI.HF.GL; a=1"])] }

/-- `Hello ` and the name, or `?`. -/
def hello : Option Bytes → Bytes
  | some u => ascii "Hello " ++ u
  | none => ascii "?"

/-- Its bytes. -/
def cookieUp : Bytes := ascii "POST /a?q=1 HTTP/1.1\r\nhost: h.org:81\r\ncontent-length: 5\r\ncookie: lang=en\r\ncookie: jwt=xxxxxxxxxxxxxxx.HI.HF.GL; a=1\r\n\r\nhello"

/-- What the server answers at `time`. -/
def helloDown (u : Option Bytes) : Bytes := responseHead .http11 200 [(ascii "content-type", [ascii "text/plain"])] (some (hello u).length) (ascii "NOW") ++ hello u

theorem cookieRequest_ok : Requestable demoEnv.uriOk cookieRequest (ascii "/a?q=1")
    [(ascii "host", ascii "h.org:81"), (ascii "content-length", ascii "5"), (ascii "cookie", ascii "lang=en"), (ascii "cookie", ascii "jwt=xxxxxxxxxxxxxxx.HI.HF.GL; a=1")] :=
  ⟨demoRequest_ok.method, demoRequest_ok.target, demoRequest_ok.targetOk, (HeaderMap.plain_ok (by decide +kernel)).1, (HeaderMap.plain_ok (by decide +kernel)).2, demoRequest_ok.host, by decide, by decide,
    demoRequest_ok.body, by decide +kernel, by decide⟩

/-- All hypotheses of `C83_session` are met, at time 15, when the token is still valid, and at time 16, when it is not: `u` logs in at time 5 for 10 seconds. -/
example : ∃ rsp cookie, connect (ascii "NOW") zeroPool 100 1000 demoRequest ((relayed.pieces 100 (responseHead .http11 200 demoLogin.headers (some 0) (ascii "NOW"))).map Ev.data) ⟨[], [], 0⟩ =
      .ret (⟨[], demoUp, demoUp.length⟩, .done (.ok rsp)) ∧ rsp.headers.getAll (ascii "set-cookie") = [cookie] ∧
    (∃ rsp b ps, connect (ascii "NOW") zeroPool 100 1000 cookieRequest ((relayed.pieces 100 (helloDown (some (ascii "u")))).map Ev.data) ⟨[], [], 0⟩ = .ret (⟨[], cookieUp, cookieUp.length⟩, .done (.ok rsp)) ∧
      polls rsp.body (List.replicate 400 9) = .ret (b, ps) ∧ received ps = ascii "Hello u") ∧
    ∃ rsp b ps, connect (ascii "NOW") zeroPool 100 1000 cookieRequest ((relayed.pieces 100 (helloDown none)).map Ev.data) ⟨[], [], 0⟩ = .ret (⟨[], cookieUp, cookieUp.length⟩, .done (.ok rsp)) ∧
      polls rsp.body (List.replicate 400 9) = .ret (b, ps) ∧ received ps = ascii "?" := by
  obtain ⟨c1, x1⟩ := exchange_of (σ := BodyReader Script) (endpoint := loginDemo) (req := demoRequest) (up := demoUp) (down := responseHead .http11 200 demoLogin.headers (some 0) (ascii "NOW"))
    (by decide +kernel) (by decide +kernel) (by decide +kernel) (by decide +kernel) (by decide +kernel)
  obtain ⟨c2, x2⟩ := exchange_of (σ := BodyReader Script) (endpoint := greeting toyJwt demoIdentity 15 hello fun _ => ascii "error") (req := cookieRequest) (up := cookieUp) (down := helloDown (some (ascii "u")))
    (by decide +kernel) (by decide +kernel) (by decide +kernel) (by decide +kernel) (by decide +kernel)
  obtain ⟨c3, x3⟩ := exchange_of (σ := BodyReader Script) (endpoint := greeting toyJwt demoIdentity 16 hello fun _ => ascii "error") (req := cookieRequest) (up := cookieUp) (down := helloDown none)
    (by decide +kernel) (by decide +kernel) (by decide +kernel) (by decide +kernel) (by decide +kernel)
  obtain ⟨rsp, cookie, token, a1, a0, a2, a3, a4⟩ := C83_session (τ := Script) (lib := toyJwt) (id := demoIdentity) (issued := 5) (user := ascii "u") (by unfold CookieName; decide) exactHexLen_ok x1 demoRequest_ok (by decide +kernel)
    (login := demoLogin) (by decide +kernel)
    ⟨rfl, by decide, ⟨by decide, by decide⟩, (HeaderMap.plain_ok (by decide +kernel)).1, (HeaderMap.plain_ok (by decide +kernel)).2, nowOk, by decide, by decide +kernel⟩
    (fun _ _ => ⟨rfl, fun _ => trivial⟩) (ascii "NOW")
  have htok : token = ascii "xxxxxxxxxxxxxxx.HI.HF.GL" := by
    have : cookie = ascii "jwt=xxxxxxxxxxxxxxx.HI.HF.GL; HttpOnly; Path=/; Max-Age=10" := by
      have e : demoLogin.headers.getAll (ascii "set-cookie") = [ascii "jwt=xxxxxxxxxxxxxxx.HI.HF.GL; HttpOnly; Path=/; Max-Age=10"] := by decide +kernel
      have a0 := e.symm.trans a0
      exact (List.cons.inj a0).1.symm
    subst this
    have hp : parseCookie (ascii "jwt=xxxxxxxxxxxxxxx.HI.HF.GL; HttpOnly; Path=/; Max-Age=10") = some (ascii "jwt", ascii "xxxxxxxxxxxxxxx.HI.HF.GL") := by decide +kernel
    exact (firstCookie_unique a3 (parseCookie_iff.1 hp)).2
  subst htok
  have hs : SendsFirst cookieRequest.headers demoIdentity.cookieName (ascii "xxxxxxxxxxxxxxx.HI.HF.GL") := sendsFirst_iff.1 (by decide)
  have hk : ∀ k ∈ List.replicate 400 9, 0 < k := by intro k hk; rw [List.eq_of_mem_replicate hk]; decide
  refine ⟨rsp, cookie, a1, a2, ?_, ?_⟩
  · obtain ⟨rsp2, b1, -, -, b2⟩ := a4 exactHexLen_ok x2 cookieRequest_ok (by decide +kernel) nowOk (by decide) (by decide) hs (ascii "NOW")
    obtain ⟨b, ps, b3, b4⟩ := b2 _ hk (by decide +kernel)
    exact ⟨rsp2, b, ps, b1, b3, by rw [b4]; decide⟩
  · obtain ⟨rsp2, b1, -, -, b2⟩ := a4 exactHexLen_ok x3 cookieRequest_ok (by decide +kernel) nowOk (by decide) (by decide) hs (ascii "NOW")
    obtain ⟨b, ps, b3, b4⟩ := b2 _ hk (by decide +kernel)
    exact ⟨rsp2, b, ps, b1, b3, by rw [b4]; decide⟩

/-- The response with which `u` logs out at time 7. -/
def demoLogout : Response Script := ⟨200, [(ascii "set-cookie", [ascii "jwt=.HI..GL; HttpOnly; Path=/; Max-Age=0"])], .http11, .empty⟩

/-- The hypotheses of `C83_logout` about it. -/
example : demoIdentity.forget toyJwt 7 freshResponse = .ret demoLogout ∧ Transmittable demoLogout.toInner (ascii "NOW") :=
  ⟨by decide +kernel, ⟨rfl, by decide, ⟨by decide, by decide⟩, (HeaderMap.plain_ok (by decide +kernel)).1, (HeaderMap.plain_ok (by decide +kernel)).2, nowOk, by decide, by decide +kernel⟩⟩

end Tophat
