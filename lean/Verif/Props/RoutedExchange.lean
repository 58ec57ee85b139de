import Verif.Props.Router
import Verif.Props.Echo
/-!
# Property C82: a client reaches the handler that is registered for its request
-/

set_option linter.unusedSectionVars false
set_option synthInstance.maxSize 1000

namespace Tophat
open Spec

theorem Prog.AnswersTo.imp {β : Type} {P Q : InnerResponse β → Prop} (hPQ : ∀ r, P r → Q r) (a : Prog β) : ∀ {m : Nat} {left : Bytes}, a.AnswersTo P m left → a.AnswersTo Q m left := by
  induction a with
  | read k next ih => exact fun h => ⟨fun h0 => ih _ (h.1 h0), fun bs rest h1 h2 h3 => ih _ (h.2 bs rest h1 h2 h3)⟩
  | send => exact fun h => ⟨hPQ _ h.1, h.2⟩
  | sendFor => exact fun h => h
  | glitch => exact fun h => h

theorem tokenByte_ne_slash {b : UInt8} (h : tokenByte b) : b ≠ 47 := by rintro rfl; revert h; unfold tokenByte; decide

/-- An empty response without fields arrives as it is sent. -/
theorem empty_transmittable {σ : Type} [AsyncBufRead σ] [LawfulBufRead σ] {now : Bytes} (hc : (∀ b ∈ now, valueByte b) ∧ ∀ b, now.head? = some b → b ≠ 32 ∧ b ≠ 9) (hn : now.length ≤ 4096) :
    Transmittable (Response.toInner { (freshResponse : Response σ) with status := 404 }) now := by
  have hp : HeaderMap.plain [] = true := by decide
  have hf : sentFields [] (some 0) now = [(ascii "content-length", decimal 0), (ascii "date", now)] := by
    unfold sentFields framingField
    simp [HeaderMap.iter, HeaderMap.getAll]
  refine ⟨rfl, ⟨(by decide : (100 : UInt16) ≤ 404), (by decide : (404 : UInt16) < 1000)⟩, HeaderMap.wf_nil, (HeaderMap.plain_ok hp).1, (HeaderMap.plain_ok hp).2, hc, ?_, ?_⟩
  · show (sentFields [] (some 0) now).length ≤ 128
    rw [hf]; simp
  · show (renderResponseHead .http11 404 (sentFields [] (some 0) now)).length < 8192
    have h1 : (Version.http11.debug ++ [32] ++ statusDisplay 404 ++ [13, 10]).length < 100 := by decide
    have h2 : (ascii "content-length").length = 14 := by decide
    have h3 : (ascii "date").length = 4 := by decide
    have h4 : (decimal 0).length = 1 := by decide
    rw [hf]
    unfold renderResponseHead renderFields
    simp only [List.length_append] at h1 ⊢
    simp [h2, h3, h4] at h1 ⊢
    omega

section
variable {α : Type} [AsyncBufRead α] [LawfulBufRead α] {σ : Type} [AsyncBufRead σ] [LawfulBufRead σ] {ρ : Type} [AsyncRead ρ] [LawfulRead ρ] {τ : Type} [AsyncRead τ] [LawfulRead τ]

/-- **C82.**  A tophat client sends a request to a tophat server whose endpoint is a router with the routes `ops`, and a route of the method of the request matches its path.  Then `connect` returns
a response of a handler that is registered for that method, under a pattern that matches, and not replaced by a later registration; the handler has got the parts of the path that the parameters of
its pattern stand for.  (`P e caps` are the responses that the handler `e` may give to this request and body, with the parameters `caps`; the other hypotheses are those of C65.) -/
theorem C82_found {env : Env} (hx : HexLenOk env.hexLen) {opts : ServerOpts} {lib : PathTree} {pathOf : Bytes → Bytes} (hpath : ∀ u, PathText (pathOf u)) {text : IoErr → Bytes}
    {ops : List (BuildOp (ReqHead → Option Nat → Extensions → Prog (BodyReader σ)))} (hops : Plain ops)
    {req : ClientRequest α} {t : Bytes} {fs : List (Bytes × Bytes)} (hr : Requestable env.uriOk req t fs) (hexp : Expects fs = false) {n : Nat}
    {P : (ReqHead → Option Nat → Extensions → Prog (BodyReader σ)) → List (Bytes × Bytes) → InnerResponse (BodyReader σ) → Prop}
    (hP : ∀ e caps resp, P e caps resp → Transmittable resp (env.now n) ∧ fin resp.body = none ∧ ∃ k, resp.length = some k ∧ 8192 + k < usizeLimit)
    -- a route matches
    {p0 : Bytes} {e0 : ReqHead → Option Nat → Extensions → Prog (BodyReader σ)} (hin : (req.method, p0, e0) ∈ routes ops) {caps0 : List (Bytes × Bytes)} (hmt : PatternMatchesNonEmpty p0 (pathOf t) caps0)
    -- the client, and its connection `io`, `w`; it has written its request, and waits long enough for the response
    {now : Bytes} {pool : Pool} (hp : pool.Ok) {cfuel cfuel' : Nat} {w w' : Writer} (hw : w.got = [])
    (hsent : clientSend cfuel req w = .ret (w', .sent)) {io : τ} (hcf : 2 * (rem io).length + meas io < cfuel')
    -- the server, its connection `c`, and what it did
    {sfuel : Nat} {c c' : Conn ρ} (hgot : c.wr.got = []) (hrel : c.wr.Reliable) (ht : NoTimeout opts c) {ev : List Event} {res : Option AcceptRes}
    -- what the handlers do
    (he : ∀ p e, (req.method, p, e) ∈ routes ops → ∀ caps, PatternMatches p (pathOf t) caps → ∀ hmap, MapOf hmap fs → ∀ ext, ext.params = some caps →
      (e ⟨req.method, t, hmap⟩ (some (rem req.body).length) ext).AnswersTo (P e caps) (meas c.rd + c.wr.script.length) (rem req.body))
    (hs : acceptStep env opts ((buildRouter ops).endpoint lib pathOf text) sfuel n c = .ret (c', ev, res))
    -- the connection carries bytes both ways, in any fragments
    {x y : Bytes} (hup : rem c.rd = w'.got ++ x) (hdown : rem io = c'.wr.got ++ y) :
    ∃ before p e after caps resp k rsp, routes ops = before ++ (req.method, p, e) :: after ∧ PatternMatches p (pathOf t) caps ∧ (∀ x ∈ after, x.1 = req.method → ¬ SamePattern x.2.1 p) ∧
      P e caps resp ∧ resp.length = some k ∧ connect now pool cfuel cfuel' req io w = .ret (w', .done (.ok rsp)) ∧
      rsp.status = resp.status ∧ MapOf rsp.headers (sentFields resp.headers (some k) (env.now n)) ∧ rsp.length = some k ∧
      ∀ ks, ∃ b ps, polls rsp.body ks = .ret (b, ps) ∧ received ps <+: (rem resp.body).take k ∧ (∀ x, .err x ∉ ps) ∧
        ((∀ k ∈ ks, 0 < k) → SawEof ps → received ps = (rem resp.body).take k) ∧ ((∀ k ∈ ks, 0 < k) → k + meas io < ks.length → SawEof ps) := by
  have hm : (47 : UInt8) ∉ req.method := fun h => tokenByte_ne_slash (hr.method.2 _ h) rfl
  obtain ⟨resp, k, rsp, ⟨before, p, e, after, caps, q1, q2, q3, q4⟩, h2, h3, h4, h5, h6, h7⟩ := C65_exchange_partial (τ := τ) hx hr hexp (n := n)
    (P := fun resp => ∃ before p e after caps, routes ops = before ++ (req.method, p, e) :: after ∧ PatternMatches p (pathOf t) caps ∧ (∀ x ∈ after, x.1 = req.method → ¬ SamePattern x.2.1 p) ∧ P e caps resp)
    (fun resp ⟨_, _, e, _, caps, _, _, _, h⟩ => hP e caps resp h) (now := now) hp hw hsent hcf hgot hrel ht
    (by
      intro hmap hmap'
      obtain ⟨e1, ext1, h1⟩ := C39_found_partial (lib := lib) (ext := ⟨none, none⟩) (resp := (freshResponse : Response σ)) hops hm (hpath t) hin hmt
      obtain ⟨before, p, after, a1, ⟨caps, a2, a3⟩, a4⟩ := C39_called_partial hops hm (hpath t) h1
      have hh : (buildRouter ops).endpoint lib pathOf text ⟨req.method, t, hmap⟩ (some (rem req.body).length) = e1 ⟨req.method, t, hmap⟩ (some (rem req.body).length) ext1 := by
        unfold Router.endpoint
        dsimp only
        rw [h1]
      rw [hh]
      exact Prog.AnswersTo.imp (fun r hr => ⟨before, p, e1, after, caps, a1, a3, a4, hr⟩) _ (he p e1 (by rw [a1]; simp) caps a3 hmap hmap' ext1 a2))
    hs hup hdown
  exact ⟨before, p, e, after, caps, resp, k, rsp, q1, q2, q3, q4, h2, h3, h4, h5, h6, h7⟩

/-- **C82.**  If no route of the method of the request matches its path, `connect` returns an empty 404. -/
theorem C82_not_found {env : Env} (hx : HexLenOk env.hexLen) {opts : ServerOpts} {lib : PathTree} {pathOf : Bytes → Bytes} (hpath : ∀ u, PathText (pathOf u)) {text : IoErr → Bytes}
    {ops : List (BuildOp (ReqHead → Option Nat → Extensions → Prog (BodyReader σ)))} (hops : Plain ops)
    {req : ClientRequest α} {t : Bytes} {fs : List (Bytes × Bytes)} (hr : Requestable env.uriOk req t fs) (hexp : Expects fs = false) {n : Nat}
    (hclock : (∀ b ∈ env.now n, valueByte b) ∧ ∀ b, (env.now n).head? = some b → b ≠ 32 ∧ b ≠ 9) (hnow : (env.now n).length ≤ 4096)
    -- no route matches
    (hno : ∀ p e, (req.method, p, e) ∈ routes ops → ∀ caps, ¬ PatternMatches p (pathOf t) caps)
    -- the client, and its connection `io`, `w`; it has written its request, and waits long enough for the response
    {now : Bytes} {pool : Pool} (hp : pool.Ok) {cfuel cfuel' : Nat} {w w' : Writer} (hw : w.got = [])
    (hsent : clientSend cfuel req w = .ret (w', .sent)) {io : τ} (hcf : 2 * (rem io).length + meas io < cfuel')
    -- the server, its connection `c`, and what it did
    {sfuel : Nat} {c c' : Conn ρ} (hgot : c.wr.got = []) (hrel : c.wr.Reliable) (ht : NoTimeout opts c) {ev : List Event} {res : Option AcceptRes}
    (hs : acceptStep env opts ((buildRouter ops).endpoint lib pathOf text) sfuel n c = .ret (c', ev, res))
    -- the connection carries bytes both ways, in any fragments
    {x y : Bytes} (hup : rem c.rd = w'.got ++ x) (hdown : rem io = c'.wr.got ++ y) :
    ∃ rsp, connect now pool cfuel cfuel' req io w = .ret (w', .done (.ok rsp)) ∧ rsp.status = 404 ∧ rsp.length = some 0 ∧
      ∀ ks, ∃ b ps, polls rsp.body ks = .ret (b, ps) ∧ received ps = [] := by
  have hm : (47 : UInt8) ∉ req.method := fun h => tokenByte_ne_slash (hr.method.2 _ h) rfl
  obtain ⟨resp, k, rsp, rfl, h2, h3, h4, h5, h6, h7⟩ := C65_exchange_partial (τ := τ) hx hr hexp (n := n)
    (P := fun resp => resp = Response.toInner { (freshResponse : Response σ) with status := 404 })
    (by rintro resp rfl; exact ⟨empty_transmittable hclock hnow, rfl, 0, rfl, by decide⟩) (now := now) hp hw hsent hcf hgot hrel ht
    (by
      intro hmap hmap'
      have hh : (buildRouter ops).endpoint lib pathOf text ⟨req.method, t, hmap⟩ (some (rem req.body).length) =
          .send (Response.toInner { (freshResponse : Response σ) with status := 404 }) (fun _ => .ok) fun x => .glitch (.newWithErr (text x)) := by
        unfold Router.endpoint
        dsimp only
        rw [C39_not_found_partial hops hm (hpath t) hno]
      rw [hh]
      exact ⟨rfl, fun _ => trivial⟩)
    hs hup hdown
  have hk : k = 0 := by
    have : (some 0 : Option Nat) = some k := h2
    injection this with this; exact this.symm
  subst hk
  refine ⟨rsp, h3, h4, h6, fun ks => ?_⟩
  obtain ⟨b, ps, a1, a2, -⟩ := h7 ks
  exact ⟨b, ps, a1, List.prefix_nil.1 (by simpa using a2)⟩

end

/-! ## A concrete case -/

/-- The path of a URI without scheme and host. -/
def simplePath (u : Bytes) : Bytes := if u.head? = some 47 then u.takeWhile (· ≠ 63) else []

theorem simplePath_ok (u : Bytes) : PathText (simplePath u) := by
  unfold simplePath PathText
  split
  · rename_i h
    cases u with
    | nil => cases h
    | cons b u =>
      simp only [List.head?_cons, Option.some.injEq] at h
      subst h
      exact .inr (.inr (by simp))
  · exact .inl rfl

/-- A handler that answers with its name and the parameter `page`. -/
def pageHandler (name : String) : ReqHead → Option Nat → Extensions → Prog (BodyReader Script) := fun _ _ x =>
  .send (Response.toInner ((freshResponse : Response Script).setText (ascii name ++ (x.getParam (ascii "page")).getD []))) (fun _ => .ok) (fun _ => .glitch .new)

/-- Routes: another method, a route that is registered twice (for `POST`), and one that does not match. -/
def pageRoutes : List (BuildOp (ReqHead → Option Nat → Extensions → Prog (BodyReader Script))) :=
  [.at (ascii "GET") (ascii "/a") (pageHandler "get "), .at (ascii "POST") (ascii "/:id") (pageHandler "old "), .at (ascii "POST") (ascii "/:page") (pageHandler "new "),
    .at (ascii "POST") (ascii "/:page/x") (pageHandler "deep ")]

/-- The router with them, as the endpoint of a server. -/
def pageServer : Endpoint (BodyReader Script) := (buildRouter pageRoutes).endpoint lastMatch simplePath fun _ => ascii "error"

theorem pageRoutes_plain : Plain pageRoutes := by
  intro x hx
  simp only [pageRoutes, routes, List.mem_cons, List.not_mem_nil, or_false] at hx
  rcases hx with rfl | rfl | rfl | rfl <;> exact ⟨by unfold PlainMethod; decide, by decide⟩

/-- What the handlers can answer, by their parameters. -/
def pageAnswers (caps : List (Bytes × Bytes)) (resp : InnerResponse (BodyReader Script)) : Prop :=
  (caps = [(ascii "id", ascii "a")] ∧ resp = Response.toInner ((freshResponse : Response Script).setText (ascii "old "))) ∨
    (caps = [(ascii "page", ascii "a")] ∧ resp = Response.toInner ((freshResponse : Response Script).setText (ascii "new a")))

/-- What the server answers to `demoRequest`, whose bytes come in pieces of 7. -/
def pageDown : Bytes := responseHead .http11 200 [(ascii "content-type", [ascii "text/plain"])] (some 5) (ascii "NOW") ++ ascii "new a"

theorem pageServed_eq : (acceptStep demoEnv plainOpts pageServer 1000 0 (connOf (relayed.pieces 100 demoUp)) >>= fun x => .ret x.1.wr.got) = .ret pageDown := by decide +kernel

theorem page_match {p : Bytes} {e : ReqHead → Option Nat → Extensions → Prog (BodyReader Script)} (h : (ascii "POST", p, e) ∈ routes pageRoutes) {caps : List (Bytes × Bytes)}
    (hm : PatternMatches p (simplePath (ascii "/a?q=1")) caps) :
    (p = ascii "/:id" ∧ e = pageHandler "old " ∧ caps = [(ascii "id", ascii "a")]) ∨ (p = ascii "/:page" ∧ e = pageHandler "new " ∧ caps = [(ascii "page", ascii "a")]) := by
  have hc := matchSegs_complete hm
  simp only [pageRoutes, routes, List.mem_cons, List.not_mem_nil, or_false, Prod.mk.injEq] at h
  rcases h with ⟨h, _⟩ | ⟨_, rfl, rfl⟩ | ⟨_, rfl, rfl⟩ | ⟨_, rfl, rfl⟩
  · exact absurd h (by decide)
  · rw [show matchSegs (segments none (ascii "/:id")) (simplePath (ascii "/a?q=1")) = some [(ascii "id", ascii "a")] by decide +kernel] at hc
    injection hc with hc
    exact .inl ⟨rfl, rfl, hc.symm⟩
  · rw [show matchSegs (segments none (ascii "/:page")) (simplePath (ascii "/a?q=1")) = some [(ascii "page", ascii "a")] by decide +kernel] at hc
    injection hc with hc
    exact .inr ⟨rfl, rfl, hc.symm⟩
  · rw [show matchSegs (segments none (ascii "/:page/x")) (simplePath (ascii "/a?q=1")) = none by decide +kernel] at hc
    cases hc

theorem getParam_of {x : Extensions} {caps : List (Bytes × Bytes)} (h : x.params = some caps) (k : Bytes) : x.getParam k = Extensions.findParam k caps := by
  unfold Extensions.getParam
  rw [h]

/-- All hypotheses of `C82_found` are met: `demoRequest` gets the answer of the route that was registered last, with its parameter. -/
example : ∃ rsp, connect (ascii "NOW") zeroPool 100 1000 demoRequest ((relayed.pieces 100 pageDown).map Ev.data) ⟨[.accept 50, .pending, .accept 10], [], 0⟩ = .ret (⟨[], demoUp, demoUp.length⟩, .done (.ok rsp)) ∧
    rsp.status = 200 ∧ rsp.length = some 5 ∧ ∃ b ps, polls rsp.body (List.replicate 400 9) = .ret (b, ps) ∧ received ps = ascii "new a" := by
  obtain ⟨⟨c', ev, res⟩, h1, h2⟩ := Run.bind_eq_ret.1 pageServed_eq
  simp only [Run.ret.injEq] at h2
  obtain ⟨before, p, e, after, caps, resp, k, rsp, q1, q2, q3, q4, q5, q6, q7, -, q8, q9⟩ := C82_found (τ := Script) exactHexLen_ok (lib := lastMatch) simplePath_ok pageRoutes_plain demoRequest_ok (by decide +kernel)
    (n := 0) (P := fun _ => pageAnswers)
    (by
      rintro - caps resp (⟨-, rfl⟩ | ⟨-, rfl⟩)
      · exact ⟨⟨rfl, by decide, ⟨by decide, by decide⟩, (HeaderMap.plain_ok (by decide +kernel)).1, (HeaderMap.plain_ok (by decide +kernel)).2, nowOk, by decide, by decide +kernel⟩, rfl, 4, by decide, by decide⟩
      · exact ⟨⟨rfl, by decide, ⟨by decide, by decide⟩, (HeaderMap.plain_ok (by decide +kernel)).1, (HeaderMap.plain_ok (by decide +kernel)).2, nowOk, by decide, by decide +kernel⟩, rfl, 5, by decide, by decide⟩)
    (show (demoRequest.method, ascii "/:id", pageHandler "old ") ∈ routes pageRoutes by simp [pageRoutes, routes, demoRequest])
    (caps0 := [(ascii "id", ascii "a")]) (.lit (.param (seg := ascii "a") (by decide) (.inl rfl) (by decide) .nil))
    (now := ascii "NOW") zeroPool_ok (w := ⟨[.accept 50, .pending, .accept 10], [], 0⟩) rfl
    (show clientSend 100 demoRequest _ = .ret (⟨[], demoUp, demoUp.length⟩, .sent) by decide +kernel) (io := (relayed.pieces 100 pageDown).map Ev.data) (cfuel' := 1000) (by decide +kernel)
    (c := connOf (relayed.pieces 100 demoUp)) rfl (by intro e he; simp [connOf] at he) (.inl rfl)
    (by
      intro p e hin caps hm hmap _ ext hext
      rcases page_match hin hm with ⟨-, rfl, rfl⟩ | ⟨-, rfl, rfl⟩
      · exact ⟨.inl ⟨rfl, by rw [getParam_of hext]; rfl⟩, fun _ => trivial⟩
      · exact ⟨.inr ⟨rfl, by rw [getParam_of hext]; rfl⟩, fun _ => trivial⟩)
    h1 (x := []) (y := []) (by decide +kernel) (by rw [h2]; decide +kernel)
  obtain ⟨rfl, rfl⟩ : caps = [(ascii "page", ascii "a")] ∧ resp = Response.toInner ((freshResponse : Response Script).setText (ascii "new a")) := by
    rcases page_match (e := e) (by rw [q1]; exact List.mem_append_right _ List.mem_cons_self) q2 with ⟨rfl, -, rfl⟩ | ⟨-, -, rfl⟩
    · exfalso
      have hin : ∃ e', (ascii "POST", ascii "/:page", e') ∈ after := by
        simp only [pageRoutes, routes] at q1
        match before, q1 with
        | [], q1 => injection q1 with q1 _; injection q1 with q1 _; exact absurd q1 (by decide)
        | [_], q1 =>
          simp only [List.cons_append, List.nil_append, List.cons.injEq] at q1
          exact ⟨_, by rw [← q1.2.2]; exact List.mem_cons_self⟩
        | [_, _], q1 =>
          simp only [List.cons_append, List.nil_append, List.cons.injEq, Prod.mk.injEq] at q1
          exact absurd q1.2.2.1.2.1 (by decide)
        | [_, _, _], q1 =>
          simp only [List.cons_append, List.nil_append, List.cons.injEq, Prod.mk.injEq] at q1
          exact absurd q1.2.2.2.1.2.1 (by decide)
        | _ :: _ :: _ :: _ :: l, q1 =>
          simp only [List.cons_append, List.cons.injEq] at q1
          exact absurd q1.2.2.2.2 (by simp)
      obtain ⟨e', hin⟩ := hin
      exact q3 _ hin rfl (show (segments none (ascii "/:page")).map Seg.shape = (segments none (ascii "/:id")).map Seg.shape by decide +kernel)
    · rcases q4 with ⟨h, -⟩ | ⟨-, h⟩
      · exact absurd h (by decide)
      · exact ⟨rfl, h⟩
  injection q5 with q5
  subst q5
  obtain ⟨b, ps, a1, -, -, a2, a3⟩ := q9 (List.replicate 400 9)
  have hk : ∀ k ∈ List.replicate 400 9, 0 < k := by intro k hk; rw [List.eq_of_mem_replicate hk]; decide
  exact ⟨rsp, q6, q7, q8, b, ps, a1, by rw [a2 hk (a3 hk (by decide +kernel))]; decide⟩

/-- All hypotheses of `C82_not_found` are met: nobody is registered for `POST /a` if only `GET` routes are. -/
example : ∃ rsp, connect (ascii "NOW") zeroPool 100 1000 demoRequest ((relayed.pieces 100 (responseHead .http11 404 [] (some 0) (ascii "NOW"))).map Ev.data) ⟨[.accept 50, .pending, .accept 10], [], 0⟩ =
      .ret (⟨[], demoUp, demoUp.length⟩, .done (.ok rsp)) ∧ rsp.status = 404 ∧ rsp.length = some 0 := by
  obtain ⟨⟨c', ev, res⟩, h1, h2⟩ := Run.bind_eq_ret.1 (show (acceptStep demoEnv plainOpts ((buildRouter (pageRoutes.take 1)).endpoint lastMatch simplePath fun _ => ascii "error") 1000 0 (connOf (relayed.pieces 100 demoUp)) >>=
    fun x => .ret x.1.wr.got) = .ret (responseHead .http11 404 [] (some 0) (ascii "NOW")) by decide +kernel)
  simp only [Run.ret.injEq] at h2
  obtain ⟨rsp, q1, q2, q3, -⟩ := C82_not_found (τ := Script) exactHexLen_ok (lib := lastMatch) simplePath_ok (ops := pageRoutes.take 1)
    (by intro x hx; simp only [pageRoutes, List.take, routes, List.mem_cons, List.not_mem_nil, or_false] at hx; subst hx; exact ⟨by unfold PlainMethod; decide, by decide⟩)
    demoRequest_ok (by decide +kernel) (n := 0) nowOk (by decide)
    (by
      intro p e h
      simp only [pageRoutes, List.take, routes, List.mem_cons, List.not_mem_nil, or_false, Prod.mk.injEq] at h
      exact absurd h.1 (by decide))
    (now := ascii "NOW") zeroPool_ok (w := ⟨[.accept 50, .pending, .accept 10], [], 0⟩) rfl
    (show clientSend 100 demoRequest _ = .ret (⟨[], demoUp, demoUp.length⟩, .sent) by decide +kernel)
    (io := (relayed.pieces 100 (responseHead .http11 404 [] (some 0) (ascii "NOW"))).map Ev.data) (cfuel' := 1000) (by decide +kernel)
    (c := connOf (relayed.pieces 100 demoUp)) rfl (by intro e he; simp [connOf] at he) (.inl rfl)
    h1 (x := []) (y := []) (by decide +kernel) (by rw [h2]; decide +kernel)
  exact ⟨rsp, q1, q2, q3⟩

end Tophat
