import Verif.Model.Middleware
import Verif.Props.CorsExchange
import Verif.Props.Hello
/-!
# Property C99: middleware in front of a router, as in examples/middleware.rs
-/

set_option linter.unusedSectionVars false
set_option synthInstance.maxSize 1000

namespace Tophat
open Spec

/-- What the response has of its own: nothing, or that header. -/
def corsFields (allow : Option Bytes) : HeaderMap := match allow with | some v => [(ascii "access-control-allow-origin", [v])] | none => []

theorem corsFields_ok {allow : Option Bytes} (hv : ∀ v, allow = some v → PlainValue v) :
    (corsFields allow).WF ∧ (corsFields allow).Valid ∧ (∀ f ∈ (corsFields allow).iter, ∀ b, f.2.head? = some b → b ≠ 32 ∧ b ≠ 9) ∧ (corsFields allow).getAll (ascii "access-control-allow-origin") = allow.toList := by
  cases allow with
  | none => exact ⟨HeaderMap.wf_nil, (HeaderMap.plain_ok (by decide)).1, (HeaderMap.plain_ok (by decide)).2, rfl⟩
  | some v =>
    obtain ⟨h1, h2⟩ := hv v rfl
    have hi : HeaderMap.iter [(ascii "access-control-allow-origin", [v])] = [(ascii "access-control-allow-origin", v)] := rfl
    refine ⟨⟨by simp [corsFields], by simp [corsFields]⟩, ⟨?_, ?_⟩, ?_, ?_⟩
    · intro f hf
      have hf : f ∈ HeaderMap.iter [(ascii "access-control-allow-origin", [v])] := hf
      rw [hi, List.mem_singleton] at hf
      subst hf
      show headerNameFromBytes (ascii "access-control-allow-origin") = some (ascii "access-control-allow-origin")
      decide
    · intro f hf
      have hf : f ∈ HeaderMap.iter [(ascii "access-control-allow-origin", [v])] := hf
      rw [hi, List.mem_singleton] at hf
      subst hf
      exact h1
    · intro f hf
      have hf : f ∈ HeaderMap.iter [(ascii "access-control-allow-origin", [v])] := hf
      rw [hi, List.mem_singleton] at hf
      subst hf
      exact h2
    · simp [corsFields, HeaderMap.getAll, HeaderMap.iter]

theorem corsFields_transmittable {σ : Type} [AsyncBufRead σ] {allow : Option Bytes} (hv : ∀ v, allow = some v → PlainValue v) {now : Bytes}
    (hc : (∀ b ∈ now, valueByte b) ∧ ∀ b, now.head? = some b → b ≠ 32 ∧ b ≠ 9) (hn : (allow.getD []).length + now.length ≤ 7600) {status : StatusCode} (hs : status = 200 ∨ status = 404) {k : Nat} (hk : k < usizeLimit) {body : σ} :
    Transmittable (⟨status, corsFields allow, .http11, body, some k⟩ : InnerResponse σ) now := by
  obtain ⟨a1, a2, a3, -⟩ := corsFields_ok hv
  have hd : (decimal k).length ≤ 20 := decimal_length (by omega) (by unfold usizeLimit at hk; omega)
  have hf : sentFields (corsFields allow) (some k) now =
      (ascii "content-length", decimal k) :: (ascii "date", now) :: ((corsFields allow).iter ++ if k = 0 then [] else [(ascii "content-type", ascii "application/octet-stream")]) := by
    have e0 : ascii "access-control-allow-origin" ≠ ascii "content-length" ∧ ascii "access-control-allow-origin" ≠ ascii "transfer-encoding" ∧ ascii "access-control-allow-origin" ≠ ascii "date" ∧
      ascii "access-control-allow-origin" ≠ ascii "content-type" := by decide
    unfold sentFields framingField
    cases allow with
    | none => by_cases hk : k = 0 <;> simp [corsFields, HeaderMap.iter, HeaderMap.getAll, hk]
    | some v => by_cases hk : k = 0 <;> simp [corsFields, HeaderMap.iter, HeaderMap.getAll, hk, e0]
  refine ⟨rfl, ?_, a1, a2, a3, hc, ?_, ?_⟩
  · rcases hs with rfl | rfl
    · exact ⟨(by decide : (100 : UInt16) ≤ 200), (by decide : (200 : UInt16) < 1000)⟩
    · exact ⟨(by decide : (100 : UInt16) ≤ 404), (by decide : (404 : UInt16) < 1000)⟩
  · show (sentFields (corsFields allow) (some k) now).length ≤ 128
    rw [hf]
    cases allow <;> by_cases hk : k = 0 <;> simp [corsFields, HeaderMap.iter, hk]
  · show (renderResponseHead .http11 status (sentFields (corsFields allow) (some k) now)).length < 8192
    have h1 : (Version.http11.debug ++ [32] ++ statusDisplay status ++ [13, 10]).length < 100 := by rcases hs with rfl | rfl <;> decide
    have h2 : (ascii "content-length").length = 14 := by decide
    have h3 : (ascii "date").length = 4 := by decide
    have h4 : (ascii "access-control-allow-origin").length = 27 := by decide
    have h5 : (ascii "content-type").length = 12 := by decide
    have h6 : (ascii "application/octet-stream").length = 24 := by decide
    rw [hf]
    unfold renderResponseHead renderFields
    simp only [List.length_append] at h1 ⊢
    cases allow with
    | none =>
      by_cases hk : k = 0
      · simp [h2, h3, corsFields, HeaderMap.iter, hk] at h1 hn hd ⊢
        omega
      · simp [h2, h3, h5, h6, corsFields, HeaderMap.iter, hk] at h1 hn hd ⊢
        omega
    | some v =>
      by_cases hk : k = 0
      · simp [h2, h3, h4, corsFields, HeaderMap.iter, hk] at h1 hn hd ⊢
        omega
      · simp [h2, h3, h4, h5, h6, corsFields, HeaderMap.iter, hk] at h1 hn hd ⊢
        omega

/-- What the client that sends the request `req` is to find in `Access-Control-Allow-Origin`. -/
def Spec.allowedFor {α : Type} (allow : Bytes) (req : ClientRequest α) : List Bytes := if req.headers.getAll (ascii "origin") = [] then [] else [allow]

theorem simpleCors_fields {σ : Type} {allow : Bytes} {head : ReqHead} :
    simpleCors allow head (freshResponse : Response σ) = ⟨200, corsFields (if head.headers.getAll (ascii "origin") = [] then none else some allow), .http11, .empty⟩ := by
  unfold simpleCors HeaderMap.get
  cases h : head.headers.getAll (ascii "origin") with
  | nil => rfl
  | cons a l => rfl

theorem Spec.IsUtf8.append {a b : Bytes} (ha : IsUtf8 a) (hb : IsUtf8 b) : IsUtf8 (a ++ b) := by
  obtain ⟨cs, h1, rfl⟩ := ha
  obtain ⟨ds, h2, rfl⟩ := hb
  exact ⟨cs ++ ds, fun c h => (List.mem_append.1 h).elim (h1 c) (h2 c), by simp [encodeText]⟩

section
variable {α : Type} [AsyncBufRead α] [LawfulBufRead α] {σ : Type} [AsyncBufRead σ] [LawfulBufRead σ] {ρ : Type} [AsyncRead ρ] [LawfulRead ρ] {τ : Type} [AsyncRead τ] [LawfulRead τ]

theorem greetRouter_plain {text : IoErr → Bytes} {data : Bytes} : Plain (greetRouter text data : List (BuildOp (Handler σ))) := by
  intro x hx
  simp only [greetRouter, routes, List.mem_cons, List.not_mem_nil, or_false] at hx
  subst hx
  exact ⟨(by unfold PlainMethod; decide : PlainMethod (ascii "GET")), (by decide : (ascii "/:name").head? = some 47)⟩

/-- `/:name` matches a path of one segment, and only that. -/
theorem greet_match {path : Bytes} {caps : List (Bytes × Bytes)} (h : PatternMatches (ascii "/:name") path caps) : ∃ x, path = 47 :: x ∧ 47 ∉ x ∧ caps = [(ascii "name", x)] := by
  have e : segments none (ascii "/:name") = [.lit 47, .param (ascii "name")] := by decide
  unfold PatternMatches at h
  rw [e] at h
  cases h with
  | lit h =>
  cases h with
  | param h1 h2 h3 h4 =>
  cases h4
  exact ⟨_, by rw [List.append_nil], h1, rfl⟩

/-- **C99.**  examples/middleware.rs, with any text of `Access-Control-Allow-Origin` and any data: a client that asks for `/x` gets the greeting with that name and the data, and the header, if it has sent an origin. -/
theorem C99_greeted {env : Env} (hx : HexLenOk env.hexLen) {opts : ServerOpts} {lib : PathTree} {pathOf : Bytes → Bytes} (hpath : ∀ u, PathText (pathOf u)) {text : IoErr → Bytes} {allow data : Bytes} (hallow : PlainValue allow)
    {n : Nat} {pool : Pool} {cf cf' : Nat} {req : ClientRequest α} {io : τ} {w w' : Writer} {c c' : Conn ρ}
    (h : Exchange env opts ((buildRouter (greetRouter text data : List (BuildOp (Handler σ)))).behind lib pathOf text (simpleCors allow)) n pool cf cf' req io w w' c c')
    {t : Bytes} {fs : List (Bytes × Bytes)} (hr : Requestable env.uriOk req t fs) (hexp : Expects fs = false)
    (hc : (∀ b ∈ env.now n, valueByte b) ∧ ∀ b, (env.now n).head? = some b → b ≠ 32 ∧ b ≠ 9) (hnow : allow.length + (env.now n).length ≤ 7600)
    (hm : req.method = ascii "GET") {x : Bytes} (ht : pathOf t = 47 :: x) (hx0 : x ≠ []) (hx1 : 47 ∉ x)
    (hutf : IsUtf8 x ∧ IsUtf8 data) (hlim : 100 + x.length + data.length ≤ isizeMax) {grow : Nat → Nat → Nat} (hg : GrowOk grow) (now : Bytes) :
    let greeting := ascii "Hello, name = " ++ x ++ ascii " and " ++ data
    ∃ rsp, connect now pool cf cf' req io w = .ret (w', .done (.ok rsp)) ∧ rsp.status = 200 ∧ rsp.headers.getAll (ascii "access-control-allow-origin") = allowedFor allow req ∧
      ∀ F, greeting.length + meas io < F → ∃ r, rsp.toBody.intoString grow F = .ret (r, .ok greeting) := by
  intro greeting'
  obtain ⟨greeting, hG⟩ : ∃ G, G = greeting' := ⟨_, rfl⟩
  rw [← hG]
  have hG : greeting = ascii "Hello, name = " ++ x ++ ascii " and " ++ data := hG
  have hmm : (47 : UInt8) ∉ req.method := fun h => tokenByte_ne_slash (hr.method.2 _ h) rfl
  let own : Option Bytes := if req.headers.getAll (ascii "origin") = [] then none else some allow
  have hown : ∀ v, own = some v → PlainValue v := by
    intro v hv
    simp only [own] at hv
    split at hv
    · cases hv
    · injection hv with hv; subst hv; exact hallow
  have hownl : (own.getD []).length ≤ allow.length := by simp only [own]; split <;> simp
  have hu : utf8Valid greeting = true :=
    (utf8Valid_iff _).2 (hG ▸ ((((utf8Valid_iff _).1 (by decide +kernel : utf8Valid (ascii "Hello, name = ") = true)).append hutf.1).append ((utf8Valid_iff _).1 (by decide +kernel : utf8Valid (ascii " and ") = true))).append hutf.2)
  have hgl : greeting.length = 19 + x.length + data.length := by
    have h1 : (ascii "Hello, name = ").length = 14 := by decide
    have h2 : (ascii " and ").length = 5 := by decide
    rw [hG]
    simp only [List.length_append, h1, h2]
    omega
  have hgl : greeting.length ≤ isizeMax := by omega
  have hgl' : 8192 + greeting.length < usizeLimit := by unfold isizeMax at hgl; unfold usizeLimit; omega
  obtain ⟨resp, k, rsp, rfl, p2, p3, p4, p5, p6, p7⟩ := h.result hx hr hexp
    (P := fun resp => resp = Response.toInner (⟨200, corsFields own, .http11, .fromBytes greeting⟩ : Response σ))
    (by
      rintro resp rfl
      exact ⟨corsFields_transmittable hown hc (by omega) (.inl rfl) (by omega), rfl, _, rfl, hgl'⟩)
    (by
      intro hmap hmap'
      have ho : hmap.getAll (ascii "origin") = req.headers.getAll (ascii "origin") := arrived hr hmap' (by decide) (by decide) (by decide)
      have hr0 : simpleCors allow ⟨req.method, t, hmap⟩ (freshResponse : Response σ) = ⟨200, corsFields own, .http11, .empty⟩ := by
        rw [simpleCors_fields]
        simp only [ho, own]
      have hin : (req.method, ascii "/:name", (helloUser text : Handler σ)) ∈ routes (greetRouter text data : List (BuildOp (Handler σ))) := by simp [greetRouter, routes, hm]
      have hmt : PatternMatchesNonEmpty (ascii "/:name") (pathOf t) [(ascii "name", x)] := by
        have e : segments none (ascii "/:name") = [.lit 47, .param (ascii "name")] := by decide
        unfold PatternMatchesNonEmpty
        rw [e, ht]
        have := Matches.param (strict := true) (n := ascii "name") (ps := []) (rest := []) hx1 (.inl rfl) (fun _ => hx0) .nil
        rw [List.append_nil] at this
        exact .lit this
      obtain ⟨e1, ext1, h1⟩ := C39_found_partial (lib := lib) (ext := ⟨none, none⟩) (resp := (⟨200, corsFields own, .http11, .empty⟩ : Response σ)) greetRouter_plain hmm (hpath t) hin hmt
      obtain ⟨before, p, after, a1, ⟨caps, a2, a3⟩, -⟩ := C39_called_partial greetRouter_plain hmm (hpath t) h1
      have hmem : (req.method, p, e1) ∈ routes (greetRouter text data : List (BuildOp (Handler σ))) := by rw [a1]; simp
      simp only [greetRouter, routes, List.mem_singleton, Prod.mk.injEq] at hmem
      obtain ⟨-, rfl, rfl⟩ := hmem
      obtain ⟨y, b1, b2, rfl⟩ := greet_match a3
      rw [ht] at b1
      injection b1 with _ b1
      subst b1
      have hd : ext1.getData (.base 0) = some data := C40_data (before := []) (op := .data (.base 0) data) (after := [.at (ascii "GET") (ascii "/:name") (helloUser text)]) rfl
        (by intro o ho; rw [List.mem_singleton] at ho; subst ho; rfl) h1
      have htext : helloText ext1 = greeting := by
        unfold helloText
        rw [a2, hd]
        have e1 : ascii "Hello, name = " = ascii "Hello, " ++ (ascii "name" ++ ascii " = ") := by decide
        rw [hG]; simp only [e1, List.flatMap_cons, List.flatMap_nil, List.append_nil, List.append_assoc]
      have hh : (buildRouter (greetRouter text data : List (BuildOp (Handler σ)))).behind lib pathOf text (simpleCors allow) ⟨req.method, t, hmap⟩ (some (rem req.body).length) =
          .send (Response.toInner (⟨200, corsFields own, .http11, .fromBytes greeting⟩ : Response σ)) (fun _ => .ok) fun x => .glitch (.newWithErr (text x)) := by
        unfold Router.behind
        dsimp only
        rw [hr0, h1]
        show helloUser text _ _ ext1 _ = _
        unfold helloUser
        rw [htext]
        rfl
      rw [hh]
      exact ⟨rfl, fun _ => trivial⟩) now
  have hk : (some greeting.length : Option Nat) = some k := p2
  injection hk with hk
  subst hk
  refine ⟨rsp, p3, p4, ?_, fun F hF => ?_⟩
  · obtain ⟨-, o2, -, o4⟩ := corsFields_ok hown
    have e := sent_value o2 _ _ p5 (k := ascii "access-control-allow-origin") (by decide)
    rw [e]
    refine o4.trans ?_
    simp only [own, allowedFor]
    split <;> rfl
  · have hfull : (rem (Response.toInner (⟨200, corsFields own, .http11, .fromBytes greeting⟩ : Response σ)).body).take greeting.length = greeting := List.take_length
    rw [hfull] at p7
    obtain ⟨r, hr2⟩ := text_of h.pool (connect_decoded h.sent p3) (m := meas io) p6 hgl p7 hg hF
    exact ⟨r, by rw [hr2, if_pos hu]⟩

/-- **C99.**  To every other request (but for `/`, which is left open by the documentation of path-tree) it gets an empty 404, with that header as well. -/
theorem C99_not_found {env : Env} (hx : HexLenOk env.hexLen) {opts : ServerOpts} {lib : PathTree} {pathOf : Bytes → Bytes} (hpath : ∀ u, PathText (pathOf u)) {text : IoErr → Bytes} {allow data : Bytes} (hallow : PlainValue allow)
    {n : Nat} {pool : Pool} {cf cf' : Nat} {req : ClientRequest α} {io : τ} {w w' : Writer} {c c' : Conn ρ}
    (h : Exchange env opts ((buildRouter (greetRouter text data : List (BuildOp (Handler σ)))).behind lib pathOf text (simpleCors allow)) n pool cf cf' req io w w' c c')
    {t : Bytes} {fs : List (Bytes × Bytes)} (hr : Requestable env.uriOk req t fs) (hexp : Expects fs = false)
    (hc : (∀ b ∈ env.now n, valueByte b) ∧ ∀ b, (env.now n).head? = some b → b ≠ 32 ∧ b ≠ 9) (hnow : allow.length + (env.now n).length ≤ 7600)
    (hno : req.method ≠ ascii "GET" ∨ ∀ x, 47 ∉ x → pathOf t ≠ 47 :: x) (now : Bytes) :
    ∃ rsp, connect now pool cf cf' req io w = .ret (w', .done (.ok rsp)) ∧ rsp.status = 404 ∧ rsp.length = some 0 ∧ rsp.headers.getAll (ascii "access-control-allow-origin") = allowedFor allow req := by
  have hmm : (47 : UInt8) ∉ req.method := fun h => tokenByte_ne_slash (hr.method.2 _ h) rfl
  let own : Option Bytes := if req.headers.getAll (ascii "origin") = [] then none else some allow
  have hown : ∀ v, own = some v → PlainValue v := by
    intro v hv
    simp only [own] at hv
    split at hv
    · cases hv
    · injection hv with hv; subst hv; exact hallow
  have hownl : (own.getD []).length ≤ allow.length := by simp only [own]; split <;> simp
  obtain ⟨resp, k, rsp, rfl, p2, p3, p4, p5, p6, -⟩ := h.result hx hr hexp
    (P := fun resp => resp = Response.toInner (⟨404, corsFields own, .http11, .empty⟩ : Response σ))
    (by
      rintro resp rfl
      exact ⟨corsFields_transmittable hown hc (by omega) (.inr rfl) (by decide), rfl, 0, rfl, by decide⟩)
    (by
      intro hmap hmap'
      have ho : hmap.getAll (ascii "origin") = req.headers.getAll (ascii "origin") := arrived hr hmap' (by decide) (by decide) (by decide)
      have hr0 : simpleCors allow ⟨req.method, t, hmap⟩ (freshResponse : Response σ) = ⟨200, corsFields own, .http11, .empty⟩ := by
        rw [simpleCors_fields]
        simp only [ho, own]
      have hh : (buildRouter (greetRouter text data : List (BuildOp (Handler σ)))).behind lib pathOf text (simpleCors allow) ⟨req.method, t, hmap⟩ (some (rem req.body).length) =
          .send (Response.toInner (⟨404, corsFields own, .http11, .empty⟩ : Response σ)) (fun _ => .ok) fun x => .glitch (.newWithErr (text x)) := by
        unfold Router.behind
        dsimp only
        rw [hr0, C39_not_found_partial greetRouter_plain hmm (hpath t) (by
          intro p e hin caps hcaps
          simp only [greetRouter, routes, List.mem_singleton, Prod.mk.injEq] at hin
          obtain ⟨h1, rfl, rfl⟩ := hin
          obtain ⟨y, b1, b2, -⟩ := greet_match hcaps
          rcases hno with hno | hno
          · exact hno h1
          · exact hno y b2 b1)]
      rw [hh]
      exact ⟨rfl, fun _ => trivial⟩) now
  have hk : (some 0 : Option Nat) = some k := p2
  injection hk with hk
  subst hk
  refine ⟨rsp, p3, p4, p6, ?_⟩
  obtain ⟨-, o2, -, o4⟩ := corsFields_ok hown
  have e := sent_value o2 _ _ p5 (k := ascii "access-control-allow-origin") (by decide)
  rw [e]
  refine o4.trans ?_
  simp only [own, allowedFor]
  split <;> rfl

end

/-! ## A concrete case -/

/-- `GET /bob`, with an origin. -/
def bobRequest : ClientRequest Script :=
  { demoRequest with method := ascii "GET", uri := { demoRequest.uri with path := ascii "/bob", query := none }, headers := [(ascii "origin", [ascii "http://a.org"])], body := [], length := some 0 }
/-- Its bytes. -/
def bobUp : Bytes := ascii "GET /bob HTTP/1.1\r\nhost: h.org:81\r\ncontent-length: 0\r\norigin: http://a.org\r\n\r\n"
/-- The server of examples/middleware.rs. -/
def bobServer : Endpoint (BodyReader Script) := (buildRouter (greetRouter (fun _ => ascii "error") (ascii "Data from datastore"))).behind lastMatch simplePath (fun _ => ascii "error") (simpleCors (ascii "*"))
/-- What it answers. -/
def bobDown : Bytes :=
  responseHead .http11 200 [(ascii "access-control-allow-origin", [ascii "*"])] (some 41) (ascii "NOW") ++ ascii "Hello, name = bob and Data from datastore"
/-- A request that is not routed. -/
def deepRequest : ClientRequest Script := { bobRequest with uri := { demoRequest.uri with path := ascii "/bob/x", query := none }, headers := [] }
/-- Its bytes. -/
def deepUp : Bytes := ascii "GET /bob/x HTTP/1.1\r\nhost: h.org:81\r\ncontent-length: 0\r\n\r\n"
/-- What the server answers. -/
def deepDown : Bytes := responseHead .http11 404 [] (some 0) (ascii "NOW")

theorem bobRequest_ok : Requestable demoEnv.uriOk bobRequest (ascii "/bob") [(ascii "host", ascii "h.org:81"), (ascii "content-length", ascii "0"), (ascii "origin", ascii "http://a.org")] :=
  ⟨⟨by decide, by unfold tokenByte; decide⟩, by decide +kernel, ⟨by unfold targetByte; decide, by decide +kernel⟩, (HeaderMap.plain_ok (by decide +kernel)).1, (HeaderMap.plain_ok (by decide +kernel)).2, demoRequest_ok.host, by decide, by decide,
    by decide, by decide +kernel, by decide⟩

/-- All hypotheses of `C99_greeted` are met. -/
example : ∃ rsp, connect (ascii "NOW") zeroPool 100 1000 bobRequest ((relayed.pieces 100 bobDown).map Ev.data) ⟨[], [], 0⟩ = .ret (⟨[], bobUp, bobUp.length⟩, .done (.ok rsp)) ∧
    rsp.status = 200 ∧ rsp.headers.getAll (ascii "access-control-allow-origin") = [ascii "*"] ∧ ∃ r, rsp.toBody.intoString doubling 200 = .ret (r, .ok (ascii "Hello, name = bob and Data from datastore")) := by
  obtain ⟨c', x⟩ := exchange_of (endpoint := bobServer) (req := bobRequest) (up := bobUp) (down := bobDown) (by decide +kernel) (by decide +kernel) (by decide +kernel) (by decide +kernel) (by decide +kernel)
  obtain ⟨rsp, a1, a2, a3, a4⟩ := C99_greeted (τ := Script) exactHexLen_ok simplePath_ok (allow := ascii "*") (data := ascii "Data from datastore") ⟨by decide, by decide⟩ x bobRequest_ok (by decide +kernel) nowOk (by decide)
    rfl (x := ascii "bob") (by decide) (by decide) (by decide) ⟨(utf8Valid_iff _).1 (by decide +kernel), (utf8Valid_iff _).1 (by decide +kernel)⟩ (by decide) doubling_ok (ascii "NOW")
  have e : ascii "Hello, name = " ++ ascii "bob" ++ ascii " and " ++ ascii "Data from datastore" = ascii "Hello, name = bob and Data from datastore" := by decide
  rw [e] at a4
  exact ⟨rsp, a1, a2, a3, a4 200 (by decide +kernel)⟩

theorem deepRequest_ok : Requestable demoEnv.uriOk deepRequest (ascii "/bob/x") [(ascii "host", ascii "h.org:81"), (ascii "content-length", ascii "0")] :=
  ⟨⟨by decide, by unfold tokenByte; decide⟩, by decide +kernel, ⟨by unfold targetByte; decide, by decide +kernel⟩, (HeaderMap.plain_ok (by decide +kernel)).1, (HeaderMap.plain_ok (by decide +kernel)).2, demoRequest_ok.host, by decide, by decide,
    by decide, by decide +kernel, by decide⟩

/-- All hypotheses of `C99_not_found` are met. -/
example : ∃ rsp, connect (ascii "NOW") zeroPool 100 1000 deepRequest ((relayed.pieces 100 deepDown).map Ev.data) ⟨[], [], 0⟩ = .ret (⟨[], deepUp, deepUp.length⟩, .done (.ok rsp)) ∧
    rsp.status = 404 ∧ rsp.headers.getAll (ascii "access-control-allow-origin") = [] := by
  obtain ⟨c', x⟩ := exchange_of (endpoint := bobServer) (req := deepRequest) (up := deepUp) (down := deepDown) (by decide +kernel) (by decide +kernel) (by decide +kernel) (by decide +kernel) (by decide +kernel)
  obtain ⟨rsp, a1, a2, -, a3⟩ := C99_not_found (τ := Script) exactHexLen_ok simplePath_ok (allow := ascii "*") (data := ascii "Data from datastore") ⟨by decide, by decide⟩ x deepRequest_ok (by decide +kernel) nowOk (by decide)
    (.inr (by
      intro y hy h
      have e : simplePath (ascii "/bob/x") = 47 :: ascii "bob/x" := by decide
      rw [e] at h
      injection h with _ h
      rw [← h] at hy
      exact hy (by decide))) (ascii "NOW")
  exact ⟨rsp, a1, a2, a3⟩

end Tophat
