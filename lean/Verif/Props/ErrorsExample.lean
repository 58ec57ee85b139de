import Verif.Model.ErrorsExample
import Verif.Props.Login
/-!
# Property C101: errors of handlers, as in examples/errors.rs and examples/errors_verbose.rs
-/

set_option linter.unusedSectionVars false
set_option synthInstance.maxSize 1000

namespace Tophat
open Spec

/-- The client gets a response with that status, and reads that text. -/
def Spec.ToldText {α : Type} [AsyncBufRead α] {τ : Type} [AsyncRead τ] [LawfulRead τ] (now : Bytes) (pool : Pool) (cf cf' : Nat) (req : ClientRequest α) (io : τ) (w w' : Writer) (status : StatusCode) (body : Bytes) : Prop :=
  ∃ rsp, connect now pool cf cf' req io w = .ret (w', .done (.ok rsp)) ∧ rsp.status = status ∧ rsp.length = some body.length ∧
    ∀ grow, GrowOk grow → ∀ F, body.length + meas io < F → ∃ r, rsp.toBody.intoString grow F = .ret (r, .ok body)

theorem plainGlitch_transmittable {now : Bytes} (hc : (∀ b ∈ now, valueByte b) ∧ ∀ b, now.head? = some b → b ≠ 32 ∧ b ≠ 9) (hn : now.length ≤ 7600) {g : Glitch} (hh : g.headers = none) (hv : g.version = none) (hok : g.Ok)
    (hs : ∀ st, g.status = some st → 100 ≤ st ∧ st < 1000) : g.Transmittable now := by
  refine ⟨hok, .inl hv, hs, ?_, ?_, hc, ?_, ?_⟩
  · rw [hh]; exact (HeaderMap.plain_ok (m := []) (by decide)).1
  · rw [hh]; exact (HeaderMap.plain_ok (m := []) (by decide)).2
  · rw [hh]; exact Nat.zero_le _
  · rw [hh]
    show 0 + now.length ≤ 7900
    omega

section
variable {α : Type} [AsyncBufRead α] [LawfulBufRead α] {σ : Type} [AsyncBufRead σ] [LawfulBufRead σ] {ρ : Type} [AsyncRead ρ] [LawfulRead ρ] {τ : Type} [AsyncRead τ] [LawfulRead τ]
  {lib : PathTree} {pathOf : Bytes → Bytes} {text : IoErr → Bytes}

/-- **C101.**  Whatever middleware there is in front of a router: if the handlers whose patterns match return the error `g`, having read as much of the body as they like, then the client gets the status of the error (500 if
it has none), its headers, and its message, followed by the text of the error that it was made from if the server is verbose, and nothing else: nothing of what has been set in the `ResponseWriter` before. -/
theorem C101_error {ops : List (BuildOp (Handler σ))} (hops : Plain ops) {before : ReqHead → Response σ → Response σ} (hpath : ∀ u, PathText (pathOf u))
    {env : Env} (hx : HexLenOk env.hexLen) {opts : ServerOpts} {n : Nat} {pool : Pool} {cf cf' : Nat} {req : ClientRequest α} {io : τ} {w w' : Writer} {c c' : Conn ρ}
    (h : Exchange env opts ((buildRouter ops).behind lib pathOf text before) n pool cf cf' req io w w' c c') {t : Bytes} {fs : List (Bytes × Bytes)} (hr : Requestable env.uriOk req t fs) (hexp : Expects fs = false)
    {g : Glitch} (hg : g.Transmittable (env.now n))
    -- a pattern matches
    {p : Bytes} {e : Handler σ} {caps : List (Bytes × Bytes)} (hin : (req.method, p, e) ∈ routes ops) (hmt : PatternMatchesNonEmpty p (pathOf t) caps)
    -- the handlers of those that do fail
    (he : ∀ p e caps, (req.method, p, e) ∈ routes ops → PatternMatches p (pathOf t) caps → ∀ hmap ext resp, ext.params = some caps →
      (e ⟨req.method, t, hmap⟩ (some (rem req.body).length) ext resp).FailsTo g (meas c.rd + c.wr.script.length) (rem req.body)) (now : Bytes) :
    let body := glitchBody opts.verboseGlitch g.message g.trace
    ∃ rsp hs, connect now pool cf cf' req io w = .ret (w', .done (.ok rsp)) ∧ rsp.status = g.status.getD 500 ∧ GlitchHeaders (g.headers.getD []) body hs ∧
      MapOf rsp.headers (sentFields hs (some body.length) (env.now n)) ∧ rsp.length = some body.length ∧
      (IsUtf8 body → body.length ≤ isizeMax → ToldText now pool cf cf' req io w w' (g.status.getD 500) body) := by
  intro body
  have hmm : (47 : UInt8) ∉ req.method := fun h => tokenByte_ne_slash (hr.method.2 _ h) rfl
  obtain ⟨rsp, hs, p1, p2, p3, p4, p5, p6⟩ := C91_body hx h hr hexp hg (by
    intro hmap _
    obtain ⟨e1, ext, h1⟩ := C39_found_partial (lib := lib) (ext := ⟨none, none⟩) (resp := before ⟨req.method, t, hmap⟩ freshResponse) hops hmm (hpath t) hin hmt
    obtain ⟨b, p1, a, a1, ⟨caps1, a2, a3⟩, -⟩ := C39_called_partial hops hmm (hpath t) h1
    have := he p1 e1 caps1 (by rw [a1]; simp) a3 hmap ext (before ⟨req.method, t, hmap⟩ freshResponse) a2
    unfold Router.behind
    dsimp only
    rw [h1]
    exact this) now
  refine ⟨rsp, hs, p1, p2, p3, p4, p5, fun hu hl => ⟨rsp, p1, p2, p5, fun grow hgrow F hF => ?_⟩⟩
  obtain ⟨r, hr2⟩ := text_of h.pool (connect_decoded h.sent p1) (m := meas io) p5 hl p6 hgrow hF
  exact ⟨r, by rw [hr2, if_pos ((utf8Valid_iff _).2 hu)]⟩

end

theorem literal_match {s path : Bytes} {caps : List (Bytes × Bytes)} (hs : segments none s = s.map .lit ++ []) : PatternMatches s path caps ↔ path = s ∧ caps = [] := by
  unfold PatternMatches
  rw [hs]
  constructor
  · intro h
    obtain ⟨rest, rfl, h'⟩ := (matches_literal (s := s)).1 h
    cases h'
    exact ⟨by rw [List.append_nil], rfl⟩
  · rintro ⟨rfl, rfl⟩
    exact (matches_literal (s := path)).2 ⟨[], by rw [List.append_nil], .nil⟩

section
variable {α : Type} [AsyncBufRead α] [LawfulBufRead α] {σ : Type} [AsyncBufRead σ] [LawfulBufRead σ] {ρ : Type} [AsyncRead ρ] [LawfulRead ρ] {τ : Type} [AsyncRead τ] [LawfulRead τ]
  {lib : PathTree} {pathOf : Bytes → Bytes} {text : IoErr → Bytes} {db : Except Bytes Unit} {context : Bytes} {found : Option Unit} {data : Bytes}

theorem errorsRouter_plain : Plain (errorsRouter db context found text data : List (BuildOp (Handler σ))) := by
  intro x hx
  simp only [errorsRouter, routes, List.mem_cons, List.not_mem_nil, or_false] at hx
  have hg : PlainMethod (ascii "GET") := by unfold PlainMethod; decide
  rcases hx with rfl | rfl | rfl
  · exact ⟨hg, (by decide : (ascii "/database_error").head? = some 47)⟩
  · exact ⟨hg, (by decide : (ascii "/database_error_context").head? = some 47)⟩
  · exact ⟨hg, (by decide : (ascii "/missing_data").head? = some 47)⟩

theorem errors_match {p path : Bytes} {e : Handler σ} {caps : List (Bytes × Bytes)} (hin : (ascii "GET", p, e) ∈ routes (errorsRouter db context found text data : List (BuildOp (Handler σ)))) (hmt : PatternMatches p path caps) :
    path = p ∧ caps = [] := by
  simp only [errorsRouter, routes, List.mem_cons, List.not_mem_nil, or_false, Prod.mk.injEq] at hin
  rcases hin with ⟨-, rfl, -⟩ | ⟨-, rfl, -⟩ | ⟨-, rfl, -⟩
  · exact (literal_match (by decide)).1 hmt
  · exact (literal_match (by decide)).1 hmt
  · exact (literal_match (by decide)).1 hmt

theorem errors_called (hpath : ∀ u, PathText (pathOf u)) {t : Bytes} {hmap : HeaderMap} {len : Option Nat} {e : Handler σ}
    (hin : (ascii "GET", pathOf t, e) ∈ routes (errorsRouter db context found text data : List (BuildOp (Handler σ)))) :
    ∃ ext, (errorsServer lib pathOf db context found text data : Endpoint (BodyReader σ)) ⟨ascii "GET", t, hmap⟩ len = e ⟨ascii "GET", t, hmap⟩ len ext freshResponse := by
  have hseg : segments none (pathOf t) = (pathOf t).map .lit ++ [] := by
    simp only [errorsRouter, routes, List.mem_cons, List.not_mem_nil, or_false, Prod.mk.injEq] at hin
    rcases hin with ⟨-, h, -⟩ | ⟨-, h, -⟩ | ⟨-, h, -⟩ <;> (rw [h]; decide)
  obtain ⟨ext, -, -, h3⟩ := behind_calls (lib := lib) (pathOf := pathOf) (text := text) (before := fun _ (r : Response σ) => r) errorsRouter_plain (head := ⟨ascii "GET", t, hmap⟩) (len := len)
    (show (47 : UInt8) ∉ ascii "GET" by decide) (hpath t) (p := pathOf t) (e := e) (caps := []) hin
    (by
      unfold PatternMatchesNonEmpty
      rw [hseg]
      exact (matches_literal (s := pathOf t)).2 ⟨[], by rw [List.append_nil], .nil⟩)
    (by
      intro p' e' caps' hin' hmt
      obtain ⟨h1, h2⟩ := errors_match hin' hmt
      refine ⟨?_, h2⟩
      dsimp only at h1 hin'
      rw [← h1] at hin'
      simp only [errorsRouter, routes, List.mem_cons, List.not_mem_nil, or_false, Prod.mk.injEq] at hin hin'
      have n1 : ascii "/database_error" ≠ ascii "/database_error_context" := by decide
      have n2 : ascii "/database_error" ≠ ascii "/missing_data" := by decide
      have n3 : ascii "/database_error_context" ≠ ascii "/missing_data" := by decide
      rcases hin with ⟨-, a, rfl⟩ | ⟨-, a, rfl⟩ | ⟨-, a, rfl⟩
      · rcases hin' with ⟨-, b, rfl⟩ | ⟨-, b, rfl⟩ | ⟨-, b, rfl⟩
        · rfl
        · exact absurd (a.symm.trans b) n1
        · exact absurd (a.symm.trans b) n2
      · rcases hin' with ⟨-, b, rfl⟩ | ⟨-, b, rfl⟩ | ⟨-, b, rfl⟩
        · exact absurd (b.symm.trans a) n1
        · rfl
        · exact absurd (a.symm.trans b) n3
      · rcases hin' with ⟨-, b, rfl⟩ | ⟨-, b, rfl⟩ | ⟨-, b, rfl⟩
        · exact absurd (b.symm.trans a) n2
        · exact absurd (b.symm.trans a) n3
        · rfl)
  exact ⟨ext, h3⟩

/-- What the client is told if the endpoint is at an end with the error. -/
theorem Exchange.told {endpoint : Endpoint (BodyReader σ)} {env : Env} (hx : HexLenOk env.hexLen) {opts : ServerOpts} {n : Nat} {pool : Pool} {cf cf' : Nat} {req : ClientRequest α} {io : τ} {w w' : Writer} {c c' : Conn ρ}
    (h : Exchange env opts endpoint n pool cf cf' req io w w' c c') {t : Bytes} {fs : List (Bytes × Bytes)} (hr : Requestable env.uriOk req t fs) (hexp : Expects fs = false)
    {g : Glitch} (hg : g.Transmittable (env.now n)) (he : ∀ hmap, endpoint ⟨req.method, t, hmap⟩ (some (rem req.body).length) = .glitch g)
    {body : Bytes} (hb : glitchBody opts.verboseGlitch g.message g.trace = body) (hu : IsUtf8 body) (hl : body.length ≤ isizeMax) (now : Bytes) :
    ToldText now pool cf cf' req io w w' (g.status.getD 500) body := by
  subst hb
  obtain ⟨rsp, hs, p1, p2, p3, p4, p5, p6⟩ := C91_body hx h hr hexp hg (by intro hmap _; rw [he hmap]; exact rfl) now
  refine ⟨rsp, p1, p2, p5, fun grow hgrow F hF => ?_⟩
  obtain ⟨r, hr2⟩ := text_of h.pool (connect_decoded h.sent p1) (m := meas io) p5 hl p6 hgrow hF
  exact ⟨r, by rw [hr2, if_pos ((utf8Valid_iff _).2 hu)]⟩

/-- What it is told if the endpoint sends the response that it was given. -/
theorem Exchange.blank {endpoint : Endpoint (BodyReader σ)} {env : Env} (hx : HexLenOk env.hexLen) {opts : ServerOpts} {n : Nat} {pool : Pool} {cf cf' : Nat} {req : ClientRequest α} {io : τ} {w w' : Writer} {c c' : Conn ρ}
    (h : Exchange env opts endpoint n pool cf cf' req io w w' c c') {t : Bytes} {fs : List (Bytes × Bytes)} (hr : Requestable env.uriOk req t fs) (hexp : Expects fs = false)
    (hc : (∀ b ∈ env.now n, valueByte b) ∧ ∀ b, (env.now n).head? = some b → b ≠ 32 ∧ b ≠ 9) (hnow : (env.now n).length ≤ 7600) {status : StatusCode} (hst : status = 200 ∨ status = 404)
    (he : ∀ hmap, endpoint ⟨req.method, t, hmap⟩ (some (rem req.body).length) = sendIt text (.ret (⟨status, [], .http11, .empty⟩ : Response σ))) (now : Bytes) :
    ToldText now pool cf cf' req io w w' status [] := by
  obtain ⟨resp, k, rsp, rfl, p2, p3, p4, p5, p6, p7⟩ := h.result hx hr hexp (P := (· = (⟨status, [], .http11, .empty⟩ : Response σ).toInner))
    (by rintro resp rfl; exact ⟨corsFields_transmittable (allow := none) (fun v h => by cases h) hc (by show 0 + _ ≤ 7600; omega) hst (by decide), rfl, 0, rfl, by decide⟩)
    (by intro hmap hmap'; rw [he hmap]; exact ⟨rfl, fun _ => trivial⟩) now
  have hk : (some 0 : Option Nat) = some k := p2
  injection hk with hk
  subst hk
  refine ⟨rsp, p3, p4, p6, fun grow hgrow F hF => ?_⟩
  have hfull : (rem (⟨status, [], .http11, .empty⟩ : Response σ).toInner.body).take 0 = [] := List.take_zero
  rw [hfull] at p7
  obtain ⟨r, hr2⟩ := text_of h.pool (connect_decoded h.sent p3) (m := meas io) (D := []) p6 (Nat.zero_le _) p7 hgrow hF
  exact ⟨r, by rw [hr2]; rfl⟩

section
variable (hpath : ∀ u, PathText (pathOf u)) {env : Env} (hx : HexLenOk env.hexLen) {opts : ServerOpts} {n : Nat} {pool : Pool} {cf cf' : Nat} {req : ClientRequest α} {io : τ} {w w' : Writer} {c c' : Conn ρ}
  (h : Exchange env opts (errorsServer lib pathOf db context found text data : Endpoint (BodyReader σ)) n pool cf cf' req io w w' c c') {t : Bytes} {fs : List (Bytes × Bytes)} (hr : Requestable env.uriOk req t fs) (hexp : Expects fs = false)
  (hc : (∀ b ∈ env.now n, valueByte b) ∧ ∀ b, (env.now n).head? = some b → b ≠ 32 ∧ b ≠ 9) (hnow : (env.now n).length ≤ 7600) (hm : req.method = ascii "GET")
include hpath hx h hr hexp hc hnow hm

/-- **C101.**  examples/errors.rs, `GET /database_error`: a 500 if the database fails, with the text of its error if the server is verbose, and with nothing if it is not; an empty 200 if it does not fail. -/
theorem C101_database_error (ht : pathOf t = ascii "/database_error") (hu : ∀ e, db = .error e → IsUtf8 e ∧ e.length ≤ isizeMax) (now : Bytes) :
    match db with
    | .ok _ => ToldText now pool cf cf' req io w w' 200 []
    | .error e => ToldText now pool cf cf' req io w w' 500 (if opts.verboseGlitch then e else []) := by
  have hin : (ascii "GET", pathOf t, (databaseError db text : Handler σ)) ∈ routes (errorsRouter db context found text data : List (BuildOp (Handler σ))) := by simp [errorsRouter, routes, ht]
  cases db with
  | ok x =>
    exact h.blank hx hr hexp hc hnow (.inl rfl) (by
      intro hmap
      obtain ⟨ext, he⟩ := errors_called (lib := lib) hpath (hmap := hmap) (len := some (rem req.body).length) hin
      rw [hm, he]; rfl) now
  | error e =>
    obtain ⟨hu1, hu2⟩ := hu e rfl
    refine h.told hx hr hexp (g := .newWithErr e) (plainGlitch_transmittable hc hnow rfl rfl ?_ (fun st h => by cases h)) (by
      intro hmap
      obtain ⟨ext, he⟩ := errors_called (lib := lib) hpath (hmap := hmap) (len := some (rem req.body).length) hin
      rw [hm, he]; rfl) ?_ ?_ ?_ now
    · refine ⟨fun hs h => (by cases h), ?_⟩
      show 8192 + (0 + 1 + e.length) < usizeLimit
      unfold usizeLimit
      unfold isizeMax at hu2
      omega
    · cases opts.verboseGlitch <;> rfl
    · split
      · exact hu1
      · exact ⟨[], by simp, rfl⟩
    · split
      · exact hu2
      · exact Nat.zero_le _

/-- **C101.**  examples/errors_verbose.rs, `GET /database_error_context`: a 500 with the context if the database fails, and with the text of its error on another line if the server is verbose. -/
theorem C101_context (ht : pathOf t = ascii "/database_error_context") (hctx : context ≠ []) (hu : IsUtf8 context ∧ ∀ e, db = .error e → IsUtf8 e ∧ context.length + 1 + e.length ≤ isizeMax) (now : Bytes) :
    match db with
    | .ok _ => ToldText now pool cf cf' req io w w' 200 []
    | .error e => ToldText now pool cf cf' req io w w' 500 (if opts.verboseGlitch then context ++ ascii "\n" ++ e else context) := by
  have hin : (ascii "GET", pathOf t, (databaseErrorContext db context text : Handler σ)) ∈ routes (errorsRouter db context found text data : List (BuildOp (Handler σ))) := by simp [errorsRouter, routes, ht]
  cases db with
  | ok x =>
    exact h.blank hx hr hexp hc hnow (.inl rfl) (by
      intro hmap
      obtain ⟨ext, he⟩ := errors_called (lib := lib) hpath (hmap := hmap) (len := some (rem req.body).length) hin
      rw [hm, he]; rfl) now
  | error e =>
    obtain ⟨hu1, hu2⟩ := hu.2 e rfl
    refine h.told hx hr hexp (g := .newWithStatusErrContext 500 e context) (plainGlitch_transmittable hc hnow rfl rfl ?_ (fun st h => by
      injection h with h
      subst h
      exact ⟨(by decide : (100 : UInt16) ≤ 500), (by decide : (500 : UInt16) < 1000)⟩)) (by
      intro hmap
      obtain ⟨ext, he⟩ := errors_called (lib := lib) hpath (hmap := hmap) (len := some (rem req.body).length) hin
      rw [hm, he]; rfl) ?_ ?_ ?_ now
    · refine ⟨fun hs h => (by cases h), ?_⟩
      show 8192 + (context.length + 1 + e.length) < usizeLimit
      unfold usizeLimit
      unfold isizeMax at hu2
      omega
    · cases context with
      | nil => exact absurd rfl hctx
      | cons a l => cases opts.verboseGlitch <;> rfl
    · split
      · exact (hu.1.append ((utf8Valid_iff _).1 (by decide +kernel))).append hu1
      · exact hu.1
    · have h1 : (ascii "\n").length = 1 := by decide
      split
      · rw [List.length_append, List.length_append, h1]; exact hu2
      · exact Nat.le_trans (by omega) hu2

/-- **C101.**  `GET /missing_data`: an empty 400 if nothing is found. -/
theorem C101_missing (ht : pathOf t = ascii "/missing_data") (now : Bytes) :
    ToldText now pool cf cf' req io w w' (if found = none then 400 else 200) [] := by
  have hin : (ascii "GET", pathOf t, (missingData found text : Handler σ)) ∈ routes (errorsRouter db context found text data : List (BuildOp (Handler σ))) := by simp [errorsRouter, routes, ht]
  cases found with
  | some x =>
    exact h.blank hx hr hexp hc hnow (.inl rfl) (by
      intro hmap
      obtain ⟨ext, he⟩ := errors_called (lib := lib) hpath (hmap := hmap) (len := some (rem req.body).length) hin
      rw [hm, he]; rfl) now
  | none =>
    refine h.told hx hr hexp (g := .badRequest) (plainGlitch_transmittable hc hnow rfl rfl ?_ (fun st h => by
      injection h with h
      subst h
      exact ⟨(by decide : (100 : UInt16) ≤ 400), (by decide : (400 : UInt16) < 1000)⟩)) (by
      intro hmap
      obtain ⟨ext, he⟩ := errors_called (lib := lib) hpath (hmap := hmap) (len := some (rem req.body).length) hin
      rw [hm, he]; rfl) ?_ ⟨[], by simp, rfl⟩ (Nat.zero_le _) now
    · refine ⟨fun hs h => (by cases h), ?_⟩
      show 8192 + (0 + 1 + 0) < usizeLimit
      unfold usizeLimit
      omega
    · cases opts.verboseGlitch <;> rfl

omit hm in
/-- **C101.**  Every other request gets an empty 404. -/
theorem C101_not_found (hno : req.method ≠ ascii "GET" ∨ pathOf t ∉ [ascii "/database_error", ascii "/database_error_context", ascii "/missing_data"]) (now : Bytes) : ToldText now pool cf cf' req io w w' 404 [] := by
  have hmm : (47 : UInt8) ∉ req.method := fun h => tokenByte_ne_slash (hr.method.2 _ h) rfl
  refine h.blank hx hr hexp hc hnow (.inr rfl) (text := text) (fun hmap => ?_) now
  unfold errorsServer Router.behind
  dsimp only
  rw [C39_not_found_partial errorsRouter_plain hmm (hpath t) (by
    intro p e hin caps hcaps
    rcases hno with hno | hno
    · simp only [errorsRouter, routes, List.mem_cons, List.not_mem_nil, or_false, Prod.mk.injEq] at hin
      rcases hin with ⟨h1, -⟩ | ⟨h1, -⟩ | ⟨h1, -⟩ <;> exact hno h1
    · have hget : req.method = ascii "GET" := by
        simp only [errorsRouter, routes, List.mem_cons, List.not_mem_nil, or_false, Prod.mk.injEq] at hin
        rcases hin with ⟨h1, -⟩ | ⟨h1, -⟩ | ⟨h1, -⟩ <;> exact h1
      rw [hget] at hin
      obtain ⟨h1, -⟩ := errors_match hin hcaps
      rw [h1] at hno
      simp only [errorsRouter, routes, List.mem_cons, List.not_mem_nil, or_false, Prod.mk.injEq] at hin
      rcases hin with ⟨-, rfl, -⟩ | ⟨-, rfl, -⟩ | ⟨-, rfl, -⟩ <;> exact hno (by simp))]
  rfl

end

end

/-! ## A concrete case -/

/-- The server of examples/errors_verbose.rs, but that it is not verbose: its database has crashed. -/
def crashServer : Endpoint (BodyReader Script) := errorsServer lastMatch simplePath (.error (ascii "The database crashed")) (ascii "looking for user") none (fun _ => ascii "error") (ascii "Data from datastore")

/-- A request. -/
def crashRequest : ClientRequest Script := getRequest (ascii "/database_error") []
/-- Its bytes. -/
def crashRequestUp : Bytes := ascii "GET /database_error HTTP/1.1\r\nhost: h.org:81\r\ncontent-length: 0\r\n\r\n"
theorem crashRequest_ok : Requestable demoEnv.uriOk crashRequest (ascii "/database_error") [(ascii "host", ascii "h.org:81"), (ascii "content-length", ascii "0")] :=
  ⟨⟨by decide, by unfold tokenByte; decide⟩, by decide +kernel, ⟨by unfold targetByte; decide, by decide +kernel⟩, (HeaderMap.plain_ok (by decide +kernel)).1, (HeaderMap.plain_ok (by decide +kernel)).2, demoRequest_ok.host, by decide, by decide,
    by decide, by decide +kernel, by decide⟩

/-- Another. -/
def contextRequest : ClientRequest Script := getRequest (ascii "/database_error_context") []
/-- Its bytes. -/
def contextRequestUp : Bytes := ascii "GET /database_error_context HTTP/1.1\r\nhost: h.org:81\r\ncontent-length: 0\r\n\r\n"
theorem contextRequest_ok : Requestable demoEnv.uriOk contextRequest (ascii "/database_error_context") [(ascii "host", ascii "h.org:81"), (ascii "content-length", ascii "0")] :=
  ⟨⟨by decide, by unfold tokenByte; decide⟩, by decide +kernel, ⟨by unfold targetByte; decide, by decide +kernel⟩, (HeaderMap.plain_ok (by decide +kernel)).1, (HeaderMap.plain_ok (by decide +kernel)).2, demoRequest_ok.host, by decide, by decide,
    by decide, by decide +kernel, by decide⟩

/-- And another. -/
def missingRequest : ClientRequest Script := getRequest (ascii "/missing_data") []
/-- Its bytes. -/
def missingRequestUp : Bytes := ascii "GET /missing_data HTTP/1.1\r\nhost: h.org:81\r\ncontent-length: 0\r\n\r\n"
theorem missingRequest_ok : Requestable demoEnv.uriOk missingRequest (ascii "/missing_data") [(ascii "host", ascii "h.org:81"), (ascii "content-length", ascii "0")] :=
  ⟨⟨by decide, by unfold tokenByte; decide⟩, by decide +kernel, ⟨by unfold targetByte; decide, by decide +kernel⟩, (HeaderMap.plain_ok (by decide +kernel)).1, (HeaderMap.plain_ok (by decide +kernel)).2, demoRequest_ok.host, by decide, by decide,
    by decide, by decide +kernel, by decide⟩

/-- What the server answers to the first. -/
def crashDown : Bytes := responseHead .http11 500 [] (some 0) (ascii "NOW")
/-- What the server answers to the second. -/
def contextDown : Bytes := responseHead .http11 500 [(ascii "content-type", [ascii "text/plain"])] (some 16) (ascii "NOW") ++ ascii "looking for user"

/-- All hypotheses of `C101_database_error` are met: the client is not told what has happened. -/
example : ToldText (ascii "NOW") zeroPool 100 1000 crashRequest (inPieces crashDown) ⟨[], [], 0⟩ ⟨[], crashRequestUp, crashRequestUp.length⟩ 500 [] := by
  obtain ⟨c1, x1⟩ := exchange_of (endpoint := crashServer) (req := crashRequest) (up := crashRequestUp) (down := crashDown) (by decide +kernel) (by decide +kernel) (by decide +kernel) (by decide +kernel) (by decide +kernel)
  exact C101_database_error (τ := Script) simplePath_ok exactHexLen_ok x1 crashRequest_ok (by decide +kernel) nowOk (by decide) rfl (by decide)
    (fun e h => by injection h with h; subst h; exact ⟨(utf8Valid_iff _).1 (by decide +kernel), by decide⟩) (ascii "NOW")

/-- All hypotheses of `C101_context` are met. -/
example : ToldText (ascii "NOW") zeroPool 100 1000 contextRequest (inPieces contextDown) ⟨[], [], 0⟩ ⟨[], contextRequestUp, contextRequestUp.length⟩ 500 (ascii "looking for user") := by
  obtain ⟨c1, x1⟩ := exchange_of (endpoint := crashServer) (req := contextRequest) (up := contextRequestUp) (down := contextDown) (by decide +kernel) (by decide +kernel) (by decide +kernel) (by decide +kernel) (by decide +kernel)
  exact C101_context (τ := Script) simplePath_ok exactHexLen_ok x1 contextRequest_ok (by decide +kernel) nowOk (by decide) rfl (by decide) (by decide)
    ⟨(utf8Valid_iff _).1 (by decide +kernel), fun e h => by injection h with h; subst h; exact ⟨(utf8Valid_iff _).1 (by decide +kernel), by decide⟩⟩ (ascii "NOW")

/-- All hypotheses of `C101_missing` are met. -/
example : ToldText (ascii "NOW") zeroPool 100 1000 missingRequest (inPieces badDown) ⟨[], [], 0⟩ ⟨[], missingRequestUp, missingRequestUp.length⟩ 400 [] := by
  obtain ⟨c1, x1⟩ := exchange_of (endpoint := crashServer) (req := missingRequest) (up := missingRequestUp) (down := badDown) (by decide +kernel) (by decide +kernel) (by decide +kernel) (by decide +kernel) (by decide +kernel)
  exact C101_missing (τ := Script) simplePath_ok exactHexLen_ok x1 missingRequest_ok (by decide +kernel) nowOk (by decide) rfl (by decide) (ascii "NOW")

/-- All hypotheses of `C101_not_found` are met. -/
example : ToldText (ascii "NOW") zeroPool 100 1000 lostRequest (inPieces lostDown) ⟨[], [], 0⟩ ⟨[], lostRequestUp, lostRequestUp.length⟩ 404 [] := by
  obtain ⟨c1, x1⟩ := exchange_of (endpoint := crashServer) (req := lostRequest) (up := lostRequestUp) (down := lostDown) (by decide +kernel) (by decide +kernel) (by decide +kernel) (by decide +kernel) (by decide +kernel)
  exact C101_not_found (τ := Script) simplePath_ok exactHexLen_ok x1 lostRequest_ok (by decide +kernel) nowOk (by decide) (.inr (by decide)) (ascii "NOW")

/-- All hypotheses of `C101_error` are met, behind the middleware of examples/middleware.rs. -/
example : ToldText (ascii "NOW") zeroPool 100 1000 missingRequest (inPieces badDown) ⟨[], [], 0⟩ ⟨[], missingRequestUp, missingRequestUp.length⟩ 400 [] := by
  obtain ⟨c1, x1⟩ := exchange_of (endpoint := (buildRouter (errorsRouter (.ok ()) [] none (fun _ => ascii "error") [] : List (BuildOp (Handler Script)))).behind lastMatch simplePath (fun _ => ascii "error") (simpleCors (ascii "*")))
    (req := missingRequest) (up := missingRequestUp) (down := badDown) (by decide +kernel) (by decide +kernel) (by decide +kernel) (by decide +kernel) (by decide +kernel)
  obtain ⟨rsp, hs, -, -, -, -, -, a⟩ := C101_error (τ := Script) errorsRouter_plain simplePath_ok exactHexLen_ok x1 missingRequest_ok (by decide +kernel) (g := .badRequest)
    (plainGlitch_transmittable nowOk (by decide) rfl rfl ⟨fun hs h => (by cases h), by decide⟩ (fun st h => by
      injection h with h
      subst h
      exact ⟨(by decide : (100 : UInt16) ≤ 400), (by decide : (400 : UInt16) < 1000)⟩)) (p := ascii "/missing_data") (e := missingData none fun _ => ascii "error") (caps := [])
    (by simp [errorsRouter, routes, missingRequest, getRequest])
    (by
      have e : segments none (ascii "/missing_data") = (ascii "/missing_data").map .lit ++ [] := by decide
      unfold PatternMatchesNonEmpty
      rw [e]
      exact (matches_literal (s := ascii "/missing_data")).2 ⟨[], by decide, .nil⟩)
    (by
      intro p e caps hin hmt hmap ext resp _
      obtain ⟨h1, -⟩ := errors_match hin hmt
      have e1 : simplePath (ascii "/missing_data") = ascii "/missing_data" := by decide
      rw [e1] at h1
      subst h1
      simp only [errorsRouter, routes, List.mem_cons, List.not_mem_nil, or_false, Prod.mk.injEq] at hin
      rcases hin with ⟨-, h, -⟩ | ⟨-, h, -⟩ | ⟨-, -, rfl⟩
      · exact absurd h (by decide)
      · exact absurd h (by decide)
      · exact rfl) (ascii "NOW")
  exact a ((utf8Valid_iff _).1 (by decide +kernel)) (by decide)

end Tophat
