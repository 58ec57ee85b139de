import Verif.Proofs.Cors
import Verif.Props.Glitch
import Verif.Props.Router
/-!
# Properties of CORS (C41 – C45)
-/

set_option linter.unusedSectionVars false
set_option synthInstance.maxSize 1000

namespace Tophat
open Spec HeaderMap

section
variable {σ : Type}

/-! ## What `validate` returns and does to the response under construction -/

/-- **C41.**  A request whose (first) `Origin` is not allowed is refused with a plain 400, whatever its method, and the response
under construction is not touched. -/
theorem C41_refused {c : Cors} {method : Bytes} {headers : HeaderMap} {o : Bytes} (ho : (headers.getAll (ascii "origin")).head? = some o)
    (hn : ¬ c.AllowsOrigin o) (resp : Response σ) : c.validate method headers resp = (resp, .error ⟨some 400, none, none, none, none⟩) := by
  have hb : c.isOriginAllowed o = false := by
    rw [Bool.eq_false_iff]; exact fun h => hn (isOriginAllowed_iff.1 h)
  have ho' : headers.get H.origin = some o := ho
  unfold Cors.validate
  rw [ho']
  by_cases hm : method = H.options <;> simp [hm, hb, Glitch.badRequest]

/-- **C42.**  Any other request than an `OPTIONS` request with an allowed `Origin` passes, and exactly these headers of the response under
construction are changed: the allowed origin becomes that origin, credentials and exposed headers are set if configured. -/
theorem C42_simple {c : Cors} {method : Bytes} {headers : HeaderMap} {o : Bytes} (ho : (headers.getAll (ascii "origin")).head? = some o)
    (ha : c.AllowsOrigin o) (hm : method ≠ ascii "OPTIONS") {resp : Response σ} (hw : resp.headers.WF) :
    ∃ hs, c.validate method headers resp = ({ resp with headers := hs }, .ok ()) ∧ hs.WF ∧
      ∀ k, hs.getAll k = match c.simpleField o k with
        | some v => [v]
        | none => resp.headers.getAll k := by
  have ho' : headers.get H.origin = some o := ho
  obtain ⟨h1, h2⟩ := common_fields c o hw
  refine ⟨_, ?_, h1, fun k => ?_⟩
  · unfold Cors.validate
    rw [ho']
    have hm' : method ≠ H.options := hm
    simp only [if_neg hm', isOriginAllowed_iff.2 ha, if_true]
    rfl
  · rw [h2]; cases c.simpleField o k <;> rfl

/-- **C43.**  A granted preflight request ends with a 200 that carries the configured headers, and the response under
construction is not touched. -/
theorem C43_granted {c : Cors} (hc : c.Ok) {headers : HeaderMap} {o : Bytes} (ho : (headers.getAll (ascii "origin")).head? = some o)
    (hg : c.Grants headers o) (resp : Response σ) :
    ∃ hs, c.validate (ascii "OPTIONS") headers resp = (resp, .error ⟨some 200, some hs, none, none, none⟩) ∧ hs.WF ∧
      ∀ k, hs.getAll k = (c.preflightField o k).toList := by
  have ho' : headers.get H.origin = some o := ho
  obtain ⟨h1, h2⟩ := preflight_fields c o
  obtain ⟨g1, g2, g3⟩ := (grants_iff hc).1 hg
  refine ⟨_, ?_, h1, h2⟩
  unfold Cors.validate
  rw [ho']
  have hm : ascii "OPTIONS" = H.options := rfl
  simp only [hm, if_true, g1, g2, g3, Bool.not_true, if_false, Bool.false_eq_true]
  rfl

/-- **C43.**  Any other preflight request ends with a plain 400. -/
theorem C43_refused {c : Cors} (hc : c.Ok) {headers : HeaderMap} {o : Bytes} (ho : (headers.getAll (ascii "origin")).head? = some o)
    (hg : ¬ c.Grants headers o) (resp : Response σ) :
    c.validate (ascii "OPTIONS") headers resp = (resp, .error ⟨some 400, none, none, none, none⟩) := by
  have ho' : headers.get H.origin = some o := ho
  rw [grants_iff hc] at hg
  unfold Cors.validate
  rw [ho']
  have hm : ascii "OPTIONS" = H.options := rfl
  simp only [hm, if_true]
  cases g1 : c.isOriginAllowed o
  · rfl
  · cases g2 : c.requestMethodAllowed headers
    · rfl
    · cases g3 : c.requestHeadersAllowed headers
      · rfl
      · exact (hg ⟨g1, g2, g3⟩).elim

/-- **C44.**  A request without `Origin` passes, and the response under construction is not touched. -/
theorem C44_unchanged (c : Cors) (method : Bytes) {headers : HeaderMap} (ho : headers.getAll (ascii "origin") = []) (resp : Response σ) :
    c.validate method headers resp = (resp, .ok ()) := by
  have ho' : headers.get H.origin = none := by
    show (headers.getAll (ascii "origin")).head? = none
    rw [ho]; rfl
  unfold Cors.validate
  rw [ho']

/-! ## On the wire -/

theorem guard_ok {c : Cors} {app : Response σ → Endpoint (BodyReader σ)} {head : ReqHead} {len : Option Nat} {resp : Response σ}
    (h : c.validate head.method head.headers (freshResponse : Response σ) = (resp, .ok ())) : c.guard app head len = app resp head len := by
  unfold Cors.guard; rw [h]

theorem guard_err {c : Cors} {app : Response σ → Endpoint (BodyReader σ)} {head : ReqHead} {len : Option Nat} {resp : Response σ} {g : Glitch}
    (h : c.validate head.method head.headers (freshResponse : Response σ) = (resp, .error g)) : c.guard app head len = .glitch g := by
  unfold Cors.guard; rw [h]

/-- **C42.**  The application goes on with a response that has the headers of `validate`, status 200 and no body. -/
theorem C42_guard {c : Cors} {app : Response σ → Endpoint (BodyReader σ)} {head : ReqHead} {len : Option Nat} {o : Bytes}
    (ho : (head.headers.getAll (ascii "origin")).head? = some o) (ha : c.AllowsOrigin o) (hm : head.method ≠ ascii "OPTIONS") :
    ∃ hs : HeaderMap, c.guard app head len = app ⟨200, hs, .http11, .empty⟩ head len ∧ hs.WF ∧ ∀ k, hs.getAll k = (c.simpleField o k).toList := by
  obtain ⟨hs, h1, h2, h3⟩ := C42_simple ho ha hm (resp := (freshResponse : Response σ)) wf_nil
  refine ⟨hs, guard_ok h1, h2, fun k => ?_⟩
  rw [h3]
  cases c.simpleField o k <;> rfl

/-- **C44.**  The application sees the request and a fresh response. -/
theorem C44_guard {c : Cors} {app : Response σ → Endpoint (BodyReader σ)} {head : ReqHead} {len : Option Nat}
    (ho : head.headers.getAll (ascii "origin") = []) : c.guard app head len = app freshResponse head len :=
  guard_ok (C44_unchanged c head.method ho freshResponse)

end

section
variable {ρ : Type} [AsyncRead ρ] [LawfulRead ρ] {σ : Type} [AsyncBufRead σ]

/-- An endpoint that fails at once. -/
theorem immediate_glitch {env : Env} (hx : HexLenOk env.hexLen) {opts : ServerOpts} {endpoint : Endpoint σ} {fuel n : Nat} {c c' : Conn ρ}
    {ev : List Event} {res : Option AcceptRes} (hs : acceptStep env opts endpoint fuel n c = .ret (c', ev, res)) {head : ReqHead} {len : Option Nat}
    (hc : .call head len ∈ ev) {g : Glitch} (hg : endpoint head len = .glitch g) : (endpoint head len).afterReads (bodyReads ev) = some (.glitch g) := by
  obtain ⟨r0, h, i, fs, hv⟩ := call_inv (acceptStep_spec hx hs) hc
  obtain ⟨used, body, body', w1, w2, ev1, g', ev2, a1, a2, a3, a4, a5, a6, a7⟩ := hv.run
  have e2 : bodyReads ev2 = [] := by
    unfold answerGlitch at a5
    split at a5
    · simp only [Run.ret.injEq, Prod.mk.injEq] at a5; rw [← a5.2]; rfl
    · obtain ⟨⟨w3, r⟩, _, h2⟩ := Run.bind_eq_ret.1 a5
      simp only [Run.ret.injEq, Prod.mk.injEq] at h2; rw [← h2.2]; rfl
  rw [hg] at a4
  have e1 : ev1 = [] := by
    unfold runProg at a4
    simp only [Run.ret.injEq, Prod.mk.injEq] at a4
    exact a4.2.2.1.symm
  have e3 : bodyReads ev = [] := by
    rw [a7, bodyReads_append]
    have : bodyReads (Spec.interim i) = [] := by cases i <;> rfl
    rw [this, List.nil_append]
    show bodyReads (ev1 ++ ev2) = _
    rw [bodyReads_append, e1, e2]; rfl
  rw [e3, hg]
  rfl

theorem wf_getAll_nil {hs : HeaderMap} (hw : hs.WF) (h : ∀ k, hs.getAll k = []) : hs = [] := by
  cases hs with
  | nil => rfl
  | cons e hs =>
    obtain ⟨k, vs⟩ := e
    cases vs with
    | nil => exact (hw.vals (k, []) (by simp) rfl).elim
    | cons v vs =>
      have := h k
      simp [HeaderMap.getAll, HeaderMap.iter] at this

/-- A plain 400. -/
theorem plain_400_wire {env : Env} (hx : HexLenOk env.hexLen) {opts : ServerOpts} {endpoint : Endpoint σ} {fuel n : Nat} {c c' : Conn ρ}
    {ev : List Event} {res : Option AcceptRes} (hs : acceptStep env opts endpoint fuel n c = .ret (c', ev, res)) {head : ReqHead} {len : Option Nat}
    (hc : .call head len ∈ ev) (hg : endpoint head len = .glitch ⟨some 400, none, none, none, none⟩) :
    res = none ∧ ∃ i after, ev = interim i ++ .call head len :: after ∧
      (c.wr.Reliable → written after = responseHead .http11 400 [] (some 0) (env.now n)) := by
  obtain ⟨h1, i, after, hs', h2, h3, h4⟩ := C34_response hx hs hc (g := ⟨some 400, none, none, none, none⟩) ⟨by simp, by decide⟩ (immediate_glitch hx hs hc hg)
  refine ⟨h1, i, after, h2, fun hr => ?_⟩
  have e : glitchBody opts.verboseGlitch none none = [] := by cases opts.verboseGlitch <;> rfl
  have e2 : hs' = [] := wf_getAll_nil h3.1 fun k => by
    have := h3.2 k
    dsimp only at this
    rw [e] at this
    rw [this, if_neg (by simp)]; rfl
  have := h4.2 hr
  dsimp only at this
  rw [e, e2] at this
  simpa using this

/-- **C41.**  A request of a disallowed origin is answered with an empty 400 response without any access-control header; the
application does not see it. -/
theorem C41_wire {env : Env} (hx : HexLenOk env.hexLen) {opts : ServerOpts} {cors : Cors} {app : Response σ → Endpoint (BodyReader σ)} {fuel n : Nat}
    {c c' : Conn ρ} {ev : List Event} {res : Option AcceptRes} (hs : acceptStep env opts (cors.guard app) fuel n c = .ret (c', ev, res)) {head : ReqHead}
    {len : Option Nat} (hc : .call head len ∈ ev) {o : Bytes} (ho : (head.headers.getAll (ascii "origin")).head? = some o) (hn : ¬ cors.AllowsOrigin o) :
    res = none ∧ ∃ i after, ev = interim i ++ .call head len :: after ∧
      (c.wr.Reliable → written after = responseHead .http11 400 [] (some 0) (env.now n)) :=
  plain_400_wire hx hs hc (guard_err (C41_refused ho hn freshResponse))

/-- **C43.**  Likewise for preflight requests that are not granted. -/
theorem C43_wire_refused {env : Env} (hx : HexLenOk env.hexLen) {opts : ServerOpts} {cors : Cors} (hcors : cors.Ok) {app : Response σ → Endpoint (BodyReader σ)}
    {fuel n : Nat} {c c' : Conn ρ} {ev : List Event} {res : Option AcceptRes} (hs : acceptStep env opts (cors.guard app) fuel n c = .ret (c', ev, res))
    {head : ReqHead} {len : Option Nat} (hc : .call head len ∈ ev) (hm : head.method = ascii "OPTIONS") {o : Bytes}
    (ho : (head.headers.getAll (ascii "origin")).head? = some o) (hn : ¬ cors.Grants head.headers o) :
    res = none ∧ ∃ i after, ev = interim i ++ .call head len :: after ∧
      (c.wr.Reliable → written after = responseHead .http11 400 [] (some 0) (env.now n)) := by
  refine plain_400_wire hx hs hc (guard_err (resp := (freshResponse : Response σ)) ?_)
  rw [hm]
  exact C43_refused hcors ho hn freshResponse

/-- **C43.**  A granted preflight request is answered with an empty 200 response with exactly the configured headers (and the
framing headers and the date that every response has); the application does not see it. -/
theorem C43_wire_granted {env : Env} (hx : HexLenOk env.hexLen) {opts : ServerOpts} {cors : Cors} (hcors : cors.Ok) {app : Response σ → Endpoint (BodyReader σ)}
    {fuel n : Nat} {c c' : Conn ρ} {ev : List Event} {res : Option AcceptRes} (hs : acceptStep env opts (cors.guard app) fuel n c = .ret (c', ev, res))
    {head : ReqHead} {len : Option Nat} (hc : .call head len ∈ ev) (hm : head.method = ascii "OPTIONS") {o : Bytes}
    (ho : (head.headers.getAll (ascii "origin")).head? = some o) (hg : cors.Grants head.headers o) :
    res = none ∧ ∃ i after hs, ev = interim i ++ .call head len :: after ∧ hs.WF ∧ (∀ k, hs.getAll k = (cors.preflightField o k).toList) ∧
      (c.wr.Reliable → written after = responseHead .http11 200 hs (some 0) (env.now n)) := by
  obtain ⟨hs1, k1, k2, k3⟩ := C43_granted hcors ho hg (freshResponse : Response σ)
  rw [← hm] at k1
  have hgl : cors.guard app head len = .glitch ⟨some 200, some hs1, none, none, none⟩ := guard_err k1
  obtain ⟨h1, i, after, hs', h2, h3, h4⟩ := C34_response hx hs hc (g := ⟨some 200, some hs1, none, none, none⟩)
    ⟨by intro h e; injection e with e; subst e; exact k2, by show 8192 + (0 + 1 + 0) < usizeLimit; decide⟩ (immediate_glitch hx hs hc hgl)
  have e : glitchBody opts.verboseGlitch none none = [] := by cases opts.verboseGlitch <;> rfl
  refine ⟨h1, i, after, hs', h2, h3.1, fun k => ?_, fun hr => ?_⟩
  · have := h3.2 k
    dsimp only at this
    rw [e] at this
    rw [this, if_neg (by simp)]
    exact k3 k
  · have := h4.2 hr
    dsimp only at this
    rw [e] at this
    simpa using this

end

/-! ## The builder -/

/-- A `since` as in `C45_origins` exists for every history. -/
theorem sinceAnyOrigin_exists (ops : List CorsOp) : ∃ since, SinceAnyOrigin ops since := by
  induction ops with
  | nil => exact ⟨[], .inl rfl, by simp⟩
  | cons op ops ih =>
    obtain ⟨since, h1, h2⟩ := ih
    rcases h1 with rfl | ⟨before, rfl⟩
    · by_cases ho : op = .allowAnyOrigin
      · subst ho; exact ⟨ops, .inr ⟨[], rfl⟩, h2⟩
      · exact ⟨op :: ops, .inl rfl, by simp [Ne.symm ho, h2]⟩
    · exact ⟨since, .inr ⟨op :: before, rfl⟩, h2⟩

/-- **C45.**  Building panics if and only if some argument is not a valid method, header name or origin. -/
theorem C45_panic (originOf : Bytes → Option Bytes) (order : List Bytes → List Bytes) (ops : List CorsOp) :
    (buildCors originOf order ops = .panic ↔ ∃ op ∈ ops, ¬ op.Legal originOf) ∧ buildCors originOf order ops ≠ .diverge := by
  unfold buildCors
  rcases applyAll_cases (originOf := originOf) ops .new with ⟨b, h⟩ | ⟨h, hl⟩
  · rw [h]
    refine ⟨⟨(by intro h; cases h), ?_⟩, (by intro h; cases h)⟩
    rintro ⟨op, hop, hl⟩
    exact (hl ((applyAll_built h).1 op hop)).elim
  · rw [h]
    exact ⟨⟨fun _ => hl, fun _ => rfl⟩, (by intro h; cases h)⟩

/-- **C45.**  The methods, headers and exposed headers of the configuration, for decisions and in the texts of headers, are those
added by any call; credentials and maximal age are as last set.  `order` is the order in which hash sets are iterated over. -/
theorem C45_built {originOf : Bytes → Option Bytes} {order : List Bytes → List Bytes} (hord : ∀ l, (order l).Perm l) {ops : List CorsOp} {c : Cors}
    (h : buildCors originOf order ops = .ret c) :
    (∀ m, m ∈ c.methodsSet ↔ ∃ op ∈ ops, op.AllowsMethod m) ∧ Lists c.methods (fun m => ∃ op ∈ ops, op.AllowsMethod m) ∧
    (∀ h, h ∈ c.allowedHeadersSet ↔ ∃ op ∈ ops, op.AllowsHeader h) ∧ Lists c.allowedHeaders (fun h => ∃ op ∈ ops, op.AllowsHeader h) ∧
    (c.exposedHeaders = none ↔ ∀ h, ¬ ∃ op ∈ ops, op.Exposes h) ∧ (∀ v, c.exposedHeaders = some v → Lists v (fun h => ∃ op ∈ ops, op.Exposes h)) ∧
    c.credentials = (lastSaid CorsOp.credentials? ops).getD false ∧ c.maxAge = lastSaid CorsOp.maxAge? ops := by
  obtain ⟨b, h1, h2⟩ := Run.bind_eq_ret.1 h
  injection h2 with h2
  subst h2
  obtain ⟨-, i1, i2, i3, i4, i5, i6⟩ := applyAll_built h1
  obtain ⟨n1, n2, n3⟩ := i6 (by simp [CorsBuilder.new])
  have i1' : ∀ m, m ∈ b.methods ↔ ∃ op ∈ ops, op.AllowsMethod m := fun m => by rw [i1]; simp [CorsBuilder.new]
  have i2' : ∀ m, m ∈ b.allowedHeaders ↔ ∃ op ∈ ops, op.AllowsHeader m := fun m => by rw [i2]; simp [CorsBuilder.new]
  have i3' : ∀ m, m ∈ b.exposedHeaders ↔ ∃ op ∈ ops, op.Exposes m := fun m => by rw [i3]; simp [CorsBuilder.new]
  have lists : ∀ (l : List Bytes) (p : Bytes → Prop), l.Nodup → (∀ x, x ∈ l ↔ p x) → Lists (joinCsv (order l)) p := by
    intro l p hn hp
    exact ⟨order l, (hord l).nodup_iff.2 hn, fun x => by rw [(hord l).mem_iff, hp], joinCsv_eq _⟩
  refine ⟨i1', lists _ _ n1 i1', i2', lists _ _ n2 i2', ?_, ?_, ?_, ?_⟩
  · show (if b.exposedHeaders = [] then none else some _) = none ↔ _
    rw [← not_exists]
    constructor
    · intro hh
      split at hh
      · rename_i he
        rintro ⟨x, hx⟩
        have := (i3' x).2 hx
        rw [he] at this; cases this
      · cases hh
    · intro hh
      rw [if_pos]
      cases he : b.exposedHeaders with
      | nil => rfl
      | cons x l => exact (hh ⟨x, (i3' x).1 (by rw [he]; simp)⟩).elim
  · intro v hv
    have hv' : (if b.exposedHeaders = [] then none else some (joinCsv (order b.exposedHeaders))) = some v := hv
    split at hv'
    · cases hv'
    · injection hv' with hv'
      subst hv'
      exact lists _ _ n3 i3'
  · show b.credentials = _
    rw [i4]; rfl
  · show b.maxAge = _
    rw [i5]; simp [CorsBuilder.new]

/-- **C45.**  If no origin was added since `allow_any_origin` was last called (or ever), every origin is allowed, otherwise those added
since then. -/
theorem C45_origins {originOf : Bytes → Option Bytes} {order : List Bytes → List Bytes} {ops since : List CorsOp} (hsince : SinceAnyOrigin ops since) {c : Cors}
    (h : buildCors originOf order ops = .ret c) (o : Bytes) :
    c.AllowsOrigin o ↔ (∀ op ∈ since, ¬ op.Restricts) ∨ ∃ op ∈ since, op.AllowsOrigin originOf o := by
  obtain ⟨b, h1, h2⟩ := Run.bind_eq_ret.1 h
  injection h2 with h2
  subst h2
  obtain ⟨hs, hn⟩ := hsince
  have key : ((∀ op ∈ since, ¬ op.Restricts) → b.origins = none) ∧
      ((∃ op ∈ since, op.Restricts) → ∃ l, b.origins = some l ∧ ∀ o, o ∈ l ↔ ∃ op ∈ since, op.AllowsOrigin originOf o) := by
    rcases hs with rfl | ⟨before, rfl⟩
    · obtain ⟨k1, k2⟩ := applyAll_origins h1 hn
      refine ⟨k1, fun hr => ?_⟩
      obtain ⟨l, hl, hm⟩ := k2 hr
      exact ⟨l, hl, fun o => by rw [hm]; simp [CorsBuilder.new]⟩
    · obtain ⟨b1, g1, g2⟩ := applyAll_append before h1
      obtain ⟨b2, g3, g4⟩ := Run.bind_eq_ret.1 g2
      have hb2 := (apply_ret g3).anyOrigin rfl
      obtain ⟨k1, k2⟩ := applyAll_origins g4 hn
      refine ⟨fun hr => by rw [k1 hr, hb2], fun hr => ?_⟩
      obtain ⟨l, hl, hm⟩ := k2 hr
      exact ⟨l, hl, fun o => by rw [hm, hb2]; simp⟩
  by_cases hr : ∃ op ∈ since, op.Restricts
  · obtain ⟨l, hl, hm⟩ := key.2 hr
    have : Cors.AllowsOrigin (b.finish order) o ↔ o ∈ l := by
      show (∀ l', b.origins = some l' → o ∈ l') ↔ _
      rw [hl]; simp
    rw [this, hm]
    constructor
    · exact .inr
    · rintro (h | h)
      · obtain ⟨op, ho, hx⟩ := hr; exact (h op ho hx).elim
      · exact h
  · have hr' : ∀ op ∈ since, ¬ op.Restricts := fun op ho hx => hr ⟨op, ho, hx⟩
    constructor
    · intro _; exact .inl hr'
    · intro _
      show ∀ l', b.origins = some l' → o ∈ l'
      rw [key.1 hr']; simp

/-- The hypothesis `Ok` of the theorems above holds for whatever a builder makes. -/
theorem C45_ok {originOf : Bytes → Option Bytes} {order : List Bytes → List Bytes} {ops : List CorsOp} {c : Cors}
    (h : buildCors originOf order ops = .ret c) : c.Ok := by
  obtain ⟨b, h1, h2⟩ := Run.bind_eq_ret.1 h
  injection h2 with h2
  subst h2
  obtain ⟨i0, i1, i2, -⟩ := applyAll_built h1
  constructor
  · intro m hm
    rcases (i1 m).1 hm with h | ⟨op, ho, hx⟩
    · cases h
    · have hl := i0 op ho
      cases op <;> simp only [CorsOp.AllowsMethod] at hx
      · subst hx; exact hl
      · exact hl m hx
  · intro m hm
    have aux : ∀ x, headerNameFromBytes x ≠ none → headerNameFromBytes (lower x) = some (lower x) :=
      fun x hx => headerName_idem ((headerName_some hx).2 rfl)
    rcases (i2 m).1 hm with h | ⟨op, ho, hx⟩
    · cases h
    · have hl := i0 op ho
      cases op <;> simp only [CorsOp.AllowsHeader] at hx
      · subst hx; exact aux _ hl
      · obtain ⟨x, hx, rfl⟩ := hx; exact aux _ (hl x hx)

/-- **C45.**  Order and repetition of the calls do not matter: two histories that allow the same methods, headers and origins take the same
decision about every request, whatever the order of iteration over sets. -/
theorem C45_order {σ : Type} {originOf : Bytes → Option Bytes} {order order' : List Bytes → List Bytes} (hord : ∀ l, (order l).Perm l) (hord' : ∀ l, (order' l).Perm l)
    {ops ops' since since' : List CorsOp} (hs : SinceAnyOrigin ops since) (hs' : SinceAnyOrigin ops' since')
    (hm : ∀ m, (∃ op ∈ ops, op.AllowsMethod m) ↔ ∃ op ∈ ops', op.AllowsMethod m) (hh : ∀ h, (∃ op ∈ ops, op.AllowsHeader h) ↔ ∃ op ∈ ops', op.AllowsHeader h)
    (ho : ∀ o, (∃ op ∈ since, op.AllowsOrigin originOf o) ↔ ∃ op ∈ since', op.AllowsOrigin originOf o) (hr : (∃ op ∈ since, op.Restricts) ↔ ∃ op ∈ since', op.Restricts)
    {c c' : Cors} (h : buildCors originOf order ops = .ret c) (h' : buildCors originOf order' ops' = .ret c') (method : Bytes) (headers : HeaderMap) {resp : Response σ} (hw : resp.headers.WF) :
    ((c.validate method headers resp).2 = .ok () ↔ (c'.validate method headers resp).2 = .ok ()) ∧
    (c.validate method headers resp = (resp, .error .badRequest) ↔ c'.validate method headers resp = (resp, .error .badRequest)) := by
  have hao : ∀ o, c.AllowsOrigin o ↔ c'.AllowsOrigin o := by
    intro o
    rw [C45_origins hs h, C45_origins hs' h', ho o]
    have : (∀ op ∈ since, ¬ op.Restricts) ↔ ∀ op ∈ since', ¬ op.Restricts := by
      constructor
      · intro hn op hop hx; obtain ⟨y, hy, hz⟩ := hr.2 ⟨op, hop, hx⟩; exact hn y hy hz
      · intro hn op hop hx; obtain ⟨y, hy, hz⟩ := hr.1 ⟨op, hop, hx⟩; exact hn y hy hz
    rw [this]
  obtain ⟨b1, -, b2, -⟩ := C45_built hord h
  obtain ⟨d1, -, d2, -⟩ := C45_built hord' h'
  have hgr : ∀ o, c.Grants headers o ↔ c'.Grants headers o := by
    intro o
    constructor
    · rintro ⟨x1, ⟨m, x2, x3⟩, x4⟩
      refine ⟨(hao o).1 x1, ⟨m, x2, (d1 m).2 ((hm m).1 ((b1 m).1 x3))⟩, fun v hv => ?_⟩
      obtain ⟨es, y1, y2⟩ := x4 v hv
      exact ⟨es, y1, fun e he => (d2 _).2 ((hh _).1 ((b2 _).1 (y2 e he)))⟩
    · rintro ⟨x1, ⟨m, x2, x3⟩, x4⟩
      refine ⟨(hao o).2 x1, ⟨m, x2, (b1 m).2 ((hm m).2 ((d1 m).1 x3))⟩, fun v hv => ?_⟩
      obtain ⟨es, y1, y2⟩ := x4 v hv
      exact ⟨es, y1, fun e he => (b2 _).2 ((hh _).2 ((d2 _).1 (y2 e he)))⟩
  cases hor : (headers.getAll (ascii "origin")).head? with
  | none =>
    have hnil : headers.getAll (ascii "origin") = [] := List.head?_eq_none_iff.1 hor
    rw [C44_unchanged c method hnil, C44_unchanged c' method hnil]
    exact ⟨Iff.rfl, Iff.rfl⟩
  | some o =>
    by_cases ha : c.AllowsOrigin o
    · by_cases hmt : method = ascii "OPTIONS"
      · subst hmt
        by_cases hg : c.Grants headers o
        · obtain ⟨l, e1, -, -⟩ := C43_granted (C45_ok h) hor hg resp
          obtain ⟨l', e2, -, -⟩ := C43_granted (C45_ok h') hor ((hgr o).1 hg) resp
          rw [e1, e2]
          simp [Glitch.badRequest]
        · rw [C43_refused (C45_ok h) hor hg resp, C43_refused (C45_ok h') hor (fun x => hg ((hgr o).2 x)) resp]
          exact ⟨Iff.rfl, Iff.rfl⟩
      · obtain ⟨l, e1, -, -⟩ := C42_simple hor ha hmt hw
        obtain ⟨l', e2, -, -⟩ := C42_simple hor ((hao o).1 ha) hmt hw
        rw [e1, e2]
        simp
    · rw [C41_refused hor ha resp, C41_refused hor (fun x => ha ((hao o).2 x)) resp]
      exact ⟨Iff.rfl, Iff.rfl⟩

/-- **C45.**  `allow_origin` on a string: it panics on a string without `://`. -/
theorem C45_str_origin (tryFromParts : Bytes → Bytes → Option Bytes) (s : Bytes) :
    (∀ scheme rest, s = scheme ++ ascii "://" ++ rest → (∀ a b, scheme ++ ascii ":/" = a ++ ascii "://" ++ b → False) → strIntoOrigin tryFromParts s = tryFromParts scheme rest) ∧
    ((¬ ∃ scheme rest, s = scheme ++ ascii "://" ++ rest) → strIntoOrigin tryFromParts s = none) := by
  have e : ascii "://" = [58, 47, 47] := rfl
  have e' : ascii ":/" = [58, 47] := rfl
  rw [e, e']
  constructor
  · rintro scheme rest rfl hno
    unfold strIntoOrigin
    have key : ∀ (t acc : Bytes), (∀ a b, t ++ [58, 47] = a ++ [58, 47, 47] ++ b → False) →
        strIntoOrigin.go tryFromParts acc (t ++ [58, 47, 47] ++ rest) = tryFromParts (acc ++ t) rest := by
      intro t
      induction t with
      | nil => intro acc _; simp [strIntoOrigin.go]
      | cons b t ih =>
        intro acc hno
        have hno' : ∀ a b, t ++ [58, 47] = a ++ [58, 47, 47] ++ b → False := by
          intro a c h
          exact hno (b :: a) c (by rw [List.cons_append, h]; simp)
        have i := ih (acc ++ [b]) hno'
        rw [List.cons_append, List.cons_append]
        unfold strIntoOrigin.go
        split
        · rename_i r heq
          injection heq with h1 h2
          exfalso
          subst h1
          -- the text starts with "://" already
          cases t with
          | nil => simp at h2
          | cons c t =>
            simp only [List.cons_append] at h2
            injection h2 with h2 h3
            subst h2
            cases t with
            | nil => simp at h3
            | cons d t =>
              simp only [List.cons_append] at h3
              injection h3 with h3 h4
              subst h3
              exact hno [] (t ++ [58, 47]) (by simp)
        · rename_i b' s' hne heq
          injection heq with h1 h2
          subst h1; subst h2
          rw [i]; simp
        · rename_i heq; cases heq
    have := key scheme [] hno
    simpa using this
  · intro hno
    unfold strIntoOrigin
    have key : ∀ (t acc : Bytes), (∀ a b, t = a ++ [58, 47, 47] ++ b → False) → strIntoOrigin.go tryFromParts acc t = none := by
      intro t
      induction t with
      | nil => intro acc _; rfl
      | cons b t ih =>
        intro acc hno
        unfold strIntoOrigin.go
        split
        · rename_i r heq
          exact (hno [] r (by rw [heq]; simp)).elim
        · rename_i b' s' hne heq
          injection heq with h1 h2
          subst h1; subst h2
          exact ih _ fun a c h => hno (b :: a) c (by rw [h]; simp)
        · rfl
    exact key s [] fun a b h => hno ⟨a, b, h⟩

/-! ## A concrete configuration -/

/-- The configuration of examples/cors.rs, and more. -/
def demoCorsOps : List CorsOp :=
  [.allowOrigin (ascii "http://old.example"), .allowAnyOrigin, .allowOrigin (ascii "http://example.com"), .allowMethods [ascii "GET", ascii "POST", ascii "GET"],
    .allowHeader (ascii "Content-Type"), .allowHeaders [ascii "x-a"], .exposeHeader (ascii "X-B"), .allowCredentials true, .maxAge 5, .maxAge 86400]

/-- The result of building it. -/
def demoCors : Cors :=
  { credentials := true, allowedHeadersSet := [ascii "content-type", ascii "x-a"], allowedHeaders := ascii "content-type, x-a", exposedHeaders := some (ascii "x-b"),
    maxAge := some 86400, methodsSet := [ascii "GET", ascii "POST"], methods := ascii "GET, POST", origins := some [ascii "http://example.com"] }

theorem demoCors_built : buildCors some id demoCorsOps = .ret demoCors := by decide +kernel

example : SinceAnyOrigin demoCorsOps (demoCorsOps.drop 2) := ⟨.inr ⟨demoCorsOps.take 1, by decide⟩, by decide⟩

example : demoCors.Ok := C45_ok demoCors_built

/-- A preflight request that is granted. -/
def demoPreflight : HeaderMap :=
  [(ascii "origin", [ascii "http://example.com"]), (ascii "access-control-request-method", [ascii "POST"]), (ascii "access-control-request-headers", [ascii "X-A,content-type"])]

example : (demoPreflight.getAll (ascii "origin")).head? = some (ascii "http://example.com") ∧ demoCors.Grants demoPreflight (ascii "http://example.com") :=
  ⟨by decide, (grants_iff (C45_ok demoCors_built)).2 ⟨by decide, by decide, by decide⟩⟩

/-- The same with a blank after the comma, as the Fetch standard does not write but other clients may, is not. -/
def demoBlank : HeaderMap :=
  [(ascii "origin", [ascii "http://example.com"]), (ascii "access-control-request-method", [ascii "POST"]), (ascii "access-control-request-headers", [ascii "X-A, content-type"])]

example : ¬ demoCors.Grants demoBlank (ascii "http://example.com") := fun h => by
  have := ((grants_iff (C45_ok demoCors_built)).1 h).2.2
  revert this; decide

example : demoCors.AllowsOrigin (ascii "http://example.com") ∧ ¬ demoCors.AllowsOrigin (ascii "http://old.example") :=
  ⟨isOriginAllowed_iff.1 (by decide), fun h => by have := isOriginAllowed_iff.2 h; revert this; decide⟩

/-- An application that answers with the response it is given. -/
def corsApp : Response Script → Endpoint (BodyReader Script) := fun resp _ _ => .send resp.toInner (fun _ => .ok) fun _ => .glitch .new

/-- What a server with this application and configuration answers. -/
def corsAnswer (frags : List Bytes) : Run (List (ReqHead × Option Nat) × Bytes) := do
  let (_, ev, _) ← acceptStep demoEnv plainOpts (demoCors.guard corsApp) 1000 0 (connOf frags)
  .ret (calls ev, written ev)

/-- A preflight request, in two fragments. -/
example : corsAnswer [ascii "OPTIONS / HTTP/1.1\r\nhost: a\r\norigin: http://exa", ascii "mple.com\r\naccess-control-request-method: GET\r\n\r\n"] =
    .ret ([(⟨ascii "OPTIONS", ascii "/", [(ascii "host", [ascii "a"]), (ascii "origin", [ascii "http://example.com"]), (ascii "access-control-request-method", [ascii "GET"])]⟩, some 0)],
      responseHead .http11 200 [(ascii "access-control-allow-credentials", [ascii "true"]), (ascii "access-control-expose-headers", [ascii "x-b"]),
        (ascii "access-control-allow-headers", [ascii "content-type, x-a"]), (ascii "access-control-allow-methods", [ascii "GET, POST"]),
        (ascii "access-control-max-age", [ascii "86400"]), (ascii "access-control-allow-origin", [ascii "http://example.com"])] (some 0) (demoEnv.now 0)) := by
  decide +kernel

/-- A simple request of another origin. -/
example : corsAnswer [ascii "GET / HTTP/1.1\r\nhost: a\r\norigin: http://old.example\r\n\r\n"] =
    .ret ([(⟨ascii "GET", ascii "/", [(ascii "host", [ascii "a"]), (ascii "origin", [ascii "http://old.example"])]⟩, some 0)],
      responseHead .http11 400 [] (some 0) (demoEnv.now 0)) := by
  decide +kernel

end Tophat
