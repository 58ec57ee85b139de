import Verif.Props.Cors
import Verif.Props.Session
import Verif.Props.Failing
/-!
# Property C93: CORS over the network
-/

set_option linter.unusedSectionVars false
set_option synthInstance.maxSize 1000

namespace Tophat
open Spec HeaderMap

/-! ## Helpers -/

/-- A header value that can be sent and arrives as it is. -/
def PlainValue (v : Bytes) : Prop := headerValueFromBytes v = some v ∧ ∀ b, v.head? = some b → b ≠ 32 ∧ b ≠ 9

theorem isTokenByte_lower {b : UInt8} (h : isTokenByte b = true) : isTokenByte (lowerByte b) = true := by
  have key : ∀ n : Fin 256, isTokenByte (UInt8.ofNat n.1) = true → isTokenByte (lowerByte (UInt8.ofNat n.1)) = true := by decide +kernel
  have := key ⟨b.toNat, b.toNat_lt⟩
  simp only [UInt8.ofNat_toNat] at this
  exact this h

theorem plainValue_intercalate {l : List Bytes} (h : ∀ x ∈ l, x ≠ [] ∧ ∀ b ∈ x, isTokenByte b = true) : PlainValue (List.intercalate (ascii ", ") l) := by
  have htok : ∀ b, isTokenByte b = true → headerValueByte b = true ∧ b ≠ 32 ∧ b ≠ 9 := by
    intro b hb
    refine ⟨?_, ?_, ?_⟩
    · unfold isTokenByte at hb
      unfold headerValueByte
      simp only [Bool.or_eq_true, Bool.and_eq_true, decide_eq_true_eq, beq_iff_eq, bne_iff_ne] at hb ⊢
      omega
    · rintro rfl; revert hb; decide
    · rintro rfl; revert hb; decide
  have hsep : (ascii ", ").all headerValueByte = true := by decide
  have key : ∀ l : List Bytes, (∀ x ∈ l, x ≠ [] ∧ ∀ b ∈ x, isTokenByte b = true) →
      (List.intercalate (ascii ", ") l).all headerValueByte = true ∧ ∀ b, (List.intercalate (ascii ", ") l).head? = some b → b ≠ 32 ∧ b ≠ 9 := by
    intro l
    induction l with
    | nil => intro _; exact ⟨rfl, by intro b hb; cases hb⟩
    | cons a l ih =>
      intro h
      obtain ⟨h1, h2⟩ := h a (by simp)
      have hhead : ∀ rest b, (a ++ rest).head? = some b → b ≠ 32 ∧ b ≠ 9 := by
        intro rest b hb
        cases a with
        | nil => exact (h1 rfl).elim
        | cons c a =>
          simp only [List.cons_append, List.head?_cons, Option.some.injEq] at hb
          subst hb
          exact (htok c (h2 c (by simp))).2
      have hall : a.all headerValueByte = true := List.all_eq_true.2 fun b hb => (htok b (h2 b hb)).1
      cases l with
      | nil =>
        have e : List.intercalate (ascii ", ") [a] = a ++ [] := by simp [List.intercalate]
        rw [e]
        exact ⟨by simpa using hall, hhead []⟩
      | cons c l =>
        have e : List.intercalate (ascii ", ") (a :: c :: l) = a ++ (ascii ", " ++ List.intercalate (ascii ", ") (c :: l)) := by simp [List.intercalate]
        rw [e]
        refine ⟨?_, hhead _⟩
        rw [List.all_append, List.all_append, hall, hsep, (ih fun x hx => h x (List.mem_cons_of_mem _ hx)).1]
        rfl
  obtain ⟨k1, k2⟩ := key l h
  exact ⟨by unfold headerValueFromBytes; rw [if_pos k1], k2⟩

/-- The texts of the headers of a configuration can be sent. -/
theorem cors_texts {originOf : Bytes → Option Bytes} {order : List Bytes → List Bytes} (hord : ∀ l, (order l).Perm l) {ops : List CorsOp} {c : Cors}
    (h : buildCors originOf order ops = .ret c) : PlainValue c.methods ∧ PlainValue c.allowedHeaders ∧ ∀ v, c.exposedHeaders = some v → PlainValue v := by
  obtain ⟨-, h2, -, h4, -, h6, -⟩ := C45_built hord h
  have legal : ∀ op ∈ ops, op.Legal originOf := by
    intro op hop
    refine Classical.byContradiction fun hn => ?_
    have := (C45_panic originOf order ops).1.2 ⟨op, hop, hn⟩
    rw [this] at h
    cases h
  have tok : ∀ {n : Bytes}, headerNameFromBytes n ≠ none → lower n ≠ [] ∧ ∀ b ∈ lower n, isTokenByte b = true := by
    intro n hn
    obtain ⟨m, hm⟩ := Option.ne_none_iff_exists'.1 hn
    obtain ⟨t1, t2, -⟩ := headerName_token hm
    refine ⟨by cases n with | nil => exact (t1 rfl).elim | cons a n => simp [lower], fun b hb => ?_⟩
    simp only [lower, List.mem_map] at hb
    obtain ⟨a, ha, rfl⟩ := hb
    exact isTokenByte_lower (t2 a ha)
  have lists : ∀ {text : Bytes} {p : Bytes → Prop}, Lists text p → (∀ x, p x → x ≠ [] ∧ ∀ b ∈ x, isTokenByte b = true) → PlainValue text := by
    rintro text p ⟨l, -, h2, rfl⟩ hp
    exact plainValue_intercalate fun x hx => hp x ((h2 x).1 hx)
  refine ⟨lists h2 ?_, lists h4 ?_, fun v hv => lists (h6 v hv) ?_⟩
  · rintro m ⟨op, hop, ha⟩
    have hl := legal op hop
    have : methodOk m = true := by
      cases op with
      | allowMethod m' => cases ha; exact hl
      | allowMethods ms => exact hl m ha
      | _ => exact ha.elim
    unfold methodOk at this
    simp only [Bool.and_eq_true, Bool.not_eq_true', List.isEmpty_eq_false_iff, List.all_eq_true] at this
    exact this
  · rintro k ⟨op, hop, ha⟩
    have hl := legal op hop
    cases op with
    | allowHeader n => cases ha; exact tok hl
    | allowHeaders ns => obtain ⟨n, hn, rfl⟩ := ha; exact tok (hl n hn)
    | _ => exact ha.elim
  · rintro k ⟨op, hop, ha⟩
    have hl := legal op hop
    cases op with
    | exposeHeader n => cases ha; exact tok hl
    | exposeHeaders ns => obtain ⟨n, hn, rfl⟩ := ha; exact tok (hl n hn)
    | _ => exact ha.elim

/-- A configured value that a response to a preflight request carries. -/
theorem preflight_value {c : Cors} (hc : PlainValue c.methods ∧ PlainValue c.allowedHeaders ∧ ∀ v, c.exposedHeaders = some v → PlainValue v) {o : Bytes} (ho : PlainValue o) {k v : Bytes}
    (h : c.preflightField o k = some v) : PlainValue v ∧ headerNameFromBytes k = some k := by
  have dec : ∀ n, PlainValue (decimal n) := by
    intro n
    have hb : ∀ b ∈ decimal n, headerValueByte b = true ∧ b ≠ 32 ∧ b ≠ 9 := by
      intro b hb
      obtain ⟨d1, d2⟩ := decimal_digit _ b hb
      refine ⟨?_, by rintro rfl; revert d1; decide, by rintro rfl; revert d1; decide⟩
      have h127 : b.toNat ≠ 127 := by omega
      have : 32 ≤ b.toNat := by omega
      simp [headerValueByte, h127, this]
    exact ⟨by unfold headerValueFromBytes; rw [if_pos (List.all_eq_true.2 fun b h => (hb b h).1)], fun b h => (hb b (List.mem_of_mem_head? h)).2⟩
  unfold Cors.preflightField at h
  split at h
  · rename_i hk; subst hk; injection h with h; subst h; exact ⟨hc.1, by decide⟩
  split at h
  · rename_i hk; subst hk; injection h with h; subst h; exact ⟨hc.2.1, by decide⟩
  split at h
  · rename_i hk; subst hk
    cases hm : c.maxAge with
    | none => rw [hm] at h; cases h
    | some n => rw [hm] at h; injection h with h; subst h; exact ⟨dec n, by decide⟩
  unfold Cors.simpleField at h
  split at h
  · rename_i hk; subst hk; injection h with h; subst h; exact ⟨ho, by decide⟩
  split at h
  · rename_i hk; rw [hk.1]; injection h with h; subst h; exact ⟨⟨by decide, by intro b hb; rw [show (ascii "true").head? = some 116 by decide] at hb; injection hb with hb; subst hb; decide⟩, by decide⟩
  split at h
  · rename_i hk; subst hk; exact ⟨hc.2.2 v h, by decide⟩
  · cases h

/-- The number of bytes in the configured values. -/
def Cors.size (c : Cors) : Nat := c.methods.length + c.allowedHeaders.length + (c.exposedHeaders.getD []).length + (decimal (c.maxAge.getD 0)).length

theorem preflight_size (c : Cors) (o : Bytes) :
    ((c.appendPreflightHeaders []).insert H.acAllowOrigin o).iter.length ≤ 6 ∧ (renderFields ((c.appendPreflightHeaders []).insert H.acAllowOrigin o).iter).length ≤ 200 + c.size + o.length := by
  have l1 : H.acAllowOrigin.length = 27 := by decide
  have l2 : H.acAllowCredentials.length = 32 := by decide
  have l3 : H.acExposeHeaders.length = 29 := by decide
  have l4 : H.acAllowHeaders.length = 28 := by decide
  have l5 : H.acAllowMethods.length = 28 := by decide
  have l6 : H.acMaxAge.length = 22 := by decide
  have l7 : (ascii "true").length = 4 := by decide
  have h1 : (c.appendCommonHeaders []).iter.length ≤ 2 ∧ (renderFields (c.appendCommonHeaders []).iter).length ≤ 73 + (c.exposedHeaders.getD []).length := by
    have e1 : (HeaderMap.iter []).length = 0 := rfl
    have e2 : (renderFields (HeaderMap.iter [])).length = 0 := rfl
    have i1 := insert_size [] H.acAllowCredentials (ascii "true")
    unfold Cors.appendCommonHeaders
    cases c.exposedHeaders with
    | none => dsimp only; split <;> simp only [Option.getD_none, List.length_nil] <;> omega
    | some v =>
      have i2 := insert_size [] H.acExposeHeaders v
      have i3 := insert_size (HeaderMap.insert [] H.acAllowCredentials (ascii "true")) H.acExposeHeaders v
      dsimp only
      split <;> simp only [Option.getD_some] <;> omega
  have i1 := insert_size (c.appendCommonHeaders []) H.acAllowHeaders c.allowedHeaders
  have i2 := insert_size ((c.appendCommonHeaders []).insert H.acAllowHeaders c.allowedHeaders) H.acAllowMethods c.methods
  have h2 : (c.appendPreflightHeaders []).iter.length ≤ 5 ∧ (renderFields (c.appendPreflightHeaders []).iter).length ≤ 163 + c.size := by
    unfold Cors.appendPreflightHeaders Cors.size
    cases c.maxAge with
    | none => dsimp only [Option.getD_none]; omega
    | some n =>
      have i3 := insert_size (((c.appendCommonHeaders []).insert H.acAllowHeaders c.allowedHeaders).insert H.acAllowMethods c.methods) H.acMaxAge (decimal n)
      dsimp only [Option.getD_some]; omega
  have i4 := insert_size (c.appendPreflightHeaders []) H.acAllowOrigin o
  omega

section
variable {α : Type} [AsyncBufRead α] [LawfulBufRead α] {β : Type} [AsyncBufRead β] [LawfulBufRead β] {ρ : Type} [AsyncRead ρ] [LawfulRead ρ] {τ : Type} [AsyncRead τ] [LawfulRead τ]

/-- `C91_endpoint` in terms of `Exchange`. -/
theorem Exchange.failed {env : Env} (hx : HexLenOk env.hexLen) {opts : ServerOpts} {endpoint : Endpoint β} {n : Nat} {pool : Pool} {cfuel cfuel' : Nat} {req : ClientRequest α} {io : τ} {w w' : Writer}
    {c c' : Conn ρ} (h : Exchange env opts endpoint n pool cfuel cfuel' req io w w' c c') {t : Bytes} {fs : List (Bytes × Bytes)} (hr : Requestable env.uriOk req t fs) (hexp : Expects fs = false)
    {g : Glitch} (hg : g.Transmittable (env.now n)) (he : ∀ hmap, MapOf hmap fs → endpoint ⟨req.method, t, hmap⟩ (some (rem req.body).length) = .glitch g) (now : Bytes) :
    let body := glitchBody opts.verboseGlitch g.message g.trace
    ∃ rsp hs, connect now pool cfuel cfuel' req io w = .ret (w', .done (.ok rsp)) ∧ rsp.status = g.status.getD 500 ∧ GlitchHeaders (g.headers.getD []) body hs ∧
      MapOf rsp.headers (sentFields hs (some body.length) (env.now n)) ∧ rsp.length = some body.length ∧
      ∀ ks, ∃ b ps, polls rsp.body ks = .ret (b, ps) ∧ received ps <+: body ∧ (∀ x, .err x ∉ ps) ∧
        ((∀ k ∈ ks, 0 < k) → SawEof ps → received ps = body) ∧ ((∀ k ∈ ks, 0 < k) → body.length + meas io < ks.length → SawEof ps) := by
  obtain ⟨sfuel, ev, res, hs⟩ := h.served
  obtain ⟨x, hup⟩ := h.up
  obtain ⟨y, hdown⟩ := h.down
  obtain ⟨-, ⟨hmap, m1, m2, -⟩, -⟩ := C52_round_trip hx hr h.fresh h.sent hup h.reliable h.timely hs
  have hcall : .call ⟨req.method, t, hmap⟩ (some (rem req.body).length) ∈ ev := mem_calls.1 (by rw [m2]; simp)
  have hno := immediate_glitch hx hs hcall (he hmap m1)
  rw [he hmap m1] at hno
  have hnil : bodyReads ev = [] := by
    cases hl : bodyReads ev with
    | nil => rfl
    | cons a l => rw [hl] at hno; simp [Prog.afterReads] at hno
  have := C91_endpoint hx hr hexp hg h.pool (now := now) h.fresh h.sent h.patient h.unanswered h.reliable h.timely hs
    (fun hmap hm _ => by rw [he hmap hm, hnil]; rfl) hup hdown
  exact this.2

end

section
variable {α : Type} [AsyncBufRead α] [LawfulBufRead α] {σ : Type} [AsyncBufRead σ] [LawfulBufRead σ] {ρ : Type} [AsyncRead ρ] [LawfulRead ρ] {τ : Type} [AsyncRead τ] [LawfulRead τ]

/-- What arrives of the headers of the request. -/
theorem arrived {uriOk : Bytes → Bool} {req : ClientRequest α} {t : Bytes} {fs : List (Bytes × Bytes)} (hr : Requestable uriOk req t fs) {hmap : HeaderMap} (hm : MapOf hmap fs) {k : Bytes}
    (h1 : k ≠ ascii "host") (h2 : k ≠ ascii "proxy-connection") (h3 : k ≠ ascii "content-length") : hmap.getAll k = req.headers.getAll k := by
  rw [hm.2]
  exact (hr.values k).1 h1 h2 h3

theorem sent_value {hs : HeaderMap} (hv : hs.Valid) (len : Option Nat) (now : Bytes) {m : HeaderMap} (hm : MapOf m (sentFields hs len now)) {k : Bytes}
    (hk : k ∉ [ascii "content-length", ascii "transfer-encoding", ascii "date", ascii "content-type"]) : m.getAll k = hs.getAll k := by
  simp only [List.mem_cons, List.not_mem_nil, or_false, not_or] at hk
  have := valuesOf_sent hv len now k
  have e : m.getAll k = valuesOf k (sentFields hs len now) := hm.2 k
  rw [e, this, if_neg (by cases len with | none => exact fun h => hk.2.1 h.symm | some n => exact fun h => hk.1 h.symm), if_neg (fun h => hk.2.2.1 h.2.symm), if_pos ⟨hk.1, hk.2.1⟩, if_neg (fun h => hk.2.2.2 h.2.symm)]
  simp

/-- A 400 without body. -/
theorem refused_transmittable {now : Bytes} (hc : (∀ b ∈ now, valueByte b) ∧ ∀ b, now.head? = some b → b ≠ 32 ∧ b ≠ 9) (hn : now.length ≤ 7900) : Glitch.Transmittable ⟨some 400, none, none, none, none⟩ now := by
  have hp : HeaderMap.plain [] = true := by decide
  exact ⟨⟨by simp, by decide⟩, .inl rfl, by intro st h; injection h with h; subst h; decide, (HeaderMap.plain_ok hp).1, (HeaderMap.plain_ok hp).2, hc, by decide, by
    show (renderFields (HeaderMap.iter [])).length + now.length ≤ 7900
    have : (renderFields (HeaderMap.iter [])).length = 0 := rfl
    omega⟩

theorem Exchange.refused {env : Env} (hx : HexLenOk env.hexLen) {opts : ServerOpts} {endpoint : Endpoint (BodyReader σ)} {n : Nat} {pool : Pool} {cf cf' : Nat} {req : ClientRequest α} {io : τ} {w w' : Writer} {c c' : Conn ρ}
    (h : Exchange env opts endpoint n pool cf cf' req io w w' c c') {t : Bytes} {fs : List (Bytes × Bytes)} (hr : Requestable env.uriOk req t fs) (hexp : Expects fs = false)
    (hc : (∀ b ∈ env.now n, valueByte b) ∧ ∀ b, (env.now n).head? = some b → b ≠ 32 ∧ b ≠ 9) (hnow : (env.now n).length ≤ 7900)
    (he : ∀ hmap, MapOf hmap fs → endpoint ⟨req.method, t, hmap⟩ (some (rem req.body).length) = .glitch ⟨some 400, none, none, none, none⟩) (now : Bytes) :
    ∃ rsp, connect now pool cf cf' req io w = .ret (w', .done (.ok rsp)) ∧ rsp.status = 400 ∧ rsp.length = some 0 ∧
      MapOf rsp.headers [(ascii "content-length", ascii "0"), (ascii "date", env.now n)] := by
  obtain ⟨rsp, hs, h1, h2, h3, h4, h5, -⟩ := h.failed hx hr hexp (refused_transmittable hc hnow) he now
  have e : glitchBody opts.verboseGlitch none none = [] := by cases opts.verboseGlitch <;> rfl
  dsimp only at h3 h4 h5
  rw [e] at h3 h4 h5
  have e2 : hs = [] := wf_getAll_nil h3.1 fun k => by
    have := h3.2 k
    rw [this, if_neg (by simp)]; rfl
  subst e2
  exact ⟨rsp, h1, h2, h5, h4⟩

/-- **C93.**  A tophat client sends a request, with any method, to a server whose endpoint begins with `cors.validate(&req, &mut resp_wtr)?`.  If the origin is not allowed, the client gets an empty 400 without
access-control headers. -/
theorem C93_refused {env : Env} (hx : HexLenOk env.hexLen) {opts : ServerOpts} {cors : Cors} {app : Response σ → Endpoint (BodyReader σ)} {n : Nat} {pool : Pool} {cf cf' : Nat} {req : ClientRequest α} {io : τ} {w w' : Writer}
    {c c' : Conn ρ} (h : Exchange env opts (cors.guard app) n pool cf cf' req io w w' c c') {t : Bytes} {fs : List (Bytes × Bytes)} (hr : Requestable env.uriOk req t fs) (hexp : Expects fs = false)
    (hc : (∀ b ∈ env.now n, valueByte b) ∧ ∀ b, (env.now n).head? = some b → b ≠ 32 ∧ b ≠ 9) (hnow : (env.now n).length ≤ 7900)
    {o : Bytes} (ho : (req.headers.getAll (ascii "origin")).head? = some o) (hn : ¬ cors.AllowsOrigin o) (now : Bytes) :
    ∃ rsp, connect now pool cf cf' req io w = .ret (w', .done (.ok rsp)) ∧ rsp.status = 400 ∧ rsp.length = some 0 ∧
      MapOf rsp.headers [(ascii "content-length", ascii "0"), (ascii "date", env.now n)] :=
  h.refused hx hr hexp hc hnow (fun hmap hm => guard_err (C41_refused (method := req.method) (by
    show (hmap.getAll (ascii "origin")).head? = _
    rw [arrived hr hm (by decide) (by decide) (by decide)]; exact ho) hn freshResponse)) now

theorem Cors.Grants.congr {cors : Cors} {o : Bytes} {a b : HeaderMap} (h1 : a.getAll (ascii "access-control-request-method") = b.getAll (ascii "access-control-request-method"))
    (h2 : a.getAll (ascii "access-control-request-headers") = b.getAll (ascii "access-control-request-headers")) (h : cors.Grants a o) : cors.Grants b o :=
  ⟨h.origin, by rw [← h1]; exact h.method, by rw [← h2]; exact h.headers⟩

/-- **C93.**  A preflight request that is not granted is answered in the same way. -/
theorem C93_preflight_refused {env : Env} (hx : HexLenOk env.hexLen) {opts : ServerOpts} {cors : Cors} (hcors : cors.Ok) {app : Response σ → Endpoint (BodyReader σ)} {n : Nat} {pool : Pool} {cf cf' : Nat}
    {req : ClientRequest α} {io : τ} {w w' : Writer} {c c' : Conn ρ} (h : Exchange env opts (cors.guard app) n pool cf cf' req io w w' c c') {t : Bytes} {fs : List (Bytes × Bytes)} (hr : Requestable env.uriOk req t fs)
    (hexp : Expects fs = false) (hc : (∀ b ∈ env.now n, valueByte b) ∧ ∀ b, (env.now n).head? = some b → b ≠ 32 ∧ b ≠ 9) (hnow : (env.now n).length ≤ 7900)
    (hm : req.method = ascii "OPTIONS") {o : Bytes} (ho : (req.headers.getAll (ascii "origin")).head? = some o) (hn : ¬ cors.Grants req.headers o) (now : Bytes) :
    ∃ rsp, connect now pool cf cf' req io w = .ret (w', .done (.ok rsp)) ∧ rsp.status = 400 ∧ rsp.length = some 0 ∧
      MapOf rsp.headers [(ascii "content-length", ascii "0"), (ascii "date", env.now n)] :=
  h.refused hx hr hexp hc hnow (fun hmap hmap' => guard_err (by
    show cors.validate req.method hmap freshResponse = _
    rw [hm]
    exact C43_refused hcors (by rw [arrived hr hmap' (by decide) (by decide) (by decide)]; exact ho)
      (fun hg => hn (hg.congr (arrived hr hmap' (by decide) (by decide) (by decide)) (arrived hr hmap' (by decide) (by decide) (by decide)))) freshResponse)) now

/-- **C93.**  A preflight request that is granted: the client gets an empty 200 with the configured methods, headers, maximal age, credentials and exposed headers, its own origin as the allowed one, and nothing else but the
length and the date.  (The configured texts, the origin and the date have, all together, at most 7600 bytes.) -/
theorem C93_preflight {env : Env} (hx : HexLenOk env.hexLen) {opts : ServerOpts} {originOf : Bytes → Option Bytes} {order : List Bytes → List Bytes} (hord : ∀ l, (order l).Perm l) {ops : List CorsOp} {cors : Cors}
    (hcors : buildCors originOf order ops = .ret cors) {app : Response σ → Endpoint (BodyReader σ)} {n : Nat} {pool : Pool} {cf cf' : Nat}
    {req : ClientRequest α} {io : τ} {w w' : Writer} {c c' : Conn ρ} (h : Exchange env opts (cors.guard app) n pool cf cf' req io w w' c c') {t : Bytes} {fs : List (Bytes × Bytes)} (hr : Requestable env.uriOk req t fs)
    (hexp : Expects fs = false) (hc : (∀ b ∈ env.now n, valueByte b) ∧ ∀ b, (env.now n).head? = some b → b ≠ 32 ∧ b ≠ 9)
    (hm : req.method = ascii "OPTIONS") {o : Bytes} (ho : (req.headers.getAll (ascii "origin")).head? = some o) (hg : cors.Grants req.headers o) (hsize : cors.size + o.length + (env.now n).length ≤ 7600) (now : Bytes) :
    ∃ rsp, connect now pool cf cf' req io w = .ret (w', .done (.ok rsp)) ∧ rsp.status = 200 ∧ rsp.length = some 0 ∧ rsp.headers.WF ∧
      ∀ k, rsp.headers.getAll k = if k = ascii "content-length" then [ascii "0"] else if k = ascii "date" then [env.now n] else (cors.preflightField o k).toList := by
  have hok := C45_ok hcors
  have htext := cors_texts hord hcors
  have hov : PlainValue o := by
    have hin : (ascii "origin", o) ∈ req.headers.iter := mem_iter.2 (List.mem_of_mem_head? ho)
    exact ⟨hr.headers.values _ hin, hr.blanks _ hin⟩
  obtain ⟨hw, hf⟩ := preflight_fields cors o
  have hval : ((cors.appendPreflightHeaders []).insert H.acAllowOrigin o).Valid ∧
      ∀ f ∈ ((cors.appendPreflightHeaders []).insert H.acAllowOrigin o).iter, ∀ b, f.2.head? = some b → b ≠ 32 ∧ b ≠ 9 := by
    have key : ∀ f ∈ ((cors.appendPreflightHeaders []).insert H.acAllowOrigin o).iter, PlainValue f.2 ∧ headerNameFromBytes f.1 = some f.1 := by
      rintro ⟨k, v⟩ hkv
      have := mem_iter.1 hkv
      rw [hf] at this
      exact preflight_value htext hov (by simpa using this)
    exact ⟨⟨fun f h => (key f h).2, fun f h => (key f h).1.1⟩, fun f h => (key f h).1.2⟩
  obtain ⟨s1, s2⟩ := preflight_size cors o
  have hgl : Glitch.Transmittable ⟨some 200, some ((cors.appendPreflightHeaders []).insert H.acAllowOrigin o), none, none, none⟩ (env.now n) := by
    refine ⟨⟨?_, by show 8192 + (0 + 1 + 0) < usizeLimit; decide⟩, .inl rfl, ?_, hval.1, hval.2, hc, ?_, ?_⟩
    · intro hs h; injection h with h; subst h; exact hw
    · intro st h; injection h with h; subst h; decide
    · show ((cors.appendPreflightHeaders []).insert H.acAllowOrigin o).iter.length ≤ 124
      omega
    · show (renderFields ((cors.appendPreflightHeaders []).insert H.acAllowOrigin o).iter).length + (env.now n).length ≤ 7900
      omega
  obtain ⟨rsp, hs, h1, h2, h3, h4, h5, -⟩ := h.failed hx hr hexp hgl (by
    intro hmap hmap'
    refine guard_err (resp := freshResponse) ?_
    show cors.validate req.method hmap freshResponse = _
    have ho' : hmap.get H.origin = some o := by
      show (hmap.getAll (ascii "origin")).head? = _
      rw [arrived hr hmap' (by decide) (by decide) (by decide)]; exact ho
    obtain ⟨g1, g2, g3⟩ := (grants_iff hok).1 (hg.congr (arrived hr hmap' (by decide) (by decide) (by decide)).symm (arrived hr hmap' (by decide) (by decide) (by decide)).symm)
    unfold Cors.validate
    rw [ho', hm]
    have hm : ascii "OPTIONS" = H.options := rfl
    simp only [hm, if_true, g1, g2, g3, Bool.not_true, if_false, Bool.false_eq_true]
    rfl) now
  have e : glitchBody opts.verboseGlitch none none = [] := by cases opts.verboseGlitch <;> rfl
  dsimp only at h3 h4 h5
  rw [e] at h3 h4 h5
  have e2 : ∀ k, hs.getAll k = (cors.preflightField o k).toList := by
    intro k
    have := h3.2 k
    rw [this, if_neg (by simp)]
    exact hf k
  have hsv : hs.Valid := by
    have key : ∀ f ∈ hs.iter, PlainValue f.2 ∧ headerNameFromBytes f.1 = some f.1 := by
      rintro ⟨k, v⟩ hkv
      have := mem_iter.1 hkv
      rw [e2] at this
      exact preflight_value htext hov (by simpa using this)
    exact ⟨fun f h => (key f h).2, fun f h => (key f h).1.1⟩
  refine ⟨rsp, h1, h2, h5, h4.1, fun k => ?_⟩
  have e3 : rsp.headers.getAll k = valuesOf k (sentFields hs (some 0) (env.now n)) := h4.2 k
  have d : hs.getAll (ascii "date") = [] := by rw [e2]; rfl
  rw [e3, valuesOf_sent hsv, d]
  show (if ascii "content-length" = k then [decimal 0] else []) ++ _ ++ _ ++ _ = _
  by_cases k1 : k = ascii "content-length"
  · subst k1
    rw [if_pos rfl, if_neg (fun h => absurd h.2 (by decide)), if_neg (fun h => h.1 rfl), if_neg (fun h => absurd h.2 (by decide)), if_pos rfl]; decide
  by_cases k2 : k = ascii "date"
  · subst k2
    rw [if_neg (by decide), if_pos ⟨rfl, rfl⟩, if_pos (by decide), if_neg (by simp), d]; rfl
  rw [if_neg (fun h => k1 h.symm), if_neg (fun h => k2 h.2.symm), if_neg k1, if_neg k2, e2]
  by_cases k3 : k = ascii "transfer-encoding"
  · subst k3; rw [if_neg (fun h => h.2 rfl), if_neg (fun h => h.1.1 rfl)]; rfl
  · rw [if_pos ⟨k1, k3⟩]; simp

/-- The response that the application is given arrives as it is sent. -/
theorem simple_transmittable {cors : Cors} (hc : PlainValue cors.methods ∧ PlainValue cors.allowedHeaders ∧ ∀ v, cors.exposedHeaders = some v → PlainValue v) {o : Bytes} (ho : PlainValue o) {now : Bytes}
    (hclock : (∀ b ∈ now, valueByte b) ∧ ∀ b, now.head? = some b → b ≠ 32 ∧ b ≠ 9) (hsize : cors.size + o.length + now.length ≤ 7600) :
    Transmittable (⟨200, (cors.appendCommonHeaders []).insert H.acAllowOrigin o, .http11, .empty⟩ : Response σ).toInner now := by
  obtain ⟨hw, hf⟩ := common_fields cors o wf_nil
  have key : ∀ f ∈ ((cors.appendCommonHeaders []).insert H.acAllowOrigin o).iter, PlainValue f.2 ∧ headerNameFromBytes f.1 = some f.1 := by
    rintro ⟨k, v⟩ hkv
    have := mem_iter.1 hkv
    rw [hf] at this
    have hk : cors.simpleField o k = some v := by
      cases hs : cors.simpleField o k with
      | none => rw [hs] at this; cases this
      | some v' => rw [hs] at this; simp at this; rw [this]
    refine preflight_value hc ho ?_
    unfold Cors.preflightField
    have hne : k ≠ ascii "access-control-allow-methods" ∧ k ≠ ascii "access-control-allow-headers" ∧ k ≠ ascii "access-control-max-age" := by
      refine ⟨?_, ?_, ?_⟩ <;>
      · rintro rfl
        unfold Cors.simpleField at hk
        rw [if_neg (by decide), if_neg (fun h => absurd h.1 (by decide)), if_neg (by decide)] at hk
        cases hk
    rw [if_neg hne.1, if_neg hne.2.1, if_neg hne.2.2]
    exact hk
  have hsz : ((cors.appendCommonHeaders []).insert H.acAllowOrigin o).iter.length ≤ 3 ∧ (renderFields ((cors.appendCommonHeaders []).insert H.acAllowOrigin o).iter).length ≤ 200 + cors.size + o.length := by
    have l1 : H.acAllowOrigin.length = 27 := by decide
    have l2 : H.acAllowCredentials.length = 32 := by decide
    have l3 : H.acExposeHeaders.length = 29 := by decide
    have l7 : (ascii "true").length = 4 := by decide
    have h1 : (cors.appendCommonHeaders []).iter.length ≤ 2 ∧ (renderFields (cors.appendCommonHeaders []).iter).length ≤ 73 + (cors.exposedHeaders.getD []).length := by
      have e1 : (HeaderMap.iter []).length = 0 := rfl
      have e2 : (renderFields (HeaderMap.iter [])).length = 0 := rfl
      have i1 := insert_size [] H.acAllowCredentials (ascii "true")
      unfold Cors.appendCommonHeaders
      cases cors.exposedHeaders with
      | none => dsimp only; split <;> simp only [Option.getD_none, List.length_nil] <;> omega
      | some v =>
        have i2 := insert_size [] H.acExposeHeaders v
        have i3 := insert_size (HeaderMap.insert [] H.acAllowCredentials (ascii "true")) H.acExposeHeaders v
        dsimp only
        split <;> simp only [Option.getD_some] <;> omega
    have i4 := insert_size (cors.appendCommonHeaders []) H.acAllowOrigin o
    unfold Cors.size
    omega
  refine ⟨rfl, ⟨(by decide : (100 : UInt16) ≤ 200), (by decide : (200 : UInt16) < 1000)⟩, hw, ⟨fun f h => (key f h).2, fun f h => (key f h).1.1⟩, fun f h => (key f h).1.2, hclock, ?_, ?_⟩
  · have := (sentFields_size ((cors.appendCommonHeaders []).insert H.acAllowOrigin o) (n := 0) (by decide) now).1
    show (sentFields ((cors.appendCommonHeaders []).insert H.acAllowOrigin o) (some 0) now).length ≤ 128
    omega
  · have := headOf_size (resp := (⟨200, (cors.appendCommonHeaders []).insert H.acAllowOrigin o, .http11, .empty⟩ : Response σ).toInner) (n := 0) rfl (by decide) rfl
      ⟨(by decide : (100 : UInt16) ≤ 200), (by decide : (200 : UInt16) < 1000)⟩ now
    have e : (⟨200, (cors.appendCommonHeaders []).insert H.acAllowOrigin o, .http11, .empty⟩ : Response σ).toInner.headers = (cors.appendCommonHeaders []).insert H.acAllowOrigin o := rfl
    rw [e] at this
    omega

/-- **C93.**  Any other request of an allowed origin: the client gets a response that the application sends, with its own origin as the allowed one (and credentials and exposed headers as configured), if the application
does not take these headers out of the response that it is given.  (`P hs` are the responses that the application may give, being given one with the headers `hs`.) -/
theorem C93_allowed_partial {env : Env} (hx : HexLenOk env.hexLen) {opts : ServerOpts} {originOf : Bytes → Option Bytes} {order : List Bytes → List Bytes} (hord : ∀ l, (order l).Perm l) {ops : List CorsOp} {cors : Cors}
    (hcors : buildCors originOf order ops = .ret cors) {app : Response σ → Endpoint (BodyReader σ)} {n : Nat} {pool : Pool} {cf cf' : Nat}
    {req : ClientRequest α} {io : τ} {w w' : Writer} {c c' : Conn ρ} (h : Exchange env opts (cors.guard app) n pool cf cf' req io w w' c c') {t : Bytes} {fs : List (Bytes × Bytes)} (hr : Requestable env.uriOk req t fs)
    (hexp : Expects fs = false) (hm : req.method ≠ ascii "OPTIONS") {o : Bytes} (ho : (req.headers.getAll (ascii "origin")).head? = some o) (ha : cors.AllowsOrigin o)
    (hc : (∀ b ∈ env.now n, valueByte b) ∧ ∀ b, (env.now n).head? = some b → b ≠ 32 ∧ b ≠ 9) (hsize : cors.size + o.length + (env.now n).length ≤ 7600)
    {P : HeaderMap → InnerResponse (BodyReader σ) → Prop}
    (hP : ∀ hs resp, P hs resp → Transmittable resp (env.now n) ∧ fin resp.body = none ∧ (∃ k, resp.length = some k ∧ 8192 + k < usizeLimit) ∧ ∀ k, (cors.simpleField o k).isSome → resp.headers.getAll k = hs.getAll k)
    (he : ∀ hs, hs.WF → (∀ k, hs.getAll k = (cors.simpleField o k).toList) → Transmittable (⟨200, hs, .http11, .empty⟩ : Response σ).toInner (env.now n) → ∀ hmap, MapOf hmap fs →
      (app ⟨200, hs, .http11, .empty⟩ ⟨req.method, t, hmap⟩ (some (rem req.body).length)).AnswersTo (P hs) (meas c.rd + c.wr.script.length) (rem req.body)) (now : Bytes) :
    ∃ hs resp k rsp, P hs resp ∧ resp.length = some k ∧ connect now pool cf cf' req io w = .ret (w', .done (.ok rsp)) ∧ rsp.status = resp.status ∧ rsp.length = some k ∧
      MapOf rsp.headers (sentFields resp.headers (some k) (env.now n)) ∧ (∀ name v, cors.simpleField o name = some v → rsp.headers.getAll name = [v]) ∧
      ∀ ks, ∃ b ps, polls rsp.body ks = .ret (b, ps) ∧ received ps <+: (rem resp.body).take k ∧ (∀ x, .err x ∉ ps) ∧
        ((∀ k ∈ ks, 0 < k) → SawEof ps → received ps = (rem resp.body).take k) ∧ ((∀ k ∈ ks, 0 < k) → k + meas io < ks.length → SawEof ps) := by
  obtain ⟨resp, k, rsp, ⟨hs, q0, q1, q2⟩, h2, h3, h4, h5, h6, h7⟩ := h.result hx hr hexp
    (P := fun resp => ∃ hs : HeaderMap, (∀ k, hs.getAll k = (cors.simpleField o k).toList) ∧ hs.WF ∧ P hs resp)
    (fun resp ⟨hs, _, _, hp⟩ => ⟨(hP hs resp hp).1, (hP hs resp hp).2.1, (hP hs resp hp).2.2.1⟩)
    (by
      intro hmap hmap'
      have hov : PlainValue o := by
        have hin : (ascii "origin", o) ∈ req.headers.iter := mem_iter.2 (List.mem_of_mem_head? ho)
        exact ⟨hr.headers.values _ hin, hr.blanks _ hin⟩
      have ho' : hmap.get H.origin = some o := by
        show (hmap.getAll (ascii "origin")).head? = _
        rw [arrived hr hmap' (by decide) (by decide) (by decide)]; exact ho
      obtain ⟨g2, g3⟩ := common_fields cors o wf_nil
      have g3 : ∀ k, ((cors.appendCommonHeaders []).insert H.acAllowOrigin o).getAll k = (cors.simpleField o k).toList := by
        intro k; rw [g3]; cases cors.simpleField o k <;> rfl
      have g1 : cors.guard app ⟨req.method, t, hmap⟩ (some (rem req.body).length) =
          app ⟨200, (cors.appendCommonHeaders []).insert H.acAllowOrigin o, .http11, .empty⟩ ⟨req.method, t, hmap⟩ (some (rem req.body).length) := by
        refine guard_ok ?_
        show cors.validate req.method hmap freshResponse = _
        unfold Cors.validate
        rw [ho']
        have hm' : req.method ≠ H.options := hm
        simp only [if_neg hm', isOriginAllowed_iff.2 ha, if_true]
        rfl
      rw [g1]
      exact Prog.AnswersTo.imp (fun r hr => ⟨_, g3, g2, hr⟩) _ (he _ g2 g3 (simple_transmittable (cors_texts hord hcors) hov hc hsize) hmap hmap'))
    now
  obtain ⟨p1, -, -, p4⟩ := hP hs resp q2
  refine ⟨hs, resp, k, rsp, q2, h2, h3, h4, h6, h5, fun name v hv => ?_, h7⟩
  rw [sent_value p1.valid _ _ h5, p4 name (by rw [hv]; rfl), q0, hv]
  · rfl
  · intro hin
    simp only [List.mem_cons, List.not_mem_nil, or_false] at hin
    rcases hin with rfl | rfl | rfl | rfl <;> (unfold Cors.simpleField at hv; rw [if_neg (by decide), if_neg (fun h => absurd h.1 (by decide)), if_neg (by decide)] at hv; cases hv)

/-- **C93.**  But errors do not say that the origin is allowed: if the application, given a response with the header, returns an error that has not got it itself, the client gets the error's status, and none of the access-control headers.  (A
browser does not show such a response to the page that asked.) -/
theorem C93_refuted_error {env : Env} (hx : HexLenOk env.hexLen) {opts : ServerOpts} {cors : Cors} {app : Response σ → Endpoint (BodyReader σ)} {n : Nat} {pool : Pool} {cf cf' : Nat}
    {req : ClientRequest α} {io : τ} {w w' : Writer} {c c' : Conn ρ} (h : Exchange env opts (cors.guard app) n pool cf cf' req io w w' c c') {t : Bytes} {fs : List (Bytes × Bytes)} (hr : Requestable env.uriOk req t fs)
    (hexp : Expects fs = false) (hm : req.method ≠ ascii "OPTIONS") {o : Bytes} (ho : (req.headers.getAll (ascii "origin")).head? = some o) (ha : cors.AllowsOrigin o)
    {g : Glitch} (hg : g.Transmittable (env.now n)) (hno : (g.headers.getD []).getAll (ascii "access-control-allow-origin") = [])
    (he : ∀ resp hmap, app resp ⟨req.method, t, hmap⟩ (some (rem req.body).length) = .glitch g) (now : Bytes) :
    ∃ rsp, connect now pool cf cf' req io w = .ret (w', .done (.ok rsp)) ∧ rsp.status = g.status.getD 500 ∧ rsp.headers.getAll (ascii "access-control-allow-origin") = [] := by
  obtain ⟨rsp, hs, h1, h2, h3, h4, h5, -⟩ := h.failed hx hr hexp hg (by
    intro hmap hmap'
    obtain ⟨hs, g1, g2, g3⟩ := C42_guard (c := cors) (app := app) (head := ⟨req.method, t, hmap⟩) (len := some (rem req.body).length) (o := o)
      (by show (hmap.getAll (ascii "origin")).head? = _; rw [arrived hr hmap' (by decide) (by decide) (by decide)]; exact ho) ha hm
    rw [g1, he]) now
  refine ⟨rsp, h1, h2, ?_⟩
  have hsv : hs.Valid := by
    have key : ∀ f ∈ hs.iter, headerValueFromBytes f.2 = some f.2 ∧ headerNameFromBytes f.1 = some f.1 := by
      rintro ⟨k, v⟩ hkv
      have := mem_iter.1 hkv
      rw [h3.2 k] at this
      split at this
      · rename_i hk
        simp only [List.mem_singleton] at this
        subst this
        rw [hk.1]
        exact ⟨by decide, by decide⟩
      · exact ⟨hg.valid.values _ (mem_iter.2 this), hg.valid.names _ (mem_iter.2 this)⟩
    exact ⟨fun f h => (key f h).2, fun f h => (key f h).1⟩
  have hk := h3.2 (ascii "access-control-allow-origin")
  rw [if_neg (fun h => absurd h.1 (by decide)), hno] at hk
  rw [sent_value hsv _ _ h4 (by decide), hk]

end

/-! ## Concrete cases -/

/-- A preflight request, sent by a tophat client. -/
def preflightRequest : ClientRequest Script := { demoRequest with method := ascii "OPTIONS", headers := demoPreflight }
/-- Its bytes. -/
def preflightUp : Bytes :=
  ascii "OPTIONS /a?q=1 HTTP/1.1\r\nhost: h.org:81\r\ncontent-length: 5\r\norigin: http://example.com\r\naccess-control-request-method: POST\r\naccess-control-request-headers: X-A,content-type\r\n\r\nhello"
/-- The headers of the answer. -/
def grantedHeaders : HeaderMap :=
  [(ascii "access-control-allow-credentials", [ascii "true"]), (ascii "access-control-expose-headers", [ascii "x-b"]), (ascii "access-control-allow-headers", [ascii "content-type, x-a"]),
    (ascii "access-control-allow-methods", [ascii "GET, POST"]), (ascii "access-control-max-age", [ascii "86400"]), (ascii "access-control-allow-origin", [ascii "http://example.com"])]

theorem preflightRequest_ok : Requestable demoEnv.uriOk preflightRequest (ascii "/a?q=1")
    [(ascii "host", ascii "h.org:81"), (ascii "content-length", ascii "5"), (ascii "origin", ascii "http://example.com"), (ascii "access-control-request-method", ascii "POST"),
      (ascii "access-control-request-headers", ascii "X-A,content-type")] :=
  ⟨⟨by decide, by unfold tokenByte; decide⟩, by decide +kernel, demoRequest_ok.targetOk, (HeaderMap.plain_ok (by decide +kernel)).1, (HeaderMap.plain_ok (by decide +kernel)).2, demoRequest_ok.host, by decide, by decide,
    demoRequest_ok.body, by decide +kernel, by decide⟩

/-- All hypotheses of `C93_preflight` are met. -/
example : ∃ rsp, connect (ascii "NOW") zeroPool 100 1000 preflightRequest ((relayed.pieces 100 (responseHead .http11 200 grantedHeaders (some 0) (ascii "NOW"))).map Ev.data) ⟨[], [], 0⟩ =
      .ret (⟨[], preflightUp, preflightUp.length⟩, .done (.ok rsp)) ∧ rsp.status = 200 ∧ rsp.headers.getAll (ascii "access-control-allow-methods") = [ascii "GET, POST"] ∧
      rsp.headers.getAll (ascii "access-control-allow-origin") = [ascii "http://example.com"] := by
  obtain ⟨c', x⟩ := exchange_of (σ := BodyReader Script) (endpoint := demoCors.guard corsApp) (req := preflightRequest) (up := preflightUp) (down := responseHead .http11 200 grantedHeaders (some 0) (ascii "NOW"))
    (by decide +kernel) (by decide +kernel) (by decide +kernel) (by decide +kernel) (by decide +kernel)
  obtain ⟨rsp, a1, a2, -, -, a3⟩ := C93_preflight (τ := Script) exactHexLen_ok (fun l => List.Perm.refl l) demoCors_built x preflightRequest_ok (by decide +kernel) nowOk rfl (o := ascii "http://example.com") (by decide)
    ((grants_iff (C45_ok demoCors_built)).2 ⟨by decide, by decide, by decide⟩) (by decide +kernel) (ascii "NOW")
  exact ⟨rsp, a1, a2, by rw [a3]; decide, by rw [a3]; decide⟩

/-- A request of another method than `OPTIONS`, with an origin. -/
def originRequest (o : String) : ClientRequest Script := { demoRequest with headers := [(ascii "origin", [ascii o])] }
/-- Its bytes. -/
def originUp (o : String) : Bytes := ascii "POST /a?q=1 HTTP/1.1\r\nhost: h.org:81\r\ncontent-length: 5\r\norigin: " ++ ascii o ++ ascii "\r\n\r\nhello"

theorem originRequest_ok (o : String) (h : HeaderMap.plain [(ascii "origin", [ascii o])] = true) : Requestable demoEnv.uriOk (originRequest o) (ascii "/a?q=1")
    [(ascii "host", ascii "h.org:81"), (ascii "content-length", ascii "5"), (ascii "origin", ascii o)] := by
  refine ⟨demoRequest_ok.method, demoRequest_ok.target, demoRequest_ok.targetOk, (HeaderMap.plain_ok h).1, (HeaderMap.plain_ok h).2, demoRequest_ok.host, ?_, ?_, demoRequest_ok.body, ?_, by simp⟩
  · simp only [originRequest, HeaderMap.getAll, HeaderMap.iter, List.flatMap_cons, List.flatMap_nil, List.map_cons, List.map_nil, List.append_nil]
    rfl
  · simp only [originRequest, HeaderMap.getAll, HeaderMap.iter, List.flatMap_cons, List.flatMap_nil, List.map_cons, List.map_nil, List.append_nil]
    rfl
  · unfold fieldsOf
    rfl

/-- All hypotheses of `C93_refused` are met. -/
example : ∃ rsp, connect (ascii "NOW") zeroPool 100 1000 (originRequest "http://old.example") ((relayed.pieces 100 (responseHead .http11 400 [] (some 0) (ascii "NOW"))).map Ev.data) ⟨[], [], 0⟩ =
      .ret (⟨[], originUp "http://old.example", (originUp "http://old.example").length⟩, .done (.ok rsp)) ∧ rsp.status = 400 := by
  obtain ⟨c', x⟩ := exchange_of (σ := BodyReader Script) (endpoint := demoCors.guard corsApp) (req := originRequest "http://old.example") (up := originUp "http://old.example") (down := responseHead .http11 400 [] (some 0) (ascii "NOW"))
    (by decide +kernel) (by decide +kernel) (by decide +kernel) (by decide +kernel) (by decide +kernel)
  obtain ⟨rsp, a1, a2, -⟩ := C93_refused (τ := Script) exactHexLen_ok x (originRequest_ok _ (by decide +kernel)) (by decide +kernel) nowOk (by decide) (o := ascii "http://old.example") (by decide)
    (fun h => by have := isOriginAllowed_iff.2 h; revert this; decide) (ascii "NOW")
  exact ⟨rsp, a1, a2⟩

/-- All hypotheses of `C93_allowed_partial` are met: the application answers with the response that it is given. -/
example : ∃ rsp, connect (ascii "NOW") zeroPool 100 1000 (originRequest "http://example.com")
      ((relayed.pieces 100 (responseHead .http11 200 [(ascii "access-control-allow-credentials", [ascii "true"]), (ascii "access-control-expose-headers", [ascii "x-b"]),
        (ascii "access-control-allow-origin", [ascii "http://example.com"])] (some 0) (ascii "NOW"))).map Ev.data) ⟨[], [], 0⟩ =
      .ret (⟨[], originUp "http://example.com", (originUp "http://example.com").length⟩, .done (.ok rsp)) ∧ rsp.status = 200 ∧ rsp.headers.getAll (ascii "access-control-allow-origin") = [ascii "http://example.com"] := by
  obtain ⟨c', x⟩ := exchange_of (σ := BodyReader Script) (endpoint := demoCors.guard corsApp) (req := originRequest "http://example.com") (up := originUp "http://example.com")
    (down := responseHead .http11 200 [(ascii "access-control-allow-credentials", [ascii "true"]), (ascii "access-control-expose-headers", [ascii "x-b"]), (ascii "access-control-allow-origin", [ascii "http://example.com"])] (some 0) (ascii "NOW"))
    (by decide +kernel) (by decide +kernel) (by decide +kernel) (by decide +kernel) (by decide +kernel)
  obtain ⟨hs, resp, k, rsp, ⟨-, rfl⟩, -, a1, a2, -, -, a3, -⟩ := C93_allowed_partial (τ := Script) exactHexLen_ok (fun l => List.Perm.refl l) demoCors_built x (originRequest_ok _ (by decide +kernel)) (by decide +kernel) (by decide)
    (o := ascii "http://example.com") (by decide) (isOriginAllowed_iff.1 (by decide)) nowOk (by decide +kernel)
    (P := fun hs resp => Transmittable resp (ascii "NOW") ∧ resp = Response.toInner (⟨200, hs, .http11, .empty⟩ : Response Script))
    (by rintro hs resp ⟨h1, rfl⟩; exact ⟨h1, rfl, ⟨0, rfl, by decide⟩, fun _ _ => rfl⟩)
    (fun hs h1 h2 h3 hmap _ => ⟨⟨h3, rfl⟩, fun _ => trivial⟩) (ascii "NOW")
  exact ⟨rsp, a1, a2, a3 _ _ (by decide)⟩

/-- An application that fails. -/
def busyApp : Response Script → Endpoint (BodyReader Script) := fun _ _ _ => .glitch demoGlitch

/-- All hypotheses of `C93_refuted_error` are met. -/
example : ∃ rsp, connect (ascii "NOW") zeroPool 100 1000 (originRequest "http://example.com")
      ((relayed.pieces 100 (responseHead .http11 409 [(ascii "x-why", [ascii "because"]), (ascii "content-type", [ascii "text/plain"])] (some 4) (ascii "NOW") ++ ascii "busy")).map Ev.data) ⟨[], [], 0⟩ =
      .ret (⟨[], originUp "http://example.com", (originUp "http://example.com").length⟩, .done (.ok rsp)) ∧ rsp.status = 409 ∧ rsp.headers.getAll (ascii "access-control-allow-origin") = [] := by
  obtain ⟨c', x⟩ := exchange_of (σ := BodyReader Script) (endpoint := demoCors.guard busyApp) (req := originRequest "http://example.com") (up := originUp "http://example.com")
    (down := responseHead .http11 409 [(ascii "x-why", [ascii "because"]), (ascii "content-type", [ascii "text/plain"])] (some 4) (ascii "NOW") ++ ascii "busy")
    (by decide +kernel) (by decide +kernel) (by decide +kernel) (by decide +kernel) (by decide +kernel)
  exact C93_refuted_error (τ := Script) exactHexLen_ok x (originRequest_ok _ (by decide +kernel)) (by decide +kernel) (by decide) (o := ascii "http://example.com") (by decide)
    (isOriginAllowed_iff.1 (by decide)) demoGlitch_ok (by decide) (fun _ _ => rfl) (ascii "NOW")

end Tophat
