import Verif.Model.Login
import Verif.Props.Middleware
/-!
# Property C100: logging in, being greeted and logging out, as in examples/identity.rs
-/

set_option linter.unusedSectionVars false
set_option synthInstance.maxSize 1000

namespace Tophat
open Spec

/-! ## Spec -/

/-- The `Identity` has a usable name for its cookie, a path that can be put into a header, and an expiration time that is not absurd. -/
structure Spec.Usable (id : Identity) : Prop where
  name : CookieName id.cookieName
  path : ∀ b ∈ id.cookiePath, headerValueByte b = true
  expiration : id.expirationTime < 2 ^ 63

/-- What the client is told at `/`: `Hello` and the name, or an empty response with status 400, if nobody is recognised. -/
def Spec.Welcome {α : Type} [AsyncBufRead α] {τ : Type} [AsyncRead τ] [LawfulRead τ] (now : Bytes) (pool : Pool) (cf cf' : Nat) (req : ClientRequest α) (io : τ) (w w' : Writer) : Option Bytes → Prop
  | some u => ∃ rsp, connect now pool cf cf' req io w = .ret (w', .done (.ok rsp)) ∧ rsp.status = 200 ∧
      ∀ grow, GrowOk grow → ∀ F, 6 + u.length + meas io < F → ∃ r, rsp.toBody.intoString grow F = .ret (r, .ok (ascii "Hello " ++ u))
  | none => ∃ rsp, connect now pool cf cf' req io w = .ret (w', .done (.ok rsp)) ∧ rsp.status = 400 ∧ rsp.length = some 0

/-! ## Cookies can be sent -/

theorem headerValueByte_of_visible {s : Bytes} (h : toStr s = some s) : s.all headerValueByte = true := by
  unfold toStr at h
  split at h
  · rename_i h1
    rw [List.all_eq_true] at h1 ⊢
    intro b hb
    have key : ∀ n : Fin 256, (fun b : UInt8 => decide (32 ≤ b.toNat) && decide (b.toNat < 127) || b.toNat == 9) (UInt8.ofNat n.1) = true → headerValueByte (UInt8.ofNat n.1) = true := by decide +kernel
    have := key ⟨b.toNat, b.toNat_lt⟩
    simp only [UInt8.ofNat_toNat] at this
    exact this (h1 b hb)
  · cases h

theorem decimal_valueBytes (n : Nat) : (decimal n).all headerValueByte = true := by
  induction n using Nat.strongRecOn with
  | ind n ih =>
    have dig : ∀ d, d < 10 → headerValueByte (UInt8.ofNat (48 + d)) = true := by decide
    rw [decimal_eq]
    split
    · rename_i hlt
      rw [List.all_cons, dig n hlt]; rfl
    · rename_i hge
      rw [List.all_append, ih (n / 10) (by omega)]
      rw [List.all_cons, dig (n % 10) (by omega)]; rfl

theorem cookie_plain {id : Identity} (hu : Usable id) {token : Bytes} (ht : ∀ b ∈ token, jwtByte b = true) {age : Nat} : PlainValue (id.cookieWith token age) := by
  have hn := headerValueByte_of_visible hu.name.2.1
  have hp : id.cookiePath.all headerValueByte = true := List.all_eq_true.2 hu.path
  have htok : token.all headerValueByte = true := List.all_eq_true.2 fun b hb => (jwtByte_facts (ht b hb)).2.2.2
  refine ⟨?_, ?_⟩
  · have htext : (id.cookieWith token age).all headerValueByte = true := by
      unfold Identity.cookieWith
      have c1 : (ascii "=").all headerValueByte = true := by decide
      have c2 : (ascii "; HttpOnly").all headerValueByte = true := by decide
      have c3 : (ascii "; Secure").all headerValueByte = true := by decide
      have c4 : (ascii "; Path=").all headerValueByte = true := by decide
      have c5 : (ascii "; Max-Age=").all headerValueByte = true := by decide
      cases id.cookieHttpOnly <;> cases id.cookieSecure <;> simp only [List.all_append, hn, hp, htok, decimal_valueBytes, c1, c2, c3, c4, c5, if_true, Bool.false_eq_true, if_false, List.all_nil, Bool.and_self]
    unfold headerValueFromBytes
    rw [if_pos htext]
  · obtain ⟨h1, -, -, -, h2⟩ := hu.name
    cases hname : id.cookieName with
    | nil => exact absurd hname h1
    | cons a l =>
      intro b hb
      have hb : some a = some b := by
        rw [← hb]
        unfold Identity.cookieWith
        simp [hname]
      injection hb with hb
      subst hb
      rw [hname] at h2
      by_cases hbl : blank a = true
      · exfalso
        have h3 := congrArg List.length h2
        unfold trim at h3
        rw [List.dropWhile_cons_of_pos hbl] at h3
        have l1 : ∀ (s : Bytes), (s.dropWhile blank).length ≤ s.length := fun s => (List.dropWhile_sublist _).length_le
        have := l1 (l.dropWhile blank).reverse
        have := l1 l
        simp only [List.length_reverse, List.length_cons] at *
        omega
      · constructor
        · rintro rfl; exact hbl (by decide)
        · rintro rfl; exact hbl (by decide)

theorem setCookie_total {σ : Type} {id : Identity} (hu : Usable id) {token : Bytes} (ht : ∀ b ∈ token, jwtByte b = true) {age : Nat} {resp : Response σ} :
    id.setCookie token age resp = .ret (resp.appendHeader H.setCookie (id.cookieWith token age)) := by
  have h := (cookie_plain hu ht (age := age)).1
  unfold Identity.setCookie
  unfold Identity.cookieWith at h ⊢
  unfold cookieText
  rw [h]

/-- The response with a cookie, and nothing else. -/
def cookieOnly (σ : Type) (v : Bytes) : Response σ := ⟨200, [(ascii "set-cookie", [v])], .http11, .empty⟩

theorem cookieOnly_transmittable {σ : Type} [AsyncBufRead σ] {v : Bytes} (hv : PlainValue v) {now : Bytes} (hc : (∀ b ∈ now, valueByte b) ∧ ∀ b, now.head? = some b → b ≠ 32 ∧ b ≠ 9) (hn : v.length + now.length ≤ 7600) :
    Transmittable (cookieOnly σ v).toInner now := by
  have hi : HeaderMap.iter [(ascii "set-cookie", [v])] = [(ascii "set-cookie", v)] := rfl
  have hf : sentFields [(ascii "set-cookie", [v])] (some 0) now = [(ascii "content-length", ascii "0"), (ascii "date", now), (ascii "set-cookie", v)] := by
    have e0 : ascii "set-cookie" ≠ ascii "content-length" ∧ ascii "set-cookie" ≠ ascii "transfer-encoding" ∧ ascii "set-cookie" ≠ ascii "date" ∧ ascii "set-cookie" ≠ ascii "content-type" := by decide
    have e1 : decimal 0 = ascii "0" := by decide
    unfold sentFields framingField
    simp [HeaderMap.iter, HeaderMap.getAll, e0, e1]
  refine ⟨rfl, ⟨(by decide : (100 : UInt16) ≤ 200), (by decide : (200 : UInt16) < 1000)⟩, (show HeaderMap.WF [(ascii "set-cookie", [v])] from ⟨by simp, by simp⟩), ⟨?_, ?_⟩, ?_, hc, ?_, ?_⟩
  · intro f hf
    have hf : f ∈ HeaderMap.iter [(ascii "set-cookie", [v])] := hf
    rw [hi, List.mem_singleton] at hf
    subst hf
    show headerNameFromBytes (ascii "set-cookie") = some (ascii "set-cookie")
    decide
  · intro f hf
    have hf : f ∈ HeaderMap.iter [(ascii "set-cookie", [v])] := hf
    rw [hi, List.mem_singleton] at hf
    subst hf
    exact hv.1
  · intro f hf
    have hf : f ∈ HeaderMap.iter [(ascii "set-cookie", [v])] := hf
    rw [hi, List.mem_singleton] at hf
    subst hf
    exact hv.2
  · show (sentFields [(ascii "set-cookie", [v])] (some 0) now).length ≤ 128
    rw [hf]
    exact Nat.le_of_ble_eq_true rfl
  · show (renderResponseHead .http11 200 (sentFields [(ascii "set-cookie", [v])] (some 0) now)).length < 8192
    have h1 : (Version.http11.debug ++ [32] ++ statusDisplay 200 ++ [13, 10]).length < 100 := by decide
    have h2 : (ascii "content-length").length = 14 := by decide
    have h3 : (ascii "date").length = 4 := by decide
    have h4 : (ascii "set-cookie").length = 10 := by decide
    have h5 : (ascii "0").length = 1 := by decide
    rw [hf]
    unfold renderResponseHead renderFields
    simp only [List.length_append] at h1 ⊢
    simp [h2, h3, h4, h5] at h1 ⊢
    omega

/-- An empty response without headers arrives, whatever its (three-digit) status of these. -/
theorem bare_transmittable {σ : Type} [AsyncBufRead σ] {now : Bytes} (hc : (∀ b ∈ now, valueByte b) ∧ ∀ b, now.head? = some b → b ≠ 32 ∧ b ≠ 9) (hn : now.length ≤ 7600) {status : StatusCode} (hs : status = 400 ∨ status = 404) :
    Transmittable (⟨status, [], .http11, .empty⟩ : Response σ).toInner now := by
  have hf : sentFields [] (some 0) now = [(ascii "content-length", ascii "0"), (ascii "date", now)] := by
    have e1 : decimal 0 = ascii "0" := by decide
    unfold sentFields framingField
    simp [HeaderMap.iter, HeaderMap.getAll, e1]
  refine ⟨rfl, ?_, HeaderMap.wf_nil, (HeaderMap.plain_ok (m := []) (by decide)).1, (HeaderMap.plain_ok (m := []) (by decide)).2, hc, ?_, ?_⟩
  · rcases hs with rfl | rfl
    · exact ⟨(by decide : (100 : UInt16) ≤ 400), (by decide : (400 : UInt16) < 1000)⟩
    · exact ⟨(by decide : (100 : UInt16) ≤ 404), (by decide : (404 : UInt16) < 1000)⟩
  · show (sentFields [] (some 0) now).length ≤ 128
    rw [hf]
    exact Nat.le_of_ble_eq_true rfl
  · show (renderResponseHead .http11 status (sentFields [] (some 0) now)).length < 8192
    have h1 : (Version.http11.debug ++ [32] ++ statusDisplay status ++ [13, 10]).length < 100 := by rcases hs with rfl | rfl <;> decide
    have h2 : (ascii "content-length").length = 14 := by decide
    have h3 : (ascii "date").length = 4 := by decide
    have h5 : (ascii "0").length = 1 := by decide
    rw [hf]
    unfold renderResponseHead renderFields
    simp only [List.length_append] at h1 ⊢
    simp [h2, h3, h5] at h1 ⊢
    omega

/-! ## The router finds the handler -/

/-- If the patterns that match are all of one handler, and one of them matches with a parameter that is not empty, then this handler is called. -/
theorem behind_calls {σ : Type} {lib : PathTree} {pathOf : Bytes → Bytes} {text : IoErr → Bytes} {before : ReqHead → Response σ → Response σ} {ops : List (BuildOp (Handler σ))} (hops : Plain ops) {head : ReqHead} {len : Option Nat}
    (hm : 47 ∉ head.method) (hp : PathText (pathOf head.uri)) {p : Bytes} {e : Handler σ} {caps : List (Bytes × Bytes)} (hin : (head.method, p, e) ∈ routes ops) (hmt : PatternMatchesNonEmpty p (pathOf head.uri) caps)
    (huniq : ∀ p' e' caps', (head.method, p', e') ∈ routes ops → PatternMatches p' (pathOf head.uri) caps' → e' = e ∧ caps' = caps) :
    ∃ ext, ext.params = some caps ∧ (buildRouter ops).route lib head.method (pathOf head.uri) ⟨none, none⟩ (before head freshResponse) = .call e ext ∧
      (buildRouter ops).behind lib pathOf text before head len = e head len ext (before head freshResponse) := by
  obtain ⟨e1, ext, h1⟩ := C39_found_partial (lib := lib) (ext := ⟨none, none⟩) (resp := before head freshResponse) hops hm hp hin hmt
  obtain ⟨b, p1, a, a1, ⟨caps1, a2, a3⟩, -⟩ := C39_called_partial hops hm hp h1
  obtain ⟨rfl, rfl⟩ := huniq p1 e1 caps1 (by rw [a1]; simp) a3
  refine ⟨ext, a2, h1, ?_⟩
  unfold Router.behind
  rw [h1]

/-- A pattern without parameters matches itself, and nothing else. -/
theorem matches_literal {strict : Bool} {s path : Bytes} {caps : List (Bytes × Bytes)} {ps : List Seg} : Matches strict (s.map .lit ++ ps) path caps ↔ ∃ rest, path = s ++ rest ∧ Matches strict ps rest caps := by
  induction s generalizing path with
  | nil => simp
  | cons a s ih =>
    constructor
    · intro h
      cases h with
      | lit h =>
      obtain ⟨rest, rfl, h2⟩ := ih.1 h
      exact ⟨rest, rfl, h2⟩
    · rintro ⟨rest, rfl, h⟩
      exact .lit (ih.2 ⟨rest, rfl, h⟩)

theorem loginPattern : segments none (ascii "/login/:user") = (ascii "/login/").map .lit ++ [.param (ascii "user")] := by decide
theorem logoutPattern : segments none (ascii "/logout") = (ascii "/logout").map .lit ++ [] := by decide
theorem homePattern : segments none (ascii "/") = (ascii "/").map .lit ++ [] := by decide

theorem login_match {path : Bytes} {caps : List (Bytes × Bytes)} (h : PatternMatches (ascii "/login/:user") path caps) : ∃ x, path = ascii "/login/" ++ x ∧ 47 ∉ x ∧ caps = [(ascii "user", x)] := by
  unfold PatternMatches at h
  rw [loginPattern] at h
  obtain ⟨rest, rfl, h'⟩ := (matches_literal (s := ascii "/login/")).1 h
  cases h' with
  | param h1 h2 h3 h4 =>
  cases h4
  exact ⟨_, by rw [List.append_nil], h1, rfl⟩

theorem logout_match {path : Bytes} {caps : List (Bytes × Bytes)} (h : PatternMatches (ascii "/logout") path caps) : path = ascii "/logout" ∧ caps = [] := by
  unfold PatternMatches at h
  rw [logoutPattern] at h
  obtain ⟨rest, rfl, h'⟩ := (matches_literal (s := ascii "/logout")).1 h
  cases h'
  exact ⟨by rw [List.append_nil], rfl⟩

theorem home_match {path : Bytes} {caps : List (Bytes × Bytes)} (h : PatternMatches (ascii "/") path caps) : path = ascii "/" ∧ caps = [] := by
  unfold PatternMatches at h
  rw [homePattern] at h
  obtain ⟨rest, rfl, h'⟩ := (matches_literal (s := ascii "/")).1 h
  cases h'
  exact ⟨by rw [List.append_nil], rfl⟩

theorem login_path (x : Bytes) : ascii "/login/" ++ x ≠ ascii "/logout" ∧ ascii "/login/" ++ x ≠ ascii "/" := by
  constructor
  · intro h
    have := congrArg (List.take 7) h
    rw [List.take_append_of_le_length (by decide)] at this
    exact absurd this (by decide)
  · intro h
    have := congrArg (List.take 7) h
    rw [List.take_append_of_le_length (by decide)] at this
    exact absurd this (by decide)

section
variable {α : Type} [AsyncBufRead α] [LawfulBufRead α] {σ : Type} [AsyncBufRead σ] [LawfulBufRead σ] {ρ : Type} [AsyncRead ρ] [LawfulRead ρ] {τ : Type} [AsyncRead τ] [LawfulRead τ]
  {lib : PathTree} {pathOf : Bytes → Bytes} {jwt : JwtLib} {idOf : Bytes → Identity} {data : Bytes} {text : IoErr → Bytes}

theorem loginRouter_plain {time : Nat} : Plain (loginRouter jwt idOf data time text : List (BuildOp (Handler σ))) := by
  intro x hx
  simp only [loginRouter, routes, List.mem_cons, List.not_mem_nil, or_false] at hx
  have hg : PlainMethod (ascii "GET") := by unfold PlainMethod; decide
  rcases hx with rfl | rfl | rfl
  · exact ⟨hg, (by decide : (ascii "/login/:user").head? = some 47)⟩
  · exact ⟨hg, (by decide : (ascii "/logout").head? = some 47)⟩
  · exact ⟨hg, (by decide : (ascii "/").head? = some 47)⟩

theorem loginRouter_data {time : Nat} {method path : Bytes} {ext ext' : Extensions} {resp : Response σ} {e : Handler σ}
    (h : (buildRouter (loginRouter jwt idOf data time text : List (BuildOp (Handler σ)))).route lib method path ext resp = .call e ext') : ext'.getData (.base 0) = some data := by
  refine C40_data (before := []) (op := .data (.base 0) data) rfl ?_ h
  intro o ho
  simp only [List.mem_cons, List.not_mem_nil, or_false] at ho
  rcases ho with rfl | rfl | rfl <;> rfl

/-- What the router does with the three kinds of requests that it has handlers for. -/
theorem login_called (hpath : ∀ u, PathText (pathOf u)) {time : Nat} {t : Bytes} {hmap : HeaderMap} {len : Option Nat} {x : Bytes} (ht : pathOf t = ascii "/login/" ++ x) (hx0 : x ≠ []) (hx1 : 47 ∉ x) :
    (loginServer lib pathOf jwt idOf data time text : Endpoint (BodyReader σ)) ⟨ascii "GET", t, hmap⟩ len = sendIt text ((idOf data).setAuthToken jwt time x freshResponse) := by
  obtain ⟨ext, h1, h2, h3⟩ := behind_calls (lib := lib) (pathOf := pathOf) (text := text) (before := fun _ (r : Response σ) => r) (loginRouter_plain (jwt := jwt) (idOf := idOf) (data := data) (text := text) (time := time)) (head := ⟨ascii "GET", t, hmap⟩) (len := len)
    (show (47 : UInt8) ∉ ascii "GET" by decide) (hpath t) (p := ascii "/login/:user") (e := loginUser jwt idOf time text) (caps := [(ascii "user", x)]) (by simp [loginRouter, routes])
    (by
      unfold PatternMatchesNonEmpty
      rw [loginPattern]
      refine (matches_literal (s := ascii "/login/")).2 ⟨x, ht, ?_⟩
      have := Matches.param (strict := true) (n := ascii "user") (ps := []) (rest := []) hx1 (.inl rfl) (fun _ => hx0) .nil
      rwa [List.append_nil] at this)
    (by
      intro p' e' caps' hin hmt
      simp only [loginRouter, routes, List.mem_cons, List.not_mem_nil, or_false, Prod.mk.injEq] at hin
      rw [ht] at hmt
      rcases hin with ⟨-, rfl, rfl⟩ | ⟨-, rfl, rfl⟩ | ⟨-, rfl, rfl⟩
      · obtain ⟨y, b1, -, rfl⟩ := login_match hmt
        exact ⟨rfl, by rw [List.append_cancel_left b1]⟩
      · exact absurd (logout_match hmt).1 (login_path x).1
      · exact absurd (home_match hmt).1 (login_path x).2)
  have hd := loginRouter_data h2
  have hprm : ext.getParam (ascii "user") = some x := by
    unfold Extensions.getParam
    rw [h1]
    rfl
  unfold loginServer
  rw [h3]
  unfold loginUser
  rw [hd, hprm]

theorem logout_called (hpath : ∀ u, PathText (pathOf u)) {time : Nat} {t : Bytes} {hmap : HeaderMap} {len : Option Nat} (ht : pathOf t = ascii "/logout") :
    (loginServer lib pathOf jwt idOf data time text : Endpoint (BodyReader σ)) ⟨ascii "GET", t, hmap⟩ len = sendIt text ((idOf data).forget jwt time freshResponse) := by
  obtain ⟨ext, h1, h2, h3⟩ := behind_calls (lib := lib) (pathOf := pathOf) (text := text) (before := fun _ (r : Response σ) => r) (loginRouter_plain (jwt := jwt) (idOf := idOf) (data := data) (text := text) (time := time)) (head := ⟨ascii "GET", t, hmap⟩) (len := len)
    (show (47 : UInt8) ∉ ascii "GET" by decide) (hpath t) (p := ascii "/logout") (e := logoutUser jwt idOf time text) (caps := []) (by simp [loginRouter, routes])
    (by
      unfold PatternMatchesNonEmpty
      rw [logoutPattern]
      exact matches_literal.2 ⟨[], by rw [List.append_nil]; exact ht, .nil⟩)
    (by
      intro p' e' caps' hin hmt
      simp only [loginRouter, routes, List.mem_cons, List.not_mem_nil, or_false, Prod.mk.injEq] at hin
      rw [ht] at hmt
      rcases hin with ⟨-, rfl, rfl⟩ | ⟨-, rfl, rfl⟩ | ⟨-, rfl, rfl⟩
      · obtain ⟨y, b1, -⟩ := login_match hmt
        exact absurd b1.symm (login_path y).1
      · exact ⟨rfl, (logout_match hmt).2⟩
      · exact absurd (home_match hmt).1 (by decide))
  have hd := loginRouter_data h2
  unfold loginServer
  rw [h3]
  unfold logoutUser
  rw [hd]

theorem home_called (hpath : ∀ u, PathText (pathOf u)) {time : Nat} {t : Bytes} {hmap : HeaderMap} {len : Option Nat} (ht : pathOf t = ascii "/") :
    (loginServer lib pathOf jwt idOf data time text : Endpoint (BodyReader σ)) ⟨ascii "GET", t, hmap⟩ len =
      match (idOf data).authorizedUser jwt time hmap with
      | some u => sendIt text (.ret (freshResponse.setText (ascii "Hello " ++ u)))
      | none => sendIt text (.ret (⟨400, [], .http11, .empty⟩ : Response σ)) := by
  obtain ⟨ext, h1, h2, h3⟩ := behind_calls (lib := lib) (pathOf := pathOf) (text := text) (before := fun _ (r : Response σ) => r) (loginRouter_plain (jwt := jwt) (idOf := idOf) (data := data) (text := text) (time := time)) (head := ⟨ascii "GET", t, hmap⟩) (len := len)
    (show (47 : UInt8) ∉ ascii "GET" by decide) (hpath t) (p := ascii "/") (e := helloIdentity jwt idOf time text) (caps := []) (by simp [loginRouter, routes])
    (by
      unfold PatternMatchesNonEmpty
      rw [homePattern]
      exact matches_literal.2 ⟨[], by rw [List.append_nil]; exact ht, .nil⟩)
    (by
      intro p' e' caps' hin hmt
      simp only [loginRouter, routes, List.mem_cons, List.not_mem_nil, or_false, Prod.mk.injEq] at hin
      rw [ht] at hmt
      rcases hin with ⟨-, rfl, rfl⟩ | ⟨-, rfl, rfl⟩ | ⟨-, rfl, rfl⟩
      · obtain ⟨y, b1, -⟩ := login_match hmt
        exact absurd b1.symm (login_path y).2
      · exact absurd (logout_match hmt).1 (by decide)
      · exact ⟨rfl, (home_match hmt).2⟩)
  have hd := loginRouter_data h2
  unfold loginServer
  rw [h3]
  unfold helloIdentity
  dsimp only
  rw [hd]
  rfl

/-- Whoever is recognised is greeted; nobody else. -/
theorem Exchange.home (hpath : ∀ u, PathText (pathOf u)) {time : Nat} {env : Env} (hx : HexLenOk env.hexLen) {opts : ServerOpts} {n : Nat} {pool : Pool} {cf cf' : Nat} {req : ClientRequest α} {io : τ} {w w' : Writer} {c c' : Conn ρ}
    (h : Exchange env opts (loginServer lib pathOf jwt idOf data time text : Endpoint (BodyReader σ)) n pool cf cf' req io w w' c c') {t : Bytes} {fs : List (Bytes × Bytes)} (hr : Requestable env.uriOk req t fs) (hexp : Expects fs = false)
    (hc : (∀ b ∈ env.now n, valueByte b) ∧ ∀ b, (env.now n).head? = some b → b ≠ 32 ∧ b ≠ 9) (hnow : (env.now n).length ≤ 4096) (hm : req.method = ascii "GET") (ht : pathOf t = ascii "/")
    (hlim : ∀ u, (idOf data).authorizedUser jwt time req.headers = some u → IsUtf8 u ∧ 6 + u.length ≤ isizeMax) (now : Bytes) :
    Welcome now pool cf cf' req io w w' ((idOf data).authorizedUser jwt time req.headers) := by
  have hcall : ∀ hmap, MapOf hmap fs → (loginServer lib pathOf jwt idOf data time text : Endpoint (BodyReader σ)) ⟨req.method, t, hmap⟩ (some (rem req.body).length) =
      match (idOf data).authorizedUser jwt time req.headers with
      | some u => sendIt text (.ret (freshResponse.setText (ascii "Hello " ++ u)))
      | none => sendIt text (.ret (⟨400, [], .http11, .empty⟩ : Response σ)) := by
    intro hmap hmap'
    have hck : hmap.getAll (ascii "cookie") = req.headers.getAll (ascii "cookie") := arrived hr hmap' (by decide) (by decide) (by decide)
    have hau : (idOf data).authorizedUser jwt time hmap = (idOf data).authorizedUser jwt time req.headers := by
      unfold Identity.authorizedUser
      rw [show hmap.getAll H.cookie = req.headers.getAll H.cookie from hck]
    rw [hm, home_called hpath ht, hau]
  cases hu : (idOf data).authorizedUser jwt time req.headers with
  | none =>
    rw [hu] at hcall
    obtain ⟨resp, k, rsp, rfl, p2, p3, p4, p5, p6, -⟩ := h.result hx hr hexp (P := (· = (⟨400, [], .http11, .empty⟩ : Response σ).toInner))
      (by rintro resp rfl; exact ⟨bare_transmittable hc (by omega) (.inl rfl), rfl, 0, rfl, by decide⟩)
      (by intro hmap hmap'; rw [hcall hmap hmap']; exact ⟨rfl, fun _ => trivial⟩) now
    have hk : (some 0 : Option Nat) = some k := p2
    injection hk with hk
    subst hk
    exact ⟨rsp, p3, p4, p6⟩
  | some u =>
    rw [hu] at hcall
    obtain ⟨hutf, hl⟩ := hlim u hu
    obtain ⟨greeting, hG⟩ : ∃ G, G = ascii "Hello " ++ u := ⟨_, rfl⟩
    have hgl0 : greeting.length = 6 + u.length := by
      have h1 : (ascii "Hello ").length = 6 := by decide
      rw [hG, List.length_append, h1]
    have hgl : greeting.length ≤ isizeMax := by omega
    have hgl' : 8192 + greeting.length < usizeLimit := by unfold isizeMax at hgl; unfold usizeLimit; omega
    have hv : utf8Valid greeting = true := (utf8Valid_iff _).2 (hG ▸ ((utf8Valid_iff _).1 (by decide +kernel : utf8Valid (ascii "Hello ") = true)).append hutf)
    dsimp only at hcall
    rw [← hG] at hcall
    obtain ⟨resp, k, rsp, rfl, p2, p3, p4, p5, p6, p7⟩ := h.result hx hr hexp (P := (· = ((freshResponse : Response σ).setText greeting).toInner))
      (by rintro resp rfl; exact ⟨text_transmittable hc hnow (by omega), rfl, _, rfl, hgl'⟩)
      (by intro hmap hmap'; rw [hcall hmap hmap']; exact ⟨rfl, fun _ => trivial⟩) now
    have hk : (some greeting.length : Option Nat) = some k := p2
    injection hk with hk
    subst hk
    refine ⟨rsp, p3, p4, fun grow hg F hF => ?_⟩
    have hfull : (rem ((freshResponse : Response σ).setText greeting).toInner.body).take greeting.length = greeting := List.take_length
    rw [hfull] at p7
    obtain ⟨r, hr2⟩ := text_of h.pool (connect_decoded h.sent p3) (m := meas io) p6 hgl p7 hg (by omega : greeting.length + meas io < F)
    exact ⟨r, by rw [hr2, if_pos hv, hG]⟩

/-- The response with a cookie arrives. -/
theorem Exchange.cookieOnly {endpoint : Endpoint (BodyReader σ)} {env : Env} (hx : HexLenOk env.hexLen) {opts : ServerOpts} {n : Nat} {pool : Pool} {cf cf' : Nat} {req : ClientRequest α} {io : τ} {w w' : Writer} {c c' : Conn ρ}
    (h : Exchange env opts endpoint n pool cf cf' req io w w' c c') {t : Bytes} {fs : List (Bytes × Bytes)} (hr : Requestable env.uriOk req t fs) (hexp : Expects fs = false)
    (hc : (∀ b ∈ env.now n, valueByte b) ∧ ∀ b, (env.now n).head? = some b → b ≠ 32 ∧ b ≠ 9) {v : Bytes} (hv : PlainValue v) (hsize : v.length + (env.now n).length ≤ 7600)
    (hcall : ∀ hmap, MapOf hmap fs → endpoint ⟨req.method, t, hmap⟩ (some (rem req.body).length) = sendIt text (.ret (Tophat.cookieOnly σ v))) (now : Bytes) :
    ∃ rsp, connect now pool cf cf' req io w = .ret (w', .done (.ok rsp)) ∧ rsp.status = 200 ∧ rsp.length = some 0 ∧ rsp.headers.getAll (ascii "set-cookie") = [v] := by
  have htr := cookieOnly_transmittable (σ := σ) hv hc hsize
  obtain ⟨resp, k, rsp, rfl, p2, p3, p4, p5, p6, -⟩ := h.result hx hr hexp (P := (· = (Tophat.cookieOnly σ v).toInner))
    (by rintro resp rfl; exact ⟨htr, rfl, 0, rfl, by decide⟩)
    (by intro hmap hmap'; rw [hcall hmap hmap']; exact ⟨rfl, fun _ => trivial⟩) now
  have hk : (some 0 : Option Nat) = some k := p2
  injection hk with hk
  subst hk
  refine ⟨rsp, p3, p4, p6, ?_⟩
  have e := sent_value htr.valid _ _ p5 (k := ascii "set-cookie") (by decide)
  rw [e]
  show HeaderMap.getAll [(ascii "set-cookie", [v])] (ascii "set-cookie") = [v]
  simp [HeaderMap.getAll]

/-- **C100.**  A client asks the server of examples/identity.rs (with any usable `Identity`) for `/login/` and a name, at time `issued`.  It gets an empty response with one cookie.  If it sends this cookie (first)
with a request for `/`, to such a server with the same `Identity`, on any connection, it is greeted by that name until the time of issue plus the expiration time, and gets an empty 400 after that. -/
theorem C100_login (hpath : ∀ u, PathText (pathOf u)) (hu : Usable (idOf data)) {issued : Nat} (hi : issued < 2 ^ 63) {env : Env} (hx : HexLenOk env.hexLen) {opts : ServerOpts} {n : Nat} {pool : Pool} {cf cf' : Nat}
    {req : ClientRequest α} {io : τ} {w w' : Writer} {c c' : Conn ρ}
    (h : Exchange env opts (loginServer lib pathOf jwt idOf data issued text : Endpoint (BodyReader σ)) n pool cf cf' req io w w' c c') {t : Bytes} {fs : List (Bytes × Bytes)} (hr : Requestable env.uriOk req t fs) (hexp : Expects fs = false)
    (hc : (∀ b ∈ env.now n, valueByte b) ∧ ∀ b, (env.now n).head? = some b → b ≠ 32 ∧ b ≠ 9)
    (hm : req.method = ascii "GET") {user : Bytes} (ht : pathOf t = ascii "/login/" ++ user) (hx0 : user ≠ []) (hx1 : 47 ∉ user) (hutf : IsUtf8 user) (hlim : 6 + user.length ≤ isizeMax)
    -- the cookie is not too long
    (hsize : ∀ resp : Response σ, (idOf data).setAuthToken jwt issued user freshResponse = .ret resp → ∀ v ∈ resp.headers.getAll (ascii "set-cookie"), v.length + (env.now n).length ≤ 7600) (now : Bytes) :
    ∃ rsp cookie token, connect now pool cf cf' req io w = .ret (w', .done (.ok rsp)) ∧ rsp.status = 200 ∧ rsp.length = some 0 ∧ rsp.headers.getAll (ascii "set-cookie") = [cookie] ∧ FirstCookie cookie (idOf data).cookieName token ∧
      (∃ login : Response σ, (idOf data).setAuthToken jwt issued user freshResponse = .ret login ∧ login.headers.getAll (ascii "set-cookie") = [cookie]) ∧
      -- with the cookie
      ∀ {env : Env} (_ : HexLenOk env.hexLen) {opts : ServerOpts} {n : Nat} {pool : Pool} {cf cf' : Nat} {req : ClientRequest α} {io : τ} {w w' : Writer} {c c' : Conn ρ} {time : Nat}
        (_ : Exchange env opts (loginServer lib pathOf jwt idOf data time text : Endpoint (BodyReader σ)) n pool cf cf' req io w w' c c') {t : Bytes} {fs : List (Bytes × Bytes)} (_ : Requestable env.uriOk req t fs) (_ : Expects fs = false)
        (_ : (∀ b ∈ env.now n, valueByte b) ∧ ∀ b, (env.now n).head? = some b → b ≠ 32 ∧ b ≠ 9) (_ : (env.now n).length ≤ 4096)
        (_ : req.method = ascii "GET") (_ : pathOf t = ascii "/") (_ : SendsFirst req.headers (idOf data).cookieName token) (now : Bytes),
        Welcome now pool cf cf' req io w w' (if time ≤ issued + (idOf data).expirationTime then some user else none) := by
  have hlim64 : (idOf data).expirationTime + issued < 2 ^ 64 := by have := hu.expiration; omega
  let token := jwt.encode (idOf data).serverKey ⟨(idOf data).expirationTime + issued, (idOf data).issuer.getD [], user⟩
  have hjwt : ∀ b ∈ token, jwtByte b = true := jwt.encode_bytes _ _
  have hset : (idOf data).setAuthToken jwt issued user (freshResponse : Response σ) = .ret (cookieOnly σ ((idOf data).cookieWith token (idOf data).expirationTime)) := by
    unfold Identity.setAuthToken Identity.makeToken
    simp only [if_pos hlim64, Run.ret_bind, if_pos hu.expiration, Option.getD_some]
    rw [setCookie_total hu hjwt]
    rfl
  have hsz := hsize _ hset _ (show (idOf data).cookieWith token (idOf data).expirationTime ∈ HeaderMap.getAll [(ascii "set-cookie", [(idOf data).cookieWith token (idOf data).expirationTime])] (ascii "set-cookie") by
    simp [HeaderMap.getAll])
  obtain ⟨rsp, p3, p4, p6, p7⟩ := h.cookieOnly (text := text) hx hr hexp hc (cookie_plain hu hjwt) hsz (by intro hmap _; rw [hm, login_called hpath ht hx0 hx1, hset]) now
  refine ⟨rsp, _, token, p3, p4, p6, p7, cookieWith_first hu.name hjwt, ⟨_, hset, by show HeaderMap.getAll [(ascii "set-cookie", [_])] (ascii "set-cookie") = _; simp [HeaderMap.getAll]⟩, ?_⟩
  intro env hx opts n pool cf cf' req io w w' c c' time h t fs hr hexp hc hnow hm ht hs now
  obtain ⟨v, tok, g1, -, -, -, g5, g6⟩ := C46_authorized_partial HeaderMap.wf_nil hset
  have hv : [(idOf data).cookieWith token (idOf data).expirationTime] = [v] := g1
  injection hv with hv _
  subst hv
  have htok := (firstCookie_unique (g5 hu.name) (cookieWith_first hu.name hjwt)).2
  subst htok
  have hau := g6 req.headers time hs
  have := h.home hpath hx hr hexp hc hnow hm ht (by
    intro u h
    rw [hau] at h
    split at h
    · injection h with h; subst h; exact ⟨hutf, hlim⟩
    · cases h) now
  rwa [hau] at this

/-- **C100.**  Whoever asks for `/` without a cookie of that name in first place that the server key vouches for and that has not expired gets an empty 400. -/
theorem C100_stranger (hpath : ∀ u, PathText (pathOf u)) {time : Nat} {env : Env} (hx : HexLenOk env.hexLen) {opts : ServerOpts} {n : Nat} {pool : Pool} {cf cf' : Nat} {req : ClientRequest α} {io : τ} {w w' : Writer} {c c' : Conn ρ}
    (h : Exchange env opts (loginServer lib pathOf jwt idOf data time text : Endpoint (BodyReader σ)) n pool cf cf' req io w w' c c') {t : Bytes} {fs : List (Bytes × Bytes)} (hr : Requestable env.uriOk req t fs) (hexp : Expects fs = false)
    (hc : (∀ b ∈ env.now n, valueByte b) ∧ ∀ b, (env.now n).head? = some b → b ≠ 32 ∧ b ≠ 9) (hnow : (env.now n).length ≤ 4096) (hm : req.method = ascii "GET") (ht : pathOf t = ascii "/")
    (hno : ∀ token claims, SendsFirst req.headers (idOf data).cookieName token → jwt.verify (idOf data).serverKey token = some claims → claims.exp < time) (now : Bytes) :
    Welcome now pool cf cf' req io w w' none := by
  have hau : (idOf data).authorizedUser jwt time req.headers = none := by
    cases h : (idOf data).authorizedUser jwt time req.headers with
    | none => rfl
    | some u =>
      obtain ⟨token, cl, h1, h2, -, h3⟩ := C47_valid.1 h
      have := hno token cl h1 h2
      omega
  have := h.home hpath hx hr hexp hc hnow hm ht (by rw [hau]; intro u h; cases h) now
  rwa [hau] at this

/-- **C100.**  A client that asks for `/logout` gets an empty response with one cookie, which is to be kept for no time.  If it sends it all the same, it gets an empty 400 at `/`, at any time. -/
theorem C100_logout (hpath : ∀ u, PathText (pathOf u)) (hu : Usable (idOf data)) {issued : Nat} {env : Env} (hx : HexLenOk env.hexLen) {opts : ServerOpts} {n : Nat} {pool : Pool} {cf cf' : Nat}
    {req : ClientRequest α} {io : τ} {w w' : Writer} {c c' : Conn ρ}
    (h : Exchange env opts (loginServer lib pathOf jwt idOf data issued text : Endpoint (BodyReader σ)) n pool cf cf' req io w w' c c') {t : Bytes} {fs : List (Bytes × Bytes)} (hr : Requestable env.uriOk req t fs) (hexp : Expects fs = false)
    (hc : (∀ b ∈ env.now n, valueByte b) ∧ ∀ b, (env.now n).head? = some b → b ≠ 32 ∧ b ≠ 9) (hm : req.method = ascii "GET") (ht : pathOf t = ascii "/logout")
    (hsize : ∀ resp : Response σ, (idOf data).forget jwt issued freshResponse = .ret resp → ∀ v ∈ resp.headers.getAll (ascii "set-cookie"), v.length + (env.now n).length ≤ 7600) (now : Bytes) :
    ∃ rsp cookie token, connect now pool cf cf' req io w = .ret (w', .done (.ok rsp)) ∧ rsp.status = 200 ∧ rsp.length = some 0 ∧ rsp.headers.getAll (ascii "set-cookie") = [cookie] ∧ FirstCookie cookie (idOf data).cookieName token ∧
      ascii "; Max-Age=0" <:+ cookie ∧
      (∃ logout : Response σ, (idOf data).forget jwt issued freshResponse = .ret logout ∧ logout.headers.getAll (ascii "set-cookie") = [cookie]) ∧
      ∀ {env : Env} (_ : HexLenOk env.hexLen) {opts : ServerOpts} {n : Nat} {pool : Pool} {cf cf' : Nat} {req : ClientRequest α} {io : τ} {w w' : Writer} {c c' : Conn ρ} {time : Nat} (_ : 0 < time)
        (_ : Exchange env opts (loginServer lib pathOf jwt idOf data time text : Endpoint (BodyReader σ)) n pool cf cf' req io w w' c c') {t : Bytes} {fs : List (Bytes × Bytes)} (_ : Requestable env.uriOk req t fs) (_ : Expects fs = false)
        (_ : (∀ b ∈ env.now n, valueByte b) ∧ ∀ b, (env.now n).head? = some b → b ≠ 32 ∧ b ≠ 9) (_ : (env.now n).length ≤ 4096)
        (_ : req.method = ascii "GET") (_ : pathOf t = ascii "/") (_ : SendsFirst req.headers (idOf data).cookieName token) (now : Bytes),
        Welcome now pool cf cf' req io w w' none := by
  let token := jwt.encode (idOf data).serverKey ⟨0, (idOf data).issuer.getD [], []⟩
  have hjwt : ∀ b ∈ token, jwtByte b = true := jwt.encode_bytes _ _
  have hset : (idOf data).forget jwt issued (freshResponse : Response σ) = .ret (cookieOnly σ ((idOf data).cookieWith token 0)) := by
    unfold Identity.forget Identity.makeToken
    simp only [Run.ret_bind]
    refine (setCookie_total hu ?_).trans rfl
    exact hjwt
  have hsz := hsize _ hset _ (show (idOf data).cookieWith token 0 ∈ HeaderMap.getAll [(ascii "set-cookie", [(idOf data).cookieWith token 0])] (ascii "set-cookie") by simp [HeaderMap.getAll])
  obtain ⟨rsp, p3, p4, p6, p7⟩ := h.cookieOnly (text := text) hx hr hexp hc (cookie_plain hu hjwt) hsz (by intro hmap _; rw [hm, logout_called hpath ht, hset]) now
  refine ⟨rsp, _, token, p3, p4, p6, p7, cookieWith_first hu.name hjwt, ?_, ⟨_, hset, by show HeaderMap.getAll [(ascii "set-cookie", [_])] (ascii "set-cookie") = _; simp [HeaderMap.getAll]⟩, ?_⟩
  · unfold Identity.cookieWith
    have e : ascii "; Max-Age=0" = ascii "; Max-Age=" ++ decimal 0 := by decide
    rw [e, List.append_assoc _ (ascii "; Max-Age=")]
    exact List.suffix_append _ _
  intro env hx opts n pool cf cf' req io w w' c c' time htime h t fs hr hexp hc hnow hm ht hs now
  obtain ⟨tok, g1, -, -, -, g5, g6⟩ := C48_forget HeaderMap.wf_nil hset
  have hv : [(idOf data).cookieWith token 0] = [(idOf data).cookieWith tok 0] := g1
  injection hv with hv _
  have g5 := g5 hu.name
  rw [← hv] at g5
  have htok := (firstCookie_unique g5 (cookieWith_first hu.name hjwt)).2
  subst htok
  have hau := g6 req.headers time htime hs
  have := h.home hpath hx hr hexp hc hnow hm ht (by rw [hau]; intro u h; cases h) now
  rwa [hau] at this

/-- **C100.**  To every other request (but for `/login/`, which is left open by the documentation of path-tree) it gets an empty 404. -/
theorem C100_not_found (hpath : ∀ u, PathText (pathOf u)) {time : Nat} {env : Env} (hx : HexLenOk env.hexLen) {opts : ServerOpts} {n : Nat} {pool : Pool} {cf cf' : Nat} {req : ClientRequest α} {io : τ} {w w' : Writer} {c c' : Conn ρ}
    (h : Exchange env opts (loginServer lib pathOf jwt idOf data time text : Endpoint (BodyReader σ)) n pool cf cf' req io w w' c c') {t : Bytes} {fs : List (Bytes × Bytes)} (hr : Requestable env.uriOk req t fs) (hexp : Expects fs = false)
    (hc : (∀ b ∈ env.now n, valueByte b) ∧ ∀ b, (env.now n).head? = some b → b ≠ 32 ∧ b ≠ 9) (hnow : (env.now n).length ≤ 4096)
    (hno : req.method ≠ ascii "GET" ∨ pathOf t ≠ ascii "/" ∧ pathOf t ≠ ascii "/logout" ∧ ∀ x, 47 ∉ x → pathOf t ≠ ascii "/login/" ++ x) (now : Bytes) :
    ∃ rsp, connect now pool cf cf' req io w = .ret (w', .done (.ok rsp)) ∧ rsp.status = 404 ∧ rsp.length = some 0 ∧ rsp.headers.getAll (ascii "set-cookie") = [] := by
  have hmm : (47 : UInt8) ∉ req.method := fun h => tokenByte_ne_slash (hr.method.2 _ h) rfl
  have htr := bare_transmittable (σ := σ) hc (by omega) (.inr rfl : (404 : StatusCode) = 400 ∨ (404 : StatusCode) = 404)
  obtain ⟨resp, k, rsp, rfl, p2, p3, p4, p5, p6, -⟩ := h.result hx hr hexp (P := (· = (⟨404, [], .http11, .empty⟩ : Response σ).toInner))
    (by rintro resp rfl; exact ⟨htr, rfl, 0, rfl, by decide⟩)
    (by
      intro hmap hmap'
      unfold loginServer Router.behind
      dsimp only
      rw [C39_not_found_partial loginRouter_plain hmm (hpath t) (by
        intro p e hin caps hcaps
        simp only [loginRouter, routes, List.mem_cons, List.not_mem_nil, or_false, Prod.mk.injEq] at hin
        rcases hno with hno | ⟨n1, n2, n3⟩
        · rcases hin with ⟨h1, -⟩ | ⟨h1, -⟩ | ⟨h1, -⟩ <;> exact hno h1
        · rcases hin with ⟨-, rfl, -⟩ | ⟨-, rfl, -⟩ | ⟨-, rfl, -⟩
          · obtain ⟨y, b1, b2, -⟩ := login_match hcaps
            exact n3 y b2 b1
          · exact n2 (logout_match hcaps).1
          · exact n1 (home_match hcaps).1)]
      exact ⟨rfl, fun _ => trivial⟩) now
  have hk : (some 0 : Option Nat) = some k := p2
  injection hk with hk
  subst hk
  refine ⟨rsp, p3, p4, p6, ?_⟩
  have e := sent_value htr.valid _ _ p5 (k := ascii "set-cookie") (by decide)
  rw [e]
  rfl

end

/-! ## A concrete case -/

/-- The identity of the examples, with the data of the router as the key. -/
def demoIdOf (key : Bytes) : Identity := { demoIdentity with serverKey := key }

theorem demoIdOf_usable (key : Bytes) : Usable (demoIdOf key) :=
  ⟨(by unfold CookieName; decide : CookieName (ascii "jwt")), (by decide : ∀ b ∈ ascii "/", headerValueByte b = true), (by decide : (10 : Nat) < 2 ^ 63)⟩

/-- The server of examples/identity.rs, at `time`. -/
def demoServer (time : Nat) : Endpoint (BodyReader Script) := loginServer lastMatch simplePath toyJwt demoIdOf (ascii "k") time fun _ => ascii "error"

/-- `GET` of that path, without a body. -/
def getRequest (path : Bytes) (headers : HeaderMap) : ClientRequest Script :=
  { demoRequest with method := ascii "GET", uri := { demoRequest.uri with path := path, query := none }, headers := headers, body := [], length := some 0 }

/-- `u` logs in. -/
def loginRequest : ClientRequest Script := getRequest (ascii "/login/u") []
/-- Its bytes. -/
def loginRequestUp : Bytes := ascii "GET /login/u HTTP/1.1\r\nhost: h.org:81\r\ncontent-length: 0\r\n\r\n"
theorem loginRequest_ok : Requestable demoEnv.uriOk loginRequest (ascii "/login/u") [(ascii "host", ascii "h.org:81"), (ascii "content-length", ascii "0")] :=
  ⟨⟨by decide, by unfold tokenByte; decide⟩, by decide +kernel, ⟨by unfold targetByte; decide, by decide +kernel⟩, (HeaderMap.plain_ok (by decide +kernel)).1, (HeaderMap.plain_ok (by decide +kernel)).2, demoRequest_ok.host, by decide, by decide,
    by decide, by decide +kernel, by decide⟩

/-- `u` logs out. -/
def logoutRequest : ClientRequest Script := getRequest (ascii "/logout") []
/-- Its bytes. -/
def logoutRequestUp : Bytes := ascii "GET /logout HTTP/1.1\r\nhost: h.org:81\r\ncontent-length: 0\r\n\r\n"
theorem logoutRequest_ok : Requestable demoEnv.uriOk logoutRequest (ascii "/logout") [(ascii "host", ascii "h.org:81"), (ascii "content-length", ascii "0")] :=
  ⟨⟨by decide, by unfold tokenByte; decide⟩, by decide +kernel, ⟨by unfold targetByte; decide, by decide +kernel⟩, (HeaderMap.plain_ok (by decide +kernel)).1, (HeaderMap.plain_ok (by decide +kernel)).2, demoRequest_ok.host, by decide, by decide,
    by decide, by decide +kernel, by decide⟩

/-- The request of somebody who has logged in. -/
def homeRequest : ClientRequest Script := getRequest (ascii "/") [(ascii "cookie", [ascii "lang=en", ascii "jwt=xxxxxxxxxxxxxxx.HI.HF.GL; a=1"])]
/-- Its bytes. -/
def homeRequestUp : Bytes := ascii "GET / HTTP/1.1\r\nhost: h.org:81\r\ncontent-length: 0\r\ncookie: lang=en\r\ncookie: jwt=xxxxxxxxxxxxxxx.HI.HF.GL; a=1\r\n\r\n"
theorem homeRequest_ok : Requestable demoEnv.uriOk homeRequest (ascii "/") [(ascii "host", ascii "h.org:81"), (ascii "content-length", ascii "0"), (ascii "cookie", ascii "lang=en"), (ascii "cookie", ascii "jwt=xxxxxxxxxxxxxxx.HI.HF.GL; a=1")] :=
  ⟨⟨by decide, by unfold tokenByte; decide⟩, by decide +kernel, ⟨by unfold targetByte; decide, by decide +kernel⟩, (HeaderMap.plain_ok (by decide +kernel)).1, (HeaderMap.plain_ok (by decide +kernel)).2, demoRequest_ok.host, by decide, by decide,
    by decide, by decide +kernel, by decide⟩

/-- The request of somebody who has not. -/
def strangeRequest : ClientRequest Script := getRequest (ascii "/") [(ascii "cookie", [ascii "lang=en"])]
/-- Its bytes. -/
def strangeRequestUp : Bytes := ascii "GET / HTTP/1.1\r\nhost: h.org:81\r\ncontent-length: 0\r\ncookie: lang=en\r\n\r\n"
theorem strangeRequest_ok : Requestable demoEnv.uriOk strangeRequest (ascii "/") [(ascii "host", ascii "h.org:81"), (ascii "content-length", ascii "0"), (ascii "cookie", ascii "lang=en")] :=
  ⟨⟨by decide, by unfold tokenByte; decide⟩, by decide +kernel, ⟨by unfold targetByte; decide, by decide +kernel⟩, (HeaderMap.plain_ok (by decide +kernel)).1, (HeaderMap.plain_ok (by decide +kernel)).2, demoRequest_ok.host, by decide, by decide,
    by decide, by decide +kernel, by decide⟩

/-- The request of somebody who has logged out. -/
def forgottenRequest : ClientRequest Script := getRequest (ascii "/") [(ascii "cookie", [ascii "jwt=.HI..GL"])]
/-- Its bytes. -/
def forgottenRequestUp : Bytes := ascii "GET / HTTP/1.1\r\nhost: h.org:81\r\ncontent-length: 0\r\ncookie: jwt=.HI..GL\r\n\r\n"
theorem forgottenRequest_ok : Requestable demoEnv.uriOk forgottenRequest (ascii "/") [(ascii "host", ascii "h.org:81"), (ascii "content-length", ascii "0"), (ascii "cookie", ascii "jwt=.HI..GL")] :=
  ⟨⟨by decide, by unfold tokenByte; decide⟩, by decide +kernel, ⟨by unfold targetByte; decide, by decide +kernel⟩, (HeaderMap.plain_ok (by decide +kernel)).1, (HeaderMap.plain_ok (by decide +kernel)).2, demoRequest_ok.host, by decide, by decide,
    by decide, by decide +kernel, by decide⟩

/-- A request for which there is no handler. -/
def lostRequest : ClientRequest Script := getRequest (ascii "/login/u/v") []
/-- Its bytes. -/
def lostRequestUp : Bytes := ascii "GET /login/u/v HTTP/1.1\r\nhost: h.org:81\r\ncontent-length: 0\r\n\r\n"
theorem lostRequest_ok : Requestable demoEnv.uriOk lostRequest (ascii "/login/u/v") [(ascii "host", ascii "h.org:81"), (ascii "content-length", ascii "0")] :=
  ⟨⟨by decide, by unfold tokenByte; decide⟩, by decide +kernel, ⟨by unfold targetByte; decide, by decide +kernel⟩, (HeaderMap.plain_ok (by decide +kernel)).1, (HeaderMap.plain_ok (by decide +kernel)).2, demoRequest_ok.host, by decide, by decide,
    by decide, by decide +kernel, by decide⟩

/-- What the server answers to the login. -/
def loginDown : Bytes := responseHead .http11 200 [(ascii "set-cookie", [ascii "jwt=xxxxxxxxxxxxxxx.HI.HF.GL; HttpOnly; Path=/; Max-Age=10"])] (some 0) (ascii "NOW")
/-- What it answers to the logout. -/
def logoutDown : Bytes := responseHead .http11 200 [(ascii "set-cookie", [ascii "jwt=.HI..GL; HttpOnly; Path=/; Max-Age=0"])] (some 0) (ascii "NOW")
/-- What it answers to those whom it does not know. -/
def badDown : Bytes := responseHead .http11 400 [] (some 0) (ascii "NOW")
/-- What it answers to those who are lost. -/
def lostDown : Bytes := responseHead .http11 404 [] (some 0) (ascii "NOW")
/-- What reaches the client, in pieces of 7 bytes. -/
def inPieces (down : Bytes) : Script := (relayed.pieces 100 down).map Ev.data

theorem demoCookie {resp : Response Script} (h : (demoIdOf (ascii "k")).setAuthToken toyJwt 5 (ascii "u") freshResponse = .ret resp) :
    resp.headers.getAll (ascii "set-cookie") = [ascii "jwt=xxxxxxxxxxxxxxx.HI.HF.GL; HttpOnly; Path=/; Max-Age=10"] := by
  have e : (demoIdOf (ascii "k")).setAuthToken toyJwt 5 (ascii "u") (freshResponse : Response Script) =
      .ret (cookieOnly Script (ascii "jwt=xxxxxxxxxxxxxxx.HI.HF.GL; HttpOnly; Path=/; Max-Age=10")) := by decide +kernel
  rw [h] at e
  injection e with e
  subst e
  show HeaderMap.getAll [(ascii "set-cookie", [_])] (ascii "set-cookie") = _
  simp [HeaderMap.getAll]

theorem demoForgotten {resp : Response Script} (h : (demoIdOf (ascii "k")).forget toyJwt 7 freshResponse = .ret resp) :
    resp.headers.getAll (ascii "set-cookie") = [ascii "jwt=.HI..GL; HttpOnly; Path=/; Max-Age=0"] := by
  have e : (demoIdOf (ascii "k")).forget toyJwt 7 (freshResponse : Response Script) = .ret (cookieOnly Script (ascii "jwt=.HI..GL; HttpOnly; Path=/; Max-Age=0")) := by decide +kernel
  rw [h] at e
  injection e with e
  subst e
  show HeaderMap.getAll [(ascii "set-cookie", [_])] (ascii "set-cookie") = _
  simp [HeaderMap.getAll]

/-- All hypotheses of `C100_login` are met: `u` logs in at time 5 for 10 seconds, is greeted at time 15, and is not at time 16. -/
example : (∃ rsp, connect (ascii "NOW") zeroPool 100 1000 loginRequest (inPieces loginDown) ⟨[], [], 0⟩ = .ret (⟨[], loginRequestUp, loginRequestUp.length⟩, .done (.ok rsp)) ∧ rsp.status = 200) ∧
    Welcome (ascii "NOW") zeroPool 100 1000 homeRequest (inPieces (helloDown (some (ascii "u")))) ⟨[], [], 0⟩ ⟨[], homeRequestUp, homeRequestUp.length⟩ (some (ascii "u")) ∧
    Welcome (ascii "NOW") zeroPool 100 1000 homeRequest (inPieces badDown) ⟨[], [], 0⟩ ⟨[], homeRequestUp, homeRequestUp.length⟩ none := by
  obtain ⟨c1, x1⟩ := exchange_of (endpoint := demoServer 5) (req := loginRequest) (up := loginRequestUp) (down := loginDown) (by decide +kernel) (by decide +kernel) (by decide +kernel) (by decide +kernel) (by decide +kernel)
  obtain ⟨c2, x2⟩ := exchange_of (endpoint := demoServer 15) (req := homeRequest) (up := homeRequestUp) (down := helloDown (some (ascii "u"))) (by decide +kernel) (by decide +kernel) (by decide +kernel) (by decide +kernel) (by decide +kernel)
  obtain ⟨c3, x3⟩ := exchange_of (endpoint := demoServer 16) (req := homeRequest) (up := homeRequestUp) (down := badDown) (by decide +kernel) (by decide +kernel) (by decide +kernel) (by decide +kernel) (by decide +kernel)
  obtain ⟨rsp, cookie, token, a1, a2, -, a3, a4, ⟨login, a6, a7⟩, a5⟩ := C100_login (τ := Script) (idOf := demoIdOf) simplePath_ok (demoIdOf_usable _) (by decide) exactHexLen_ok x1 loginRequest_ok (by decide +kernel) nowOk rfl (user := ascii "u") (by decide) (by decide) (by decide)
    ((utf8Valid_iff _).1 (by decide +kernel)) (by decide) (fun resp hresp v hv => by
      rw [demoCookie hresp, List.mem_singleton] at hv
      subst hv
      decide +kernel) (ascii "NOW")
  have hs : SendsFirst homeRequest.headers demoIdentity.cookieName (ascii "xxxxxxxxxxxxxxx.HI.HF.GL") := sendsFirst_iff.1 (by decide)
  have htok : token = ascii "xxxxxxxxxxxxxxx.HI.HF.GL" := by
    have hc := (demoCookie a6).symm.trans a7
    have hc := (List.cons.inj hc).1
    subst hc
    have hp : parseCookie (ascii "jwt=xxxxxxxxxxxxxxx.HI.HF.GL; HttpOnly; Path=/; Max-Age=10") = some (ascii "jwt", ascii "xxxxxxxxxxxxxxx.HI.HF.GL") := by decide +kernel
    exact (firstCookie_unique a4 (parseCookie_iff.1 hp)).2
  subst htok
  exact ⟨⟨rsp, a1, a2⟩, a5 exactHexLen_ok x2 homeRequest_ok (by decide +kernel) nowOk (by decide) rfl (by decide) hs (ascii "NOW"),
    a5 exactHexLen_ok x3 homeRequest_ok (by decide +kernel) nowOk (by decide) rfl (by decide) hs (ascii "NOW")⟩

/-- All hypotheses of `C100_stranger` are met. -/
example : Welcome (ascii "NOW") zeroPool 100 1000 strangeRequest (inPieces badDown) ⟨[], [], 0⟩ ⟨[], strangeRequestUp, strangeRequestUp.length⟩ none := by
  obtain ⟨c1, x1⟩ := exchange_of (endpoint := demoServer 15) (req := strangeRequest) (up := strangeRequestUp) (down := badDown) (by decide +kernel) (by decide +kernel) (by decide +kernel) (by decide +kernel) (by decide +kernel)
  exact C100_stranger (τ := Script) (idOf := demoIdOf) simplePath_ok exactHexLen_ok x1 strangeRequest_ok (by decide +kernel) nowOk (by decide) rfl (by decide) (by
    intro token claims h
    have := sendsFirst_iff.2 h
    exact absurd this (by
      rw [show getCookie (demoIdOf (ascii "k")).cookieName (strangeRequest.headers.getAll H.cookie) = none by decide +kernel]
      exact fun h => by cases h)) (ascii "NOW")

/-- All hypotheses of `C100_logout` are met: `u` logs out at time 7, and is not recognised at time 8. -/
example : (∃ rsp, connect (ascii "NOW") zeroPool 100 1000 logoutRequest (inPieces logoutDown) ⟨[], [], 0⟩ = .ret (⟨[], logoutRequestUp, logoutRequestUp.length⟩, .done (.ok rsp)) ∧ rsp.status = 200) ∧
    Welcome (ascii "NOW") zeroPool 100 1000 forgottenRequest (inPieces badDown) ⟨[], [], 0⟩ ⟨[], forgottenRequestUp, forgottenRequestUp.length⟩ none := by
  obtain ⟨c1, x1⟩ := exchange_of (endpoint := demoServer 7) (req := logoutRequest) (up := logoutRequestUp) (down := logoutDown) (by decide +kernel) (by decide +kernel) (by decide +kernel) (by decide +kernel) (by decide +kernel)
  obtain ⟨c2, x2⟩ := exchange_of (endpoint := demoServer 8) (req := forgottenRequest) (up := forgottenRequestUp) (down := badDown) (by decide +kernel) (by decide +kernel) (by decide +kernel) (by decide +kernel) (by decide +kernel)
  obtain ⟨rsp, cookie, token, a1, a2, -, a3, a4, -, ⟨logout, a6, a7⟩, a5⟩ := C100_logout (τ := Script) (idOf := demoIdOf) simplePath_ok (demoIdOf_usable _) exactHexLen_ok x1 logoutRequest_ok (by decide +kernel) nowOk rfl (by decide)
    (fun resp hresp v hv => by
      rw [demoForgotten hresp, List.mem_singleton] at hv
      subst hv
      decide +kernel) (ascii "NOW")
  have hs : SendsFirst forgottenRequest.headers demoIdentity.cookieName (ascii ".HI..GL") := sendsFirst_iff.1 (by decide)
  have htok : token = ascii ".HI..GL" := by
    have hc := (demoForgotten a6).symm.trans a7
    have hc := (List.cons.inj hc).1
    subst hc
    have hp : parseCookie (ascii "jwt=.HI..GL; HttpOnly; Path=/; Max-Age=0") = some (ascii "jwt", ascii ".HI..GL") := by decide +kernel
    exact (firstCookie_unique a4 (parseCookie_iff.1 hp)).2
  subst htok
  exact ⟨⟨rsp, a1, a2⟩, a5 exactHexLen_ok (by decide) x2 forgottenRequest_ok (by decide +kernel) nowOk (by decide) rfl (by decide) hs (ascii "NOW")⟩

/-- All hypotheses of `C100_not_found` are met. -/
example : ∃ rsp, connect (ascii "NOW") zeroPool 100 1000 lostRequest (inPieces lostDown) ⟨[], [], 0⟩ = .ret (⟨[], lostRequestUp, lostRequestUp.length⟩, .done (.ok rsp)) ∧ rsp.status = 404 := by
  obtain ⟨c1, x1⟩ := exchange_of (endpoint := demoServer 15) (req := lostRequest) (up := lostRequestUp) (down := lostDown) (by decide +kernel) (by decide +kernel) (by decide +kernel) (by decide +kernel) (by decide +kernel)
  obtain ⟨rsp, a1, a2, -⟩ := C100_not_found (τ := Script) simplePath_ok exactHexLen_ok x1 lostRequest_ok (by decide +kernel) nowOk (by decide) (.inr ⟨by decide, by decide, by
    intro y hy h
    have e : simplePath (ascii "/login/u/v") = ascii "/login/" ++ ascii "u/v" := by decide
    rw [e] at h
    rw [← List.append_cancel_left h] at hy
    exact hy (by decide)⟩) (ascii "NOW")
  exact ⟨rsp, a1, a2⟩

end Tophat
