import Verif.Spec.Identity
import Verif.Props.Cors
/-!
# Properties of the identity service (C46 – C49, C62)

Relative to the laws of `JwtLib`; `toyJwt` shows that they can be met.
-/

namespace Tophat
open HeaderMap

/-! ## Cookies -/

theorem split_at_sep {c : UInt8} {seg rest : Bytes} (hs : c ∉ seg) (hr : rest = [] ∨ rest.head? = some c) :
    (seg ++ rest).takeWhile (· ≠ c) = seg ∧ (seg ++ rest).dropWhile (· ≠ c) = rest := by
  induction seg with
  | nil =>
    cases rest with
    | nil => exact ⟨rfl, rfl⟩
    | cons b r =>
      rcases hr with h | h
      · cases h
      · simp only [List.head?_cons, Option.some.injEq] at h
        subst h
        simp
  | cons b seg ih =>
    have hb : b ≠ c := by rintro rfl; simp at hs
    obtain ⟨h1, h2⟩ := ih (by intro h; exact hs (by simp [h]))
    constructor
    · rw [List.cons_append, List.takeWhile_cons_of_pos (by simpa using hb), h1]
    · rw [List.cons_append, List.dropWhile_cons_of_pos (by simpa using hb), h2]

theorem not_mem_takeWhile (c : UInt8) (l : Bytes) : c ∉ l.takeWhile (· ≠ c) := by
  intro hl
  have := List.all_takeWhile (p := fun b : UInt8 => decide (b ≠ c)) (l := l)
  rw [List.all_eq_true] at this
  simpa using this c hl

theorem head_dropWhile (c : UInt8) (l : Bytes) : l.dropWhile (· ≠ c) = [] ∨ (l.dropWhile (· ≠ c)).head? = some c := by
  induction l with
  | nil => exact .inl rfl
  | cons b l ih =>
    by_cases hb : b = c
    · subst hb; right; simp
    · rw [List.dropWhile_cons_of_pos (by simpa using hb)]; exact ih

theorem parseCookie_iff {t n v : Bytes} : parseCookie t = some (n, v) ↔ FirstCookie t n v := by
  constructor
  · intro h
    unfold parseCookie at h
    dsimp only at h
    have e1 : t.takeWhile (· ≠ 59) ++ t.dropWhile (· ≠ 59) = t := List.takeWhile_append_dropWhile
    have n1 := not_mem_takeWhile 59 t
    have r1 := head_dropWhile 59 t
    generalize t.takeWhile (· ≠ 59) = kv at *
    generalize t.dropWhile (· ≠ 59) = rest at *
    have e2 : kv.takeWhile (· ≠ 61) ++ kv.dropWhile (· ≠ 61) = kv := List.takeWhile_append_dropWhile
    have n2 := not_mem_takeWhile 61 kv
    have r2 := head_dropWhile 61 kv
    cases hd : kv.dropWhile (· ≠ 61) with
    | nil => rw [hd] at h; cases h
    | cons b value =>
      rw [hd] at h e2 r2
      dsimp only at h
      rcases r2 with r2 | r2
      · cases r2
      · simp only [List.head?_cons, Option.some.injEq] at r2
        subst r2
        generalize kv.takeWhile (· ≠ 61) = nm at *
        split at h
        · cases h
        · rename_i hne
          simp only [Option.some.injEq, Prod.mk.injEq] at h
          obtain ⟨rfl, rfl⟩ := h
          refine ⟨nm, value, rest, ?_, r1, n2, ?_, ?_, rfl, rfl, hne⟩
          · rw [← e1, ← e2]; simp [ascii]
          · intro hm; exact n1 (by rw [← e2]; simp [hm])
          · intro hm; exact n1 (by rw [← e2]; simp [hm])
  · rintro ⟨nm, val, rest, rfl, hr, h1, h2, h3, rfl, rfl, hne⟩
    have e : ascii "=" = [61] := rfl
    rw [e]
    have hno : 59 ∉ nm ++ [61] ++ val := by simp [h2, h3]
    obtain ⟨a1, -⟩ := split_at_sep hno hr
    obtain ⟨b1, b2⟩ := split_at_sep (rest := 61 :: val) h1 (.inr rfl)
    have e2 : nm ++ [61] ++ val = nm ++ 61 :: val := by simp
    unfold parseCookie
    dsimp only
    rw [a1, e2, b1, b2]
    dsimp only
    rw [if_neg hne]

theorem getCookie_iff {name value : Bytes} : ∀ {vs : List Bytes}, getCookie name vs = some value ↔
    ∃ before text after, vs = before ++ text :: after ∧ Readable text ∧ FirstCookie text name value ∧
      ∀ t ∈ before, Readable t ∧ ∃ n v, FirstCookie t n v ∧ n ≠ name
  | [] => by simp [getCookie]
  | v :: vs => by
    have str : ∀ s, toStr v = some s → s = v := by
      intro s hs
      unfold toStr at hs
      split at hs
      · injection hs with hs; exact hs.symm
      · cases hs
    constructor
    · intro h
      unfold getCookie at h
      cases hs : toStr v with
      | none => rw [hs] at h; cases h
      | some s =>
        have := str s hs
        subst this
        rw [hs] at h
        dsimp only at h
        cases hp : parseCookie s with
        | none => rw [hp] at h; cases h
        | some nv =>
          obtain ⟨n, x⟩ := nv
          rw [hp] at h
          dsimp only at h
          have hf := parseCookie_iff.1 hp
          split at h
          · rename_i hn
            injection h with h
            subst h; subst hn
            exact ⟨[], s, vs, rfl, hs, hf, by simp⟩
          · rename_i hn
            obtain ⟨b, t, a, rfl, h1, h2, h3⟩ := getCookie_iff.1 h
            refine ⟨s :: b, t, a, rfl, h1, h2, ?_⟩
            intro y hy
            rcases List.mem_cons.1 hy with rfl | hy
            · exact ⟨hs, n, x, hf, hn⟩
            · exact h3 y hy
    · rintro ⟨b, t, a, hv, h1, h2, h3⟩
      unfold getCookie
      cases b with
      | nil =>
        injection hv with hv hv'
        subst hv; subst hv'
        unfold Readable at h1
        rw [h1]
        dsimp only
        rw [parseCookie_iff.2 h2]
        simp
      | cons y b =>
        injection hv with hv hv'
        subst hv; subst hv'
        obtain ⟨g1, n, x, g2, g3⟩ := h3 v (by simp)
        unfold Readable at g1
        rw [g1]
        dsimp only
        rw [parseCookie_iff.2 g2]
        dsimp only
        rw [if_neg g3]
        exact getCookie_iff.2 ⟨b, t, a, rfl, h1, h2, fun z hz => h3 z (by simp [hz])⟩

theorem sendsFirst_iff {headers : HeaderMap} {name value : Bytes} : getCookie name (headers.getAll H.cookie) = some value ↔ SendsFirst headers name value :=
  getCookie_iff

theorem jwtByte_facts {b : UInt8} (h : jwtByte b = true) : b ≠ 59 ∧ blank b = false ∧ ((32 ≤ b.toNat && b.toNat < 127) || b.toNat == 9) = true ∧ headerValueByte b = true := by
  unfold jwtByte at h
  simp only [Bool.or_eq_true, Bool.and_eq_true, decide_eq_true_eq, beq_iff_eq] at h
  refine ⟨?_, ?_, ?_, ?_⟩
  · rintro rfl
    simp at h
  · unfold blank
    rw [Bool.or_eq_false_iff]
    constructor
    · rw [beq_eq_false_iff_ne]; rintro rfl; simp at h
    · rw [beq_eq_false_iff_ne]; rintro rfl; simp at h
  · simp only [Bool.or_eq_true, Bool.and_eq_true, decide_eq_true_eq, beq_iff_eq]; omega
  · unfold headerValueByte
    simp only [Bool.or_eq_true, Bool.and_eq_true, decide_eq_true_eq, beq_iff_eq, bne_iff_ne]; omega

theorem dropWhile_none {p : UInt8 → Bool} {l : Bytes} (h : ∀ b ∈ l, p b = false) : l.dropWhile p = l := by
  cases l with
  | nil => rfl
  | cons b l => rw [List.dropWhile_cons_of_neg (by simp [h b])]

theorem trim_token {t : Bytes} (h : ∀ b ∈ t, jwtByte b = true) : trim t = t := by
  have h' : ∀ b ∈ t, blank b = false := fun b hb => (jwtByte_facts (h b hb)).2.1
  unfold trim
  rw [dropWhile_none h', dropWhile_none (by intro b hb; exact h' b (by simpa using hb)), List.reverse_reverse]

/-- A cookie with a proper name and a token as value is recognised, whatever attributes or other cookies follow. -/
theorem token_cookie {name token rest : Bytes} (hn : CookieName name) (ht : ∀ b ∈ token, jwtByte b = true) (hr : rest = [] ∨ rest.head? = some 59) :
    FirstCookie (name ++ ascii "=" ++ token ++ rest) name token := by
  obtain ⟨h1, h2, h3, h4, h5⟩ := hn
  exact ⟨name, token, rest, rfl, hr, h3, h4, fun h => (jwtByte_facts (ht 59 h)).1 rfl, h5, trim_token ht, h1⟩

theorem readable_append {a b : Bytes} (ha : Readable a) (hb : Readable b) : Readable (a ++ b) := by
  unfold Readable toStr at *
  split at ha
  · split at hb
    · rename_i h1 h2
      rw [if_pos]
      rw [List.all_append, h1, h2]; rfl
    · cases hb
  · cases ha

theorem readable_token {t : Bytes} (ht : ∀ b ∈ t, jwtByte b = true) : Readable t := by
  unfold Readable toStr
  rw [if_pos]
  rw [List.all_eq_true]
  exact fun b hb => (jwtByte_facts (ht b hb)).2.2.1

/-- A request with a `Cookie` header that starts with such a cookie carries it in first place. -/
theorem sends_token {headers : HeaderMap} {name token rest : Bytes} {more : List Bytes} (hn : CookieName name) (ht : ∀ b ∈ token, jwtByte b = true)
    (hr : rest = [] ∨ rest.head? = some 59) (hrr : Readable rest) (hh : headers.getAll (ascii "cookie") = (name ++ ascii "=" ++ token ++ rest) :: more) :
    SendsFirst headers name token :=
  ⟨[], _, more, hh, readable_append (readable_append (readable_append hn.2.1 (by unfold Readable; decide)) (readable_token ht)) hrr, token_cookie hn ht hr, by simp⟩

/-! ## What `set_auth_token` and `forget` do -/

section
variable {σ : Type}

theorem setCookie_ret {id : Identity} {token : Bytes} {age : Nat} {resp resp' : Response σ} (h : id.setCookie token age resp = .ret resp') :
    resp' = resp.appendHeader H.setCookie (id.cookieWith token age) := by
  unfold Identity.setCookie at h
  split at h
  · rename_i v hv
    unfold headerValueFromBytes at hv
    split at hv
    · injection hv with hv; subst hv
      injection h with h; exact h.symm
    · cases hv
  · cases h

/-- The first cookie of the text is the token under the configured name. -/
theorem cookieWith_first {id : Identity} {token : Bytes} {age : Nat} (hn : CookieName id.cookieName) (ht : ∀ b ∈ token, jwtByte b = true) :
    FirstCookie (id.cookieWith token age) id.cookieName token := by
  have : id.cookieWith token age = id.cookieName ++ ascii "=" ++ token ++ ((if id.cookieHttpOnly then ascii "; HttpOnly" else []) ++
      ((if id.cookieSecure then ascii "; Secure" else []) ++ (ascii "; Path=" ++ (id.cookiePath ++ (ascii "; Max-Age=" ++ decimal age))))) := by
    unfold Identity.cookieWith
    simp only [List.append_assoc]
  rw [this]
  refine token_cookie hn ht (.inr ?_)
  cases id.cookieHttpOnly <;> cases id.cookieSecure <;> rfl

theorem appendHeader_effect {resp : Response σ} (hw : resp.headers.WF) (v : Bytes) : let resp' := resp.appendHeader H.setCookie v
    resp'.headers.getAll (ascii "set-cookie") = resp.headers.getAll (ascii "set-cookie") ++ [v] ∧
    (∀ k, k ≠ ascii "set-cookie" → resp'.headers.getAll k = resp.headers.getAll k) ∧ resp'.status = resp.status ∧ resp'.body = resp.body ∧ resp'.version = resp.version := by
  refine ⟨?_, ?_, rfl, rfl, rfl⟩
  · show (resp.headers.append (ascii "set-cookie") v).getAll (ascii "set-cookie") = _
    rw [getAll_append hw.nodup]; simp
  · intro k hk
    show (resp.headers.append (ascii "set-cookie") v).getAll k = _
    rw [getAll_append hw.nodup, if_neg hk]

/-- **C46.**  `set_auth_token` adds one `Set-Cookie` header, changing nothing else of the response.  A request that carries its cookie in first
place is authorized as that user up to and including the time of issue plus the expiration time, and not afterwards.
What is missing from C46: requests that carry the cookie elsewhere (see `C49_refuted`). -/
theorem C46_authorized_partial {lib : JwtLib} {id : Identity} {issued : Nat} {user : Bytes} {resp resp' : Response σ} (hw : resp.headers.WF)
    (h : id.setAuthToken lib issued user resp = .ret resp') :
    ∃ text token, resp'.headers.getAll (ascii "set-cookie") = resp.headers.getAll (ascii "set-cookie") ++ [text] ∧
      (∀ k, k ≠ ascii "set-cookie" → resp'.headers.getAll k = resp.headers.getAll k) ∧ resp'.status = resp.status ∧ resp'.body = resp.body ∧
      (CookieName id.cookieName → FirstCookie text id.cookieName token) ∧
      ∀ headers now, SendsFirst headers id.cookieName token →
        id.authorizedUser lib now headers = if now ≤ issued + id.expirationTime then some user else none := by
  unfold Identity.setAuthToken Identity.makeToken at h
  by_cases hlim : id.expirationTime + issued < 2 ^ 64
  · simp only [if_pos hlim, Run.ret_bind, Option.getD_some] at h
    split at h
    · have hr := setCookie_ret h
      obtain ⟨e1, e2, e3, e4, -⟩ := appendHeader_effect hw (id.cookieWith (lib.encode id.serverKey ⟨id.expirationTime + issued, id.issuer.getD [], user⟩) id.expirationTime)
      refine ⟨_, _, by rw [hr]; exact e1, by rw [hr]; exact e2, by rw [hr]; exact e3, by rw [hr]; exact e4, fun hn => cookieWith_first hn (lib.encode_bytes _ _), ?_⟩
      intro headers now hs
      unfold Identity.authorizedUser
      rw [sendsFirst_iff.2 hs]
      dsimp only
      unfold JwtLib.decode
      rw [lib.verify_encode]
      dsimp only
      by_cases ht : now ≤ issued + id.expirationTime
      · rw [if_neg (by omega), if_pos ht]
      · rw [if_pos (by omega), if_neg ht]
    · cases h
  · simp only [if_neg hlim, Run.panic_bind] at h
    cases h

/-- **C46.**  `set_auth_token` returns unless the expiration time is absurd or the cookie's name or path contains control characters. -/
theorem C46_returns {lib : JwtLib} {id : Identity} {issued : Nat} {user : Bytes} {resp : Response σ} (he : id.expirationTime < 2 ^ 63) (hi : issued < 2 ^ 63)
    (hn : id.cookieName.all headerValueByte = true) (hp : id.cookiePath.all headerValueByte = true) : ∃ resp', id.setAuthToken lib issued user resp = .ret resp' := by
  have hlim : id.expirationTime + issued < 2 ^ 64 := by omega
  unfold Identity.setAuthToken Identity.makeToken
  simp only [if_pos hlim, Run.ret_bind, if_pos he]
  unfold Identity.setCookie
  have htok : (lib.encode id.serverKey ⟨id.expirationTime + issued, id.issuer.getD [], user⟩).all headerValueByte = true := by
    rw [List.all_eq_true]
    exact fun b hb => (jwtByte_facts (lib.encode_bytes _ _ b hb)).2.2.2
  have hd : ∀ n, (decimal n).all headerValueByte = true := by
    intro n
    induction n using Nat.strongRecOn with
    | ind n ih =>
      have dig : ∀ d, d < 10 → headerValueByte (UInt8.ofNat (48 + d)) = true := by decide
      rw [decimal_eq]
      split
      · rename_i hlt
        rw [List.all_cons, dig n hlt]; rfl
      · rename_i hge
        rw [List.all_append, ih (n / 10) (by omega)]
        rw [List.all_cons, dig (n % 10) (by omega)]; rfl
  have htext : (cookieText id.cookieName (lib.encode id.serverKey ⟨id.expirationTime + issued, id.issuer.getD [], user⟩) id.cookiePath id.expirationTime id.cookieHttpOnly id.cookieSecure).all headerValueByte = true := by
    unfold cookieText
    have c1 : (ascii "=").all headerValueByte = true := by decide
    have c2 : (ascii "; HttpOnly").all headerValueByte = true := by decide
    have c3 : (ascii "; Secure").all headerValueByte = true := by decide
    have c4 : (ascii "; Path=").all headerValueByte = true := by decide
    have c5 : (ascii "; Max-Age=").all headerValueByte = true := by decide
    cases id.cookieHttpOnly <;> cases id.cookieSecure <;> simp only [List.all_append, hn, hp, htok, hd, c1, c2, c3, c4, c5, if_true, Bool.false_eq_true, if_false, List.all_nil, Bool.and_self]
  unfold headerValueFromBytes
  rw [Option.getD_some, if_pos htext]
  exact ⟨_, rfl⟩

end

/-- **C47.**  A user is authorized if and only if the cookie of the configured name that the request carries in first place is a token that verifies under the
server key, names that user and has not expired. -/
theorem C47_valid {lib : JwtLib} {id : Identity} {now : Nat} {headers : HeaderMap} {u : Bytes} :
    id.authorizedUser lib now headers = some u ↔
      ∃ token c, SendsFirst headers id.cookieName token ∧ lib.verify id.serverKey token = some c ∧ c.sub = u ∧ now ≤ c.exp := by
  unfold Identity.authorizedUser
  constructor
  · intro h
    cases hg : getCookie id.cookieName (headers.getAll H.cookie) with
    | none => rw [hg] at h; cases h
    | some token =>
      rw [hg] at h
      dsimp only at h
      unfold JwtLib.decode at h
      cases hv : lib.verify id.serverKey token with
      | none => rw [hv] at h; cases h
      | some c =>
        rw [hv] at h
        dsimp only at h
        by_cases he : c.exp < now
        · rw [if_pos he] at h; cases h
        · rw [if_neg he] at h
          injection h with h
          exact ⟨token, c, sendsFirst_iff.1 hg, hv, h, by omega⟩
  · rintro ⟨token, c, hs, hv, rfl, he⟩
    rw [sendsFirst_iff.2 hs]
    dsimp only
    unfold JwtLib.decode
    rw [hv]
    dsimp only
    rw [if_neg (by omega)]

/-- **C48.**  `forget` adds one `Set-Cookie` header, changing nothing else of the response: the cookie has the same name, path and flags as the one of
`set_auth_token`, maximal age 0, and authorizes nobody at any time. -/
theorem C48_forget {σ : Type} {lib : JwtLib} {id : Identity} {time : Nat} {resp resp' : Response σ} (hw : resp.headers.WF)
    (h : id.forget lib time resp = .ret resp') :
    ∃ token, resp'.headers.getAll (ascii "set-cookie") = resp.headers.getAll (ascii "set-cookie") ++ [id.cookieWith token 0] ∧
      (∀ k, k ≠ ascii "set-cookie" → resp'.headers.getAll k = resp.headers.getAll k) ∧ resp'.status = resp.status ∧ resp'.body = resp.body ∧
      (CookieName id.cookieName → FirstCookie (id.cookieWith token 0) id.cookieName token) ∧
      ∀ headers now, 0 < now → SendsFirst headers id.cookieName token → id.authorizedUser lib now headers = none := by
  unfold Identity.forget Identity.makeToken at h
  simp only [Run.ret_bind] at h
  have hr := setCookie_ret h
  obtain ⟨e1, e2, e3, e4, -⟩ := appendHeader_effect hw (id.cookieWith (lib.encode id.serverKey ⟨0, id.issuer.getD [], (none : Option Bytes).getD []⟩) 0)
  refine ⟨_, by rw [hr]; exact e1, by rw [hr]; exact e2, by rw [hr]; exact e3, by rw [hr]; exact e4, fun hn => cookieWith_first hn (lib.encode_bytes _ _), ?_⟩
  intro headers now hnow hs
  unfold Identity.authorizedUser
  rw [sendsFirst_iff.2 hs]
  dsimp only
  unfold JwtLib.decode
  rw [lib.verify_encode]
  dsimp only
  rw [if_pos hnow]

/-- **C48.**  The cookie of `set_auth_token`: the same but for the token and the maximal age. -/
theorem C48_same_cookie {σ : Type} {lib : JwtLib} {id : Identity} {issued : Nat} {user : Bytes} {resp resp' : Response σ} (hw : resp.headers.WF)
    (h : id.setAuthToken lib issued user resp = .ret resp') :
    ∃ token, resp'.headers.getAll (ascii "set-cookie") = resp.headers.getAll (ascii "set-cookie") ++ [id.cookieWith token id.expirationTime] := by
  unfold Identity.setAuthToken at h
  obtain ⟨token, h1, h2⟩ := Run.bind_eq_ret.1 h
  split at h2
  · exact ⟨token, by rw [setCookie_ret h2]; exact (appendHeader_effect hw _).1⟩
  · cases h2

theorem firstCookie_unique {t n n' v v' : Bytes} (h : FirstCookie t n v) (h' : FirstCookie t n' v') : n = n' ∧ v = v' := by
  have h1 := parseCookie_iff.2 h
  rw [parseCookie_iff.2 h'] at h1
  simp only [Option.some.injEq, Prod.mk.injEq] at h1
  exact ⟨h1.1.symm, h1.2.symm⟩

/-- **C47.**  If the tokens presented to the server are not forged (those that verify were made by `set_auth_token` or `forget`, called some
number of times), then a user is authorized only if `set_auth_token` was called for that user, not longer ago than the expiration time. -/
theorem C47_only_issued {lib : JwtLib} {id : Identity} (hn : CookieName id.cookieName) {calls : List AuthCall} {now : Nat} (hnow : 0 < now) {headers : HeaderMap}
    (hauth : ∀ token c, SendsFirst headers id.cookieName token → lib.verify id.serverKey token = some c → ∃ call ∈ calls, call.Makes lib id token) {u : Bytes}
    (h : id.authorizedUser lib now headers = some u) : ∃ time, .set time u ∈ calls ∧ now ≤ time + id.expirationTime := by
  obtain ⟨token, c, hs, hv, -, he⟩ := C47_valid.1 h
  obtain ⟨call, hc, resp, resp', text, hw, hr, ht, hf⟩ := hauth token c hs hv
  cases call with
  | set time user =>
    obtain ⟨text', token', e1, -, -, -, e2, e3⟩ := C46_authorized_partial hw hr
    rw [e1] at ht
    have ht' : text' = text := by simpa using ht
    subst ht'
    obtain ⟨-, rfl⟩ := firstCookie_unique hf (e2 hn)
    have e := e3 headers now hs
    rw [h] at e
    split at e
    · rename_i hle
      injection e with e
      exact ⟨time, e ▸ hc, hle⟩
    · cases e
  | forget time =>
    obtain ⟨token', e1, -, -, -, e2, e3⟩ := C48_forget hw hr
    rw [e1] at ht
    have ht' : id.cookieWith token' 0 = text := by simpa using ht
    subst ht'
    obtain ⟨-, rfl⟩ := firstCookie_unique hf (e2 hn)
    have e := e3 headers now hnow hs
    rw [h] at e
    cases e

/-- C49 is false of the code: a cookie that is not the first of its header is not looked at, whatever it contains. -/
theorem C49_refuted (lib : JwtLib) (id : Identity) (hn : id.cookieName ≠ ascii "a") (now : Nat) (token : Bytes) {headers : HeaderMap}
    (hh : headers.getAll (ascii "cookie") = [ascii "a=1; " ++ id.cookieName ++ ascii "=" ++ token]) : id.authorizedUser lib now headers = none := by
  cases h : id.authorizedUser lib now headers with
  | none => rfl
  | some u =>
    obtain ⟨t, c, ⟨before, text, after, h1, -, h3, -⟩, -⟩ := C47_valid.1 h
    rw [hh] at h1
    have ht : text = ascii "a=1; " ++ id.cookieName ++ ascii "=" ++ token := by
      cases before with
      | nil => injection h1 with h1 _; exact h1.symm
      | cons x b => injection h1 with _ h1; cases b <;> cases h1
    have hp := parseCookie_iff.2 h3
    have hp' : parseCookie text = some (ascii "a", ascii "1") := by
      rw [ht]
      have e : ascii "a=1; " ++ id.cookieName ++ ascii "=" ++ token = ascii "a" ++ ascii "=" ++ ascii "1" ++ (ascii "; " ++ (id.cookieName ++ (ascii "=" ++ token))) := by
        have : ascii "a=1; " = ascii "a" ++ ascii "=" ++ ascii "1" ++ ascii "; " := by decide
        rw [this]; simp only [List.append_assoc]
      exact parseCookie_iff.2 ⟨ascii "a", ascii "1", _, e, .inr rfl, by decide, by decide, by decide, by decide, by decide, by decide⟩
    rw [hp'] at hp
    simp only [Option.some.injEq, Prod.mk.injEq] at hp
    exact (hn hp.1.symm).elim

/-- C49 is false of the code: a `Cookie` header without `=`, or that is not readable, hides all later ones. -/
theorem C49_refuted_malformed (lib : JwtLib) (id : Identity) (now : Nat) (bad token : Bytes) (hbad : 61 ∉ bad ∨ ¬ Readable bad) {headers : HeaderMap}
    (hh : headers.getAll (ascii "cookie") = [bad, id.cookieName ++ ascii "=" ++ token]) : id.authorizedUser lib now headers = none := by
  cases h : id.authorizedUser lib now headers with
  | none => rfl
  | some u =>
    obtain ⟨t, c, ⟨before, text, after, h1, h2, h3, h4⟩, -⟩ := C47_valid.1 h
    rw [hh] at h1
    have key : Readable bad ∧ ∃ n v, FirstCookie bad n v := by
      cases before with
      | nil => injection h1 with h1 _; rw [h1]; exact ⟨h2, _, _, h3⟩
      | cons x b =>
        injection h1 with h1 _
        obtain ⟨g1, n, v, g2, -⟩ := h4 x (by simp)
        rw [h1]; exact ⟨g1, n, v, g2⟩
    obtain ⟨k1, n, v, n', v', rest, rfl, -⟩ := key
    rcases hbad with hb | hb
    · exact (hb (by simp [ascii])).elim
    · exact (hb k1).elim

/-- **C49**, as far as it holds: a cookie in first place (of the first `Cookie` header, or of a later one if all before it are well formed) is considered, and
it alone. -/
theorem C49_first_partial {lib : JwtLib} {id : Identity} {now : Nat} {headers : HeaderMap} {value : Bytes} (h : SendsFirst headers id.cookieName value) :
    id.authorizedUser lib now headers = (lib.decode id.serverKey now value).map (·.sub) := by
  unfold Identity.authorizedUser
  rw [sendsFirst_iff.2 h]
  dsimp only
  cases lib.decode id.serverKey now value <;> rfl

/-! ## The builder -/

theorem lastGiven_cons {α : Type} (f : IdentityOp → Option α) (op : IdentityOp) (ops : List IdentityOp) : lastGiven f (op :: ops) = (lastGiven f ops).or (f op) := by
  unfold lastGiven
  rw [List.filterMap_cons]
  cases f op with
  | none => cases (List.filterMap f ops).getLast? <;> rfl
  | some a =>
    dsimp only
    rw [List.getLast?_cons]
    cases (List.filterMap f ops).getLast? <;> rfl

/-- **C62.**  Every setting is the one last given to the builder, or else its default: cookie `jwt`, path `/`, secure, HTTP only, one day,
no issuer. -/
theorem C62_settings (key : Bytes) (ops : List IdentityOp) : buildIdentity key ops =
    { serverKey := key
      issuer := lastGiven (fun | .issuer i => some i | _ => none) ops
      expirationTime := (lastGiven (fun | .expirationTime t => some t | _ => none) ops).getD 86400
      cookieName := (lastGiven (fun | .cookieName n => some n | _ => none) ops).getD (ascii "jwt")
      cookiePath := (lastGiven (fun | .cookiePath p => some p | _ => none) ops).getD (ascii "/")
      cookieSecure := (lastGiven (fun | .cookieSecure s => some s | _ => none) ops).getD true
      cookieHttpOnly := (lastGiven (fun | .cookieHttpOnly s => some s | _ => none) ops).getD true } := by
  have key : ∀ (ops : List IdentityOp) (b : IdentityBuilder), ops.foldl IdentityBuilder.apply b =
      { serverKey := b.serverKey
        issuer := (lastGiven (fun | .issuer i => some i | _ => none) ops).or b.issuer
        expirationTime := (lastGiven (fun | .expirationTime t => some t | _ => none) ops).getD b.expirationTime
        cookieName := (lastGiven (fun | .cookieName n => some n | _ => none) ops).or b.cookieName
        cookiePath := (lastGiven (fun | .cookiePath p => some p | _ => none) ops).or b.cookiePath
        cookieSecure := (lastGiven (fun | .cookieSecure s => some s | _ => none) ops).getD b.cookieSecure
        cookieHttpOnly := (lastGiven (fun | .cookieHttpOnly s => some s | _ => none) ops).getD b.cookieHttpOnly } := by
    intro ops
    induction ops with
    | nil => intro b; rfl
    | cons op ops ih =>
      intro b
      have gd : ∀ {α : Type} (x : Option α) (y z : α), (x.or (some y)).getD z = x.getD y := by intro α x y z; cases x <;> rfl
      rw [List.foldl_cons, ih]
      cases op <;> simp only [IdentityBuilder.apply, lastGiven_cons, Option.or_none, Option.or_assoc, Option.some_or, gd]
  unfold buildIdentity
  rw [key]
  simp [IdentityBuilder.finish, IdentityBuilder.new]

/-! ## The laws of `JwtLib` can be met -/

/-- A digit. -/
def toyDigit (n : Nat) : UInt8 := UInt8.ofNat (65 + n)
/-- Two digits per byte. -/
def toyHex : Bytes → Bytes
  | [] => []
  | b :: l => toyDigit (b.toNat / 16) :: toyDigit (b.toNat % 16) :: toyHex l
/-- The inverse. -/
def toyUnhex : Bytes → Bytes
  | a :: b :: l => UInt8.ofNat ((a.toNat - 65) * 16 + (b.toNat - 65)) :: toyUnhex l
  | _ => []

theorem toyDigit_toNat {n : Nat} (h : n < 16) : (toyDigit n).toNat = 65 + n := by
  unfold toyDigit
  rw [UInt8.toNat_ofNat']
  omega

theorem toyUnhex_hex (l : Bytes) : toyUnhex (toyHex l) = l := by
  induction l with
  | nil => rfl
  | cons b l ih =>
    have hb := b.toNat_lt
    rw [toyHex, toyUnhex, ih, toyDigit_toNat (by omega), toyDigit_toNat (by omega)]
    congr 1
    have : (65 + b.toNat / 16 - 65) * 16 + (65 + b.toNat % 16 - 65) = b.toNat := by omega
    rw [this]
    exact UInt8.ofNat_toNat

theorem toyHex_bytes (l : Bytes) : ∀ b ∈ toyHex l, jwtByte b = true ∧ b ≠ 46 := by
  induction l with
  | nil => intro b hb; cases hb
  | cons x l ih =>
    have dig : ∀ n, n < 16 → jwtByte (toyDigit n) = true ∧ toyDigit n ≠ 46 := by decide
    have hx := x.toNat_lt
    intro b hb
    rw [toyHex] at hb
    rcases List.mem_cons.1 hb with rfl | hb
    · exact dig _ (by omega)
    · rcases List.mem_cons.1 hb with rfl | hb
      · exact dig _ (by omega)
      · exact ih b hb

/-- A library that meets the laws (without any security): the parts of the token are the expiration time in unary, issuer, subject and key. -/
def toyJwt : JwtLib where
  encode key c := List.replicate c.exp 120 ++ 46 :: (toyHex c.iss ++ 46 :: (toyHex c.sub ++ 46 :: toyHex key))
  verify key t :=
    let e := t.takeWhile (· ≠ 46)
    let t := (t.dropWhile (· ≠ 46)).tail
    let i := t.takeWhile (· ≠ 46)
    let t := (t.dropWhile (· ≠ 46)).tail
    let s := t.takeWhile (· ≠ 46)
    let k := (t.dropWhile (· ≠ 46)).tail
    if k = toyHex key then some ⟨e.length, toyUnhex i, toyUnhex s⟩ else none
  verify_encode := by
    intro key c
    have h0 : (46 : UInt8) ∉ List.replicate c.exp 120 := by intro h; have := List.eq_of_mem_replicate h; cases this
    have h1 : ∀ l, (46 : UInt8) ∉ toyHex l := fun l h => (toyHex_bytes l 46 h).2 rfl
    obtain ⟨a1, a2⟩ := split_at_sep (rest := 46 :: (toyHex c.iss ++ 46 :: (toyHex c.sub ++ 46 :: toyHex key))) h0 (.inr rfl)
    obtain ⟨b1, b2⟩ := split_at_sep (rest := 46 :: (toyHex c.sub ++ 46 :: toyHex key)) (h1 c.iss) (.inr rfl)
    obtain ⟨c1, c2⟩ := split_at_sep (rest := 46 :: toyHex key) (h1 c.sub) (.inr rfl)
    dsimp only
    rw [a1, a2, List.tail_cons, b1, b2, List.tail_cons, c1, c2, List.tail_cons, if_pos rfl, toyUnhex_hex, toyUnhex_hex, List.length_replicate]
  encode_bytes := by
    intro key c b hb
    rcases List.mem_append.1 hb with hb | hb
    · rw [List.eq_of_mem_replicate hb]; decide
    · rcases List.mem_cons.1 hb with rfl | hb
      · decide
      · rcases List.mem_append.1 hb with hb | hb
        · exact (toyHex_bytes _ b hb).1
        · rcases List.mem_cons.1 hb with rfl | hb
          · decide
          · rcases List.mem_append.1 hb with hb | hb
            · exact (toyHex_bytes _ b hb).1
            · rcases List.mem_cons.1 hb with rfl | hb
              · decide
              · exact (toyHex_bytes _ b hb).1

/-! ## A concrete identity -/

/-- As in examples/identity.rs, with a short expiration time. -/
def demoIdentity : Identity := buildIdentity (ascii "k") [.issuer (ascii "x"), .expirationTime 10, .cookieSecure true, .cookieSecure false]

example : CookieName demoIdentity.cookieName := by unfold CookieName; decide

/-- A session: the `Set-Cookie` headers after `set_auth_token` at time 5 and `forget` at time 7. -/
def demoSession : Run (List Bytes) := do
  let r ← demoIdentity.setAuthToken toyJwt 5 (ascii "u") (freshResponse : Response Script)
  let r ← demoIdentity.forget toyJwt 7 r
  .ret (r.headers.getAll (ascii "set-cookie"))

example : demoSession = .ret [ascii "jwt=xxxxxxxxxxxxxxx.HI.HF.GL; HttpOnly; Path=/; Max-Age=10", ascii "jwt=.HI..GL; HttpOnly; Path=/; Max-Age=0"] := by decide +kernel

/-- A request with that cookie, and others after it. -/
def demoCookies : HeaderMap := [(ascii "cookie", [ascii "lang=en", ascii "jwt=xxxxxxxxxxxxxxx.HI.HF.GL; a=1"])]

example : SendsFirst demoCookies (ascii "jwt") (ascii "xxxxxxxxxxxxxxx.HI.HF.GL") := sendsFirst_iff.1 (by decide)
example : demoIdentity.authorizedUser toyJwt 15 demoCookies = some (ascii "u") := by decide
example : demoIdentity.authorizedUser toyJwt 16 demoCookies = none := by decide

/-- The hypothesis of `C47_only_issued`. -/
example : ∀ token c, SendsFirst demoCookies demoIdentity.cookieName token → toyJwt.verify demoIdentity.serverKey token = some c →
    ∃ call ∈ [AuthCall.set 5 (ascii "u"), .forget 7], call.Makes toyJwt demoIdentity token := by
  intro token c hs _
  have h1 := sendsFirst_iff.2 hs
  have h2 : getCookie demoIdentity.cookieName (demoCookies.getAll H.cookie) = some (ascii "xxxxxxxxxxxxxxx.HI.HF.GL") := by decide
  rw [h2] at h1
  injection h1 with h1
  subst h1
  exact ⟨_, List.mem_cons_self, freshResponse, _, _, wf_nil, rfl, rfl, parseCookie_iff.1 (by decide +kernel)⟩

/-- The hypotheses of the refutations. -/
example : demoIdentity.cookieName ≠ ascii "a" ∧ (61 ∉ ascii "lang") := by decide

end Tophat
