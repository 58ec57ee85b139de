import Verif.Proofs.Router
import Verif.Props.ResponseWriter
/-!
# Properties of the router (C39, C40)

All are relative to the laws of `PathTree`, which state the documented behaviour of the `path-tree` crate;
`lastMatch` shows that they can be met.
-/

namespace Tophat
open Spec HeaderMap LawfulRead

section
variable {ε σ : Type}

/-- **C39**: what a pattern says.  Its pieces - literal bytes, `:name`, `*name` - are determined by how it is written, and every text is a pattern. -/
theorem C39_patterns (p : Bytes) : Pieces (segments none p) ∧ (segments none p).flatMap Seg.text = p ∧
    ∀ ps, Pieces ps → ps.flatMap Seg.text = p → ps = segments none p := by
  have fwd : ∀ (r : Bytes), (Pieces (segments none r) ∧ (segments none r).flatMap Seg.text = r) ∧
      ∀ n, 47 ∉ n → 42 ∉ n → Pieces (segments (some n) r) ∧ (segments (some n) r).flatMap Seg.text = 58 :: n ++ r := by
    intro r
    induction r with
    | nil => exact ⟨⟨.nil, rfl⟩, fun n h1 h2 => ⟨.param h1 h2 (.inl rfl) .nil, by simp [segments, Seg.text]⟩⟩
    | cons b r ih =>
      refine ⟨?_, fun n h1 h2 => ?_⟩
      · simp only [segments]
        by_cases e1 : b = 58
        · rw [if_pos e1, e1]
          have := ih.2 [] (by simp) (by simp)
          simpa using this
        · rw [if_neg e1]
          by_cases e2 : b = 42
          · rw [if_pos e2, e2]; exact ⟨.all, by simp [Seg.text]⟩
          · rw [if_neg e2]; exact ⟨.lit e1 e2 ih.1.1, by simp [Seg.text, ih.1.2]⟩
      · simp only [segments]
        by_cases e1 : b = 42
        · rw [if_pos e1, e1]; exact ⟨.param h1 h2 (.inr (.inl ⟨_, rfl⟩)) .all, by simp [Seg.text]⟩
        · rw [if_neg e1]
          by_cases e2 : b = 47
          · rw [if_pos e2, e2]; exact ⟨.param h1 h2 (.inr (.inr rfl)) (.lit (by decide) (by decide) ih.1.1), by simp [Seg.text, ih.1.2]⟩
          · rw [if_neg e2]
            have := ih.2 (n ++ [b]) (by simp [h1, Ne.symm e2]) (by simp [h2, Ne.symm e1])
            simpa using this
  refine ⟨(fwd p).1.1, (fwd p).1.2, ?_⟩
  have name : ∀ (n acc rest : Bytes), 47 ∉ n → 42 ∉ n → segments (some acc) (n ++ rest) = segments (some (acc ++ n)) rest := by
    intro n
    induction n with
    | nil => intro acc rest _ _; simp
    | cons b n ih =>
      intro acc rest h1 h2
      simp only [List.mem_cons, not_or] at h1 h2
      simp only [List.cons_append, segments, if_neg (Ne.symm h2.1), if_neg (Ne.symm h1.1), ih _ _ h1.2 h2.2, List.append_assoc, List.singleton_append]
      rfl
  have back : ∀ ps, Pieces ps → segments none (ps.flatMap Seg.text) = ps := by
    intro ps h
    induction h with
    | nil => rfl
    | lit h1 h2 _ ih => simp [Seg.text, segments, h1, h2, ih]
    | @param n ps h1 h2 h3 _ ih =>
      have e : (Seg.param n :: ps).flatMap Seg.text = 58 :: (n ++ ps.flatMap Seg.text) := by simp [Seg.text]
      rw [e, segments, if_pos rfl, name n [] _ h1 h2, List.nil_append]
      rcases h3 with rfl | ⟨m, rfl⟩ | h3
      · rfl
      · simp [Seg.text, segments]
      · cases ps with
        | nil => cases h3
        | cons q ps =>
          simp only [List.head?_cons, Option.some.injEq] at h3
          subst h3
          simp only [List.flatMap_cons, Seg.text, List.singleton_append, segments] at ih ⊢
          simp at ih ⊢
          exact ih
    | all => simp [Seg.text, segments]
  intro ps h1 h2
  rw [← h2, back ps h1]

/-- An example: `/u/:id/f*rest`. -/
example : segments none (ascii "/:id/f*r") = [.lit 47, .param (ascii "id"), .lit 47, .lit 102, .all (ascii "r")] := by decide

/-- A builder history whose methods have no asterisk and whose patterns start with a slash. -/
def Plain (ops : List (BuildOp ε)) : Prop := ∀ x ∈ routes ops, PlainMethod x.1 ∧ x.2.1.head? = some 47

theorem build_routes (ops : List (BuildOp ε)) : (buildRouter ops).tree = (routes ops).map fun x => (routeText x.1 x.2.1, x.2.2) := by
  have := build_tree ops .new
  simpa [buildRouter, RouterBuilder.finish, RouterBuilder.new] using this

/-- **C39.**  An endpoint that is called was registered for the method of the request and a pattern that matches its path,
after which that pattern was not registered again for that method.  (And the parameters are those captured.) -/
theorem C39_called_partial {lib : PathTree} {ops : List (BuildOp ε)} (hops : Plain ops) {method path : Bytes} (hm : 47 ∉ method) (hp : PathText path)
    {ext ext' : Extensions} {resp : Response σ} {e : ε} (h : (buildRouter ops).route lib method path ext resp = .call e ext') :
    ∃ before p after, routes ops = before ++ (method, p, e) :: after ∧ (∃ caps, ext'.params = some caps ∧ PatternMatches p path caps) ∧
      ∀ x ∈ after, x.1 = method → ¬ SamePattern x.2.1 p := by
  unfold Router.route at h
  cases hf : lib.find (buildRouter ops).tree ([47] ++ method ++ path) with
  | none => rw [hf] at h; cases h
  | some r =>
    obtain ⟨e0, caps⟩ := r
    rw [hf] at h
    injection h with h1 h2
    subst h1
    obtain ⟨pre, pat, post, hr, hmt, hpost⟩ := lib.sound hf
    rw [build_routes] at hr
    obtain ⟨l1, l2, hl, hl1, hl2⟩ := List.map_eq_append_iff.1 hr
    obtain ⟨x, l3, hx, hx1, hx2⟩ := List.map_eq_cons_iff.1 hl2
    obtain ⟨m, p, e1⟩ := x
    simp only [Prod.mk.injEq] at hx1
    obtain ⟨rfl, rfl⟩ := hx1
    have hin : (m, p, e1) ∈ routes ops := by rw [hl, hx]; simp
    obtain ⟨hpm, hps⟩ := hops _ hin
    obtain ⟨rfl, hmt'⟩ := (matches_route hpm hm hps hp).1 hmt
    refine ⟨l1, p, l3, by rw [hl, hx], ⟨caps, ?_, hmt'⟩, ?_⟩
    · rw [← h2]
    · intro y hy hym hsame
      have hyin : y ∈ routes ops := by rw [hl, hx]; simp [hy]
      refine hpost (routeText y.1 y.2.1, y.2.2) (by rw [← hx2]; exact List.mem_map.2 ⟨y, hy, rfl⟩) ?_
      show (segments none (routeText y.1 y.2.1)).map Seg.shape = _
      rw [hym, segments_route hpm, segments_route hpm, List.map_append, List.map_append, hsame]

/-- **C39.**  If a pattern registered for the method of the request matches its path (and no captured value is empty), an
endpoint is called. -/
theorem C39_found_partial {lib : PathTree} {ops : List (BuildOp ε)} (hops : Plain ops) {method path : Bytes} (hm : 47 ∉ method) (hp : PathText path)
    {ext : Extensions} {resp : Response σ} {p : Bytes} {e : ε} (hin : (method, p, e) ∈ routes ops) {caps : List (Bytes × Bytes)}
    (hmt : PatternMatchesNonEmpty p path caps) : ∃ e' ext', (buildRouter ops).route lib method path ext resp = .call e' ext' := by
  unfold Router.route
  cases hf : lib.find (buildRouter ops).tree ([47] ++ method ++ path) with
  | some r => exact ⟨_, _, rfl⟩
  | none =>
    obtain ⟨hpm, hps⟩ := hops _ hin
    exact (lib.complete hf (routeText method p, e) (by rw [build_routes]; exact List.mem_map.2 ⟨_, hin, rfl⟩) caps
      ((matches_route hpm hm hps hp).2 ⟨rfl, hmt⟩)).elim

/-- **C39.**  If no pattern registered for the method of the request matches its path (those of other methods may), the
response is sent with status 404 and is otherwise as it was. -/
theorem C39_not_found_partial {lib : PathTree} {ops : List (BuildOp ε)} (hops : Plain ops) {method path : Bytes} (hm : 47 ∉ method) (hp : PathText path)
    {ext : Extensions} {resp : Response σ} (hno : ∀ p e, (method, p, e) ∈ routes ops → ∀ caps, ¬ PatternMatches p path caps) :
    (buildRouter ops).route lib method path ext resp = .send { resp with status := 404 } := by
  cases h : (buildRouter ops).route lib method path ext resp with
  | call e ext' =>
    obtain ⟨b, p, a, hr, ⟨caps, _, hc⟩, _⟩ := C39_called_partial hops hm hp h
    exact (hno p e (by rw [hr]; simp) caps hc).elim
  | send r =>
    unfold Router.route at h
    split at h
    · cases h
    · injection h with h; rw [← h]; rfl

/-- **C39.**  Whatever was registered, an endpoint that is called is one of those registered. -/
theorem C39_registered {lib : PathTree} {ops : List (BuildOp ε)} {method path : Bytes}
    {ext ext' : Extensions} {resp : Response σ} {e : ε} (h : (buildRouter ops).route lib method path ext resp = .call e ext') :
    ∃ m p, (m, p, e) ∈ routes ops := by
  unfold Router.route at h
  cases hf : lib.find (buildRouter ops).tree ([47] ++ method ++ path) with
  | none => rw [hf] at h; cases h
  | some r =>
    obtain ⟨e0, caps⟩ := r
    rw [hf] at h
    injection h with h1 h2
    subst h1
    obtain ⟨pre, pat, post, hr, -, -⟩ := lib.sound hf
    rw [build_routes] at hr
    have : (pat, e0) ∈ (routes ops).map fun x => (routeText x.1 x.2.1, x.2.2) := by rw [hr]; simp
    obtain ⟨⟨m, p, e1⟩, hx, hy⟩ := List.mem_map.1 this
    simp only [Prod.mk.injEq] at hy
    obtain ⟨-, rfl⟩ := hy
    exact ⟨m, p, hx⟩

/-- Without the hypothesis on patterns, false: whatever implements `path-tree`, `at(GET, "X/a", _)` serves the requests
of method `GETX` for `/a`. -/
theorem C39_refuted_pattern (lib : PathTree) (e : ε) (ext : Extensions) (resp : Response σ) :
    ∃ ext', (buildRouter [.at (ascii "GET") (ascii "X/a") e]).route lib (ascii "GETX") (ascii "/a") ext resp = .call e ext' := by
  have hm : Matches true (segments none (ascii "/GETX/a")) (ascii "/GETX/a") [] :=
    .lit (.lit (.lit (.lit (.lit (.lit (.lit .nil))))))
  cases h : (buildRouter [.at (ascii "GET") (ascii "X/a") e]).route lib (ascii "GETX") (ascii "/a") ext resp with
  | call e' ext' =>
    obtain ⟨m, p, hin⟩ := C39_registered h
    simp only [routes, List.mem_singleton, Prod.mk.injEq] at hin
    exact ⟨ext', by rw [hin.2.2]⟩
  | send r =>
    unfold Router.route at h
    split at h
    · cases h
    · rename_i hf
      exact (lib.complete hf (ascii "/GETX/a", e) (List.mem_singleton.2 rfl) [] hm).elim

/-- Without the hypothesis on methods, false: an endpoint registered for the (extension) method `*` serves every request
of a non-empty method. -/
theorem C39_refuted_method (lib : PathTree) (e : ε) (p method path : Bytes) (hm : method ≠ []) (ext : Extensions) (resp : Response σ) :
    ∃ ext', (buildRouter [.at (ascii "*") p e]).route lib method path ext resp = .call e ext' := by
  have hmt : Matches true (segments none (ascii "/*" ++ p)) ([47] ++ method ++ path) [(p, method ++ path)] :=
    .lit (.all fun _ => by simp [hm])
  cases h : (buildRouter [.at (ascii "*") p e]).route lib method path ext resp with
  | call e' ext' =>
    obtain ⟨m, p, hin⟩ := C39_registered h
    simp only [routes, List.mem_singleton, Prod.mk.injEq] at hin
    exact ⟨ext', by rw [hin.2.2]⟩
  | send r =>
    unfold Router.route at h
    split at h
    · cases h
    · rename_i hf
      exact (lib.complete hf (ascii "/*" ++ p, e) (List.mem_singleton.2 rfl) _ hmt).elim

/-! ## Parameters and data -/

/-- **C40.**  Inside the endpoint, the parameters are those found by lookup in the tree (`C39_called_partial` says they are those captured), and
`get_param` gives the value of the first one of that name, or `None` if there is none. -/
theorem C40_params {lib : PathTree} {r : Router ε} {method path : Bytes} {ext ext' : Extensions} {resp : Response σ} {e : ε}
    (h : r.route lib method path ext resp = .call e ext') : ∃ caps, lib.find r.tree ([47] ++ method ++ path) = some (e, caps) ∧ ext'.params = some caps ∧
      (∀ k v, ext'.getParam k = some v ↔ ∃ before after, caps = before ++ (k, v) :: after ∧ ∀ x ∈ before, x.1 ≠ k) ∧
      ∀ k, ext'.getParam k = none ↔ ∀ x ∈ caps, x.1 ≠ k := by
  unfold Router.route at h
  cases hf : lib.find r.tree ([47] ++ method ++ path) with
  | none => rw [hf] at h; cases h
  | some z =>
    obtain ⟨e0, caps⟩ := z
    rw [hf] at h
    injection h with h1 h2
    subst h1
    have hpar : ext'.params = some caps := by rw [← h2]
    refine ⟨caps, rfl, hpar, ?_, ?_⟩
    · intro k v
      unfold Extensions.getParam
      rw [hpar]
      dsimp only
      clear hf h2 hpar
      induction caps with
      | nil => simp [Extensions.findParam]
      | cons x l ih =>
        obtain ⟨k', v'⟩ := x
        unfold Extensions.findParam
        by_cases hk : k = k'
        · subst hk
          rw [if_pos rfl]
          constructor
          · intro h; injection h with h; subst h; exact ⟨[], l, rfl, by simp⟩
          · rintro ⟨b, a, hb, hne⟩
            cases b with
            | nil => injection hb with hb _; injection hb with _ hb; rw [hb]
            | cons y b => injection hb with hb _; exact (hne y (by simp) (by rw [← hb])).elim
        · rw [if_neg hk, ih]
          constructor
          · rintro ⟨b, a, rfl, hne⟩
            exact ⟨(k', v') :: b, a, rfl, by intro x hx; exact (List.mem_cons.1 hx).elim (fun h => by rw [h]; exact Ne.symm hk) (hne x)⟩
          · rintro ⟨b, a, hb, hne⟩
            cases b with
            | nil => injection hb with hb _; injection hb with hb _; exact (hk hb.symm).elim
            | cons y b => injection hb with hb hb'; exact ⟨b, a, hb', fun x hx => hne x (by simp [hx])⟩
    · intro k
      unfold Extensions.getParam
      rw [hpar]
      dsimp only
      clear hf h2 hpar
      induction caps with
      | nil => simp [Extensions.findParam]
      | cons x l ih =>
        obtain ⟨k', v'⟩ := x
        unfold Extensions.findParam
        by_cases hk : k = k'
        · subst hk; simp
        · rw [if_neg hk, ih]; simp [Ne.symm hk]

theorem route_data {lib : PathTree} {r : Router ε} {method path : Bytes} {ext ext' : Extensions} {resp : Response σ} {e : ε}
    (h : r.route lib method path ext resp = .call e ext') : ext'.data = r.data.or ext.data := by
  unfold Router.route at h
  split at h
  · injection h with h1 h2
    rw [← h2]
    cases r.data <;> rfl
  · cases h

/-- **C40.**  `req.data::<T>()` gives the last data of type `T` given to the builder (by `data`, or, already wrapped in `Data`,
by `wrapped_data`). -/
theorem C40_data {lib : PathTree} {before after : List (BuildOp ε)} {op : BuildOp ε} {t : Ty} {v : Bytes} (hop : op.gives t = some v)
    (hafter : ∀ o ∈ after, o.gives t = none) {method path : Bytes} {ext ext' : Extensions} {resp : Response σ} {e : ε}
    (h : (buildRouter (before ++ op :: after)).route lib method path ext resp = .call e ext') : ext'.getData t = some v := by
  have hd := route_data h
  have key : ((buildRouter (before ++ op :: after)).data.getD []).get (.data t) = some v := by
    unfold buildRouter RouterBuilder.finish
    dsimp only
    rw [List.foldl_append, List.foldl_cons, build_data_kept after t hafter, build_data_step, hop]
    rfl
  unfold Extensions.getData
  rw [hd]
  cases hb : (buildRouter (before ++ op :: after)).data with
  | none => rw [hb] at key; cases key
  | some m => rw [hb] at key; exact key

/-- **C40.**  If none was given, `req.data::<T>()` gives `None`, for a request that has not come through another router. -/
theorem C40_no_data {lib : PathTree} {ops : List (BuildOp ε)} {t : Ty} (hops : ∀ o ∈ ops, o.gives t = none) {method path : Bytes}
    {ext ext' : Extensions} (hext : ext.data = none) {resp : Response σ} {e : ε}
    (h : (buildRouter ops).route lib method path ext resp = .call e ext') : ext'.getData t = none := by
  have hd := route_data h
  have key : ((buildRouter ops).data.getD []).get (.data t) = none := by
    unfold buildRouter RouterBuilder.finish
    dsimp only
    rw [build_data_kept ops t hops]
    rfl
  unfold Extensions.getData
  rw [hd, hext]
  cases hb : (buildRouter ops).data with
  | none => rfl
  | some m => rw [hb] at key; exact key

/-- **C40.**  A request that no router has handled (its extensions are as `decode` leaves them) has no parameters and no data. -/
theorem C40_unrouted {x : Extensions} (hp : x.params = none) (hd : x.data = none) (k : Bytes) (t : Ty) : x.getParam k = none ∧ x.getData t = none := by
  unfold Extensions.getParam Extensions.getData
  rw [hp, hd]
  exact ⟨rfl, rfl⟩

/-- **C40**, for routers called from endpoints of other routers: a router that was given any data hides all data of the outer one; one
that was given none leaves it visible. -/
theorem C40_nested {lib : PathTree} {ops : List (BuildOp ε)} {method path : Bytes}
    {ext ext' : Extensions} {resp : Response σ} {e : ε} (h : (buildRouter ops).route lib method path ext resp = .call e ext') (t : Ty) :
    ((∃ o ∈ ops, o.IsData) → (∀ o ∈ ops, o.gives t = none) → ext'.getData t = none) ∧
      ((∀ o ∈ ops, ¬ o.IsData) → ext'.getData t = ext.getData t) := by
  have hd := route_data h
  have hn : (buildRouter ops).data = none ↔ ∀ o ∈ ops, ¬ o.IsData := by
    have := build_some ops .new
    simpa [buildRouter, RouterBuilder.finish, RouterBuilder.new] using this
  constructor
  · rintro ⟨o, ho, hdat⟩ hg
    have key : ((buildRouter ops).data.getD []).get (.data t) = none := by
      unfold buildRouter RouterBuilder.finish
      dsimp only
      rw [build_data_kept ops t hg]
      rfl
    unfold Extensions.getData
    rw [hd]
    cases hb : (buildRouter ops).data with
    | none => exact (hn.1 hb o ho hdat).elim
    | some m => rw [hb] at key; exact key
  · intro hall
    unfold Extensions.getData
    rw [hd, hn.2 hall]
    rfl

end

/-! ## The router as the endpoint of a server -/

section
variable {σ : Type} [AsyncBufRead σ] [LawfulBufRead σ]

/-- **C39.**  A server whose endpoint is the router answers a request for which there is no route with an empty 404
response, whatever the transport does short of failing; if it fails, the error is reported as a Glitch. -/
theorem C39_wire_partial {lib : PathTree} {pathOf : Bytes → Bytes} (hpath : ∀ u, PathText (pathOf u)) {text : IoErr → Bytes}
    {ops : List (BuildOp (ReqHead → Option Nat → Extensions → Prog (BodyReader σ)))} (hops : Plain ops) {head : ReqHead} {len : Option Nat} (hm : 47 ∉ head.method)
    (hno : ∀ p e, (head.method, p, e) ∈ routes ops → ∀ caps, ¬ PatternMatches p (pathOf head.uri) caps) :
    ∃ resp onOk onErr, (buildRouter ops).endpoint lib pathOf text head len = .send resp onOk onErr ∧
      (∀ a, onOk a = .ok) ∧ (∀ x, onErr x = .glitch (.newWithErr (text x))) ∧
      ∀ {env : Env}, HexLenOk env.hexLen → ∀ {fuel n : Nat} {w w' : Writer} {res : CopyRes}, w.Reliable →
        sendFully env fuel n resp w = .ret (w', res) → w'.got = w.got ++ responseHead .http11 404 [] (some 0) (env.now n) := by
  refine ⟨Response.toInner { (freshResponse : Response σ) with status := 404 }, fun _ => .ok, fun x => .glitch (.newWithErr (text x)), ?_, fun _ => rfl, fun _ => rfl, ?_⟩
  · unfold Router.endpoint
    rw [C39_not_found_partial hops hm (hpath _) hno]
  · intro env hx fuel n w w' res hr h
    have := C38_wire (r := { (freshResponse : Response σ) with status := 404 }) (bs := []) hx HeaderMap.wf_nil rfl (by decide) hr h
    rw [this, List.append_nil]
    rfl

end

/-! ## The laws of `PathTree` can be met -/

/-- Matching as a function: a parameter takes everything up to the next slash. -/
def matchSegs : List Seg → Bytes → Option (List (Bytes × Bytes))
  | [], [] => some []
  | [], _ :: _ => none
  | .lit _ :: _, [] => none
  | .lit b :: ps, c :: path => if b = c then matchSegs ps path else none
  | .param n :: ps, path => (matchSegs ps (path.dropWhile (· ≠ 47))).map ((n, path.takeWhile (· ≠ 47)) :: ·)
  | [.all n], path => some [(n, path)]
  | .all _ :: _ :: _, _ => none

theorem takeWhile_seg {seg rest : Bytes} (hs : 47 ∉ seg) (hr : rest = [] ∨ rest.head? = some 47) :
    (seg ++ rest).takeWhile (· ≠ 47) = seg ∧ (seg ++ rest).dropWhile (· ≠ 47) = rest := by
  induction seg with
  | nil =>
    cases rest with
    | nil => exact ⟨rfl, rfl⟩
    | cons b r =>
      rcases hr with h | h
      · cases h
      · simp only [List.head?_cons, Option.some.injEq] at h; subst h; exact ⟨rfl, rfl⟩
  | cons b seg ih =>
    have hb : b ≠ 47 := by rintro rfl; simp at hs
    obtain ⟨h1, h2⟩ := ih (by intro h; exact hs (by simp [h]))
    constructor
    · rw [List.cons_append, List.takeWhile_cons_of_pos (by simpa using hb), h1]
    · rw [List.cons_append, List.dropWhile_cons_of_pos (by simpa using hb), h2]

theorem matchSegs_complete {s : Bool} {ps : List Seg} {path : Bytes} {caps : List (Bytes × Bytes)} (h : Matches s ps path caps) : matchSegs ps path = some caps := by
  induction h with
  | nil => rfl
  | lit _ ih => simp [matchSegs, ih]
  | param h1 h2 _ _ ih =>
    obtain ⟨e1, e2⟩ := takeWhile_seg h1 h2
    simp only [matchSegs, e1, e2, ih, Option.map_some]
  | all _ => rfl

theorem matchSegs_sound : ∀ {ps : List Seg} {path : Bytes} {caps : List (Bytes × Bytes)}, matchSegs ps path = some caps → Matches false ps path caps
  | [], [], _, h => by injection h with h; subst h; exact .nil
  | [], _ :: _, _, h => by cases h
  | .lit _ :: _, [], _, h => by cases h
  | .lit b :: ps, c :: path, caps, h => by
    unfold matchSegs at h
    split at h
    · rename_i hb; subst hb; exact .lit (matchSegs_sound h)
    · cases h
  | .param n :: ps, path, caps, h => by
    unfold matchSegs at h
    obtain ⟨cs, h1, rfl⟩ := Option.map_eq_some_iff.1 h
    have := matchSegs_sound h1
    have e : path.takeWhile (· ≠ 47) ++ path.dropWhile (· ≠ 47) = path := List.takeWhile_append_dropWhile
    have hd : ∀ l : Bytes, l.dropWhile (· ≠ 47) = [] ∨ (l.dropWhile (· ≠ 47)).head? = some 47 := by
      intro l
      induction l with
      | nil => exact .inl rfl
      | cons b l ih =>
        by_cases hb : b = 47
        · subst hb; exact .inr rfl
        · rw [List.dropWhile_cons_of_pos (by simpa using hb)]; exact ih
    have ht : ∀ l : Bytes, (47 : UInt8) ∉ l.takeWhile (· ≠ 47) := by
      intro l hl
      have := List.all_takeWhile (p := fun b : UInt8 => decide (b ≠ 47)) (l := l)
      rw [List.all_eq_true] at this
      simpa using this 47 hl
    have m := Matches.param (strict := false) (n := n) (ht path) (hd path) (by simp) this
    rwa [e] at m
  | [.all n], path, _, h => by injection h with h; subst h; exact .all (by simp)
  | .all _ :: _ :: _, _, _, h => by cases h

theorem matchSegs_shape : ∀ {ps qs : List Seg} {path : Bytes}, ps.map Seg.shape = qs.map Seg.shape → (matchSegs ps path).isSome = (matchSegs qs path).isSome
  | [], [], _, _ => rfl
  | [], _ :: _, _, h => by cases h
  | _ :: _, [], _, h => by cases h
  | p :: ps, q :: qs, path, h => by
    simp only [List.map_cons, List.cons.injEq] at h
    obtain ⟨h1, h2⟩ := h
    cases p with
    | lit b =>
      cases q with
      | lit c =>
        injection h1 with h1; subst h1
        cases path with
        | nil => rfl
        | cons d path =>
          unfold matchSegs
          split
          · exact matchSegs_shape h2
          · rfl
      | param n => cases h1
      | all n => cases h1
    | param n =>
      cases q with
      | lit c => cases h1
      | param m => simp only [matchSegs, Option.isSome_map]; exact matchSegs_shape h2
      | all n => cases h1
    | all n =>
      cases q with
      | lit c => cases h1
      | param m => cases h1
      | all m =>
        cases ps with
        | nil => cases qs with
          | nil => rfl
          | cons _ _ => cases h2
        | cons _ _ => cases qs with
          | nil => cases h2
          | cons _ _ => rfl

/-- Lookup of the last matching pattern. -/
def findLast {ε : Type} : List (Bytes × ε) → Bytes → Option (ε × List (Bytes × Bytes))
  | [], _ => none
  | (pat, e) :: l, path => match findLast l path with
    | some r => some r
    | none => (matchSegs (segments none pat) path).map fun caps => (e, caps)

theorem findLast_none {ε : Type} {path : Bytes} : ∀ {l : List (Bytes × ε)}, findLast l path = none → ∀ x ∈ l, matchSegs (segments none x.1) path = none
  | [], _ => by simp
  | (pat, e) :: l, h => by
    unfold findLast at h
    split at h
    · cases h
    · rename_i hl
      intro x hx
      rcases List.mem_cons.1 hx with rfl | hx
      · simpa using h
      · exact findLast_none hl x hx

theorem findLast_some {ε : Type} {path : Bytes} {e : ε} {caps : List (Bytes × Bytes)} : ∀ {l : List (Bytes × ε)}, findLast l path = some (e, caps) →
    ∃ (pre : List (Bytes × ε)) (pat : Bytes) (post : List (Bytes × ε)), l = pre ++ (pat, e) :: post ∧ matchSegs (segments none pat) path = some caps ∧ findLast post path = none
  | [], h => by cases h
  | (p, e0) :: l, h => by
    unfold findLast at h
    split at h
    · rename_i r hr
      rw [h] at hr
      obtain ⟨pre, pat, post, rfl, h1, h2⟩ := findLast_some hr
      exact ⟨(p, e0) :: pre, pat, post, rfl, h1, h2⟩
    · rename_i hn
      obtain ⟨cs, h1, h2⟩ := Option.map_eq_some_iff.1 h
      injection h2 with h2 h3
      subst h2; subst h3
      exact ⟨[], p, l, rfl, h1, hn⟩

/-- An implementation of `PathTree`. -/
def lastMatch : PathTree where
  find := findLast
  sound := by
    intro ε l path e caps h
    obtain ⟨pre, pat, post, hl, h1, h2⟩ := findLast_some h
    refine ⟨pre, pat, post, hl, matchSegs_sound h1, ?_⟩
    intro x hx hs
    have := findLast_none h2 x hx
    have e := matchSegs_shape (path := path) hs
    rw [this, h1] at e
    cases e
  complete := by
    intro ε l path h x hx caps hm
    have := findLast_none h x hx
    rw [matchSegs_complete hm] at this
    cases this

/-! ## A concrete router -/

/-- A builder history with two methods, parameters, a pattern registered twice, and data given twice. -/
def demoRoutes : List (BuildOp Nat) :=
  [.at (ascii "GET") (ascii "/users/:id") 1, .data (.base 0) (ascii "old"), .at (ascii "POST") (ascii "/users/:id") 2, .at (ascii "GET") (ascii "/files/*rest") 3,
    .data (.base 0) (ascii "new"), .at (ascii "GET") (ascii "/users/:user") 4, .wrappedData (.base 1) (ascii "lost"), .wrappedData (.data (.base 2)) (ascii "kept")]

example : Plain demoRoutes := by
  intro x hx
  simp only [demoRoutes, routes, List.mem_cons, List.not_mem_nil, or_false] at hx
  rcases hx with rfl | rfl | rfl | rfl <;> exact ⟨by unfold PlainMethod; decide, by decide⟩

/-- What the endpoint sees. -/
def demoRoute (method path : String) : Option (Nat × List (Option Bytes)) :=
  match (buildRouter demoRoutes).route lastMatch (ascii method) (ascii path) ⟨none, none⟩ (freshResponse : Response Script) with
  | .call e x => some (e, [x.getParam (ascii "user"), x.getParam (ascii "id"), x.getData (.base 0), x.getData (.base 1), x.getData (.base 2)])
  | .send _ => none

example : demoRoute "GET" "/users/7" = some (4, [some (ascii "7"), none, some (ascii "new"), none, some (ascii "kept")]) := by decide +kernel
example : demoRoute "POST" "/users/7" = some (2, [none, some (ascii "7"), some (ascii "new"), none, some (ascii "kept")]) := by decide +kernel
example : demoRoute "POST" "/files/a/b" = none := by decide +kernel
example : demoRoute "GET" "/users/7/x" = none := by decide +kernel
example : demoRoute "GET" "/files/a/b" = some (3, [none, none, some (ascii "new"), none, some (ascii "kept")]) := by decide +kernel

/-- The hypothesis of `C39_not_found_partial` and `C39_wire_partial`: `/files/a/b` matches a pattern, but not one registered for `POST`. -/
example : ∀ p e, (ascii "POST", p, e) ∈ routes demoRoutes → ∀ caps, ¬ PatternMatches p (ascii "/files/a/b") caps := by
  intro p e h caps hm
  simp only [demoRoutes, routes, List.mem_cons, List.not_mem_nil, or_false, Prod.mk.injEq] at h
  rcases h with ⟨h, _⟩ | ⟨_, rfl, _⟩ | ⟨h, _⟩ | ⟨h, _⟩
  · exact absurd h (by decide)
  · have := matchSegs_complete hm
    revert this
    have : matchSegs (segments none (ascii "/users/:id")) (ascii "/files/a/b") = none := by decide +kernel
    rw [this]; intro h; cases h
  · exact absurd h (by decide)
  · exact absurd h (by decide)

/-- The hypotheses of `C40_data`. -/
example : demoRoutes = [.at (ascii "GET") (ascii "/users/:id") 1, .data (.base 0) (ascii "old"), .at (ascii "POST") (ascii "/users/:id") 2, .at (ascii "GET") (ascii "/files/*rest") 3] ++
      .data (.base 0) (ascii "new") :: [.at (ascii "GET") (ascii "/users/:user") 4, .wrappedData (.base 1) (ascii "lost"), .wrappedData (.data (.base 2)) (ascii "kept")] ∧
    BuildOp.gives (.base 0) (.data (.base 0) (ascii "new") : BuildOp Nat) = some (ascii "new") ∧
    ∀ o ∈ ([.at (ascii "GET") (ascii "/users/:user") 4, .wrappedData (.base 1) (ascii "lost"), .wrappedData (.data (.base 2)) (ascii "kept")] : List (BuildOp Nat)), o.gives (.base 0) = none :=
  ⟨rfl, rfl, by intro o ho; simp only [List.mem_cons, List.not_mem_nil, or_false] at ho; rcases ho with rfl | rfl | rfl <;> rfl⟩

end Tophat
