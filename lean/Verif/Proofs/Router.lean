import Verif.Spec.Routing
/-!
# Proofs about routing
-/

namespace Tophat

theorem segments_lits (m : Bytes) (h1 : 58 ∉ m) (h2 : 42 ∉ m) (p : Bytes) : segments none (m ++ p) = m.map Seg.lit ++ segments none p := by
  induction m with
  | nil => rfl
  | cons b m ih =>
    have e1 : b ≠ 58 := by rintro rfl; simp at h1
    have e2 : b ≠ 42 := by rintro rfl; simp at h2
    have i := ih (by intro h; exact h1 (by simp [h])) (by intro h; exact h2 (by simp [h]))
    simp [segments, e1, e2, i]

theorem matches_lits {s : Bool} {m : Bytes} : ∀ {ps : List Seg} {path : Bytes} {caps : List (Bytes × Bytes)},
    Matches s (m.map Seg.lit ++ ps) path caps ↔ ∃ rest, path = m ++ rest ∧ Matches s ps rest caps := by
  induction m with
  | nil => intro ps path caps; simp
  | cons b m ih =>
    intro ps path caps
    constructor
    · intro h
      simp only [List.map_cons, List.cons_append] at h
      cases h with
      | lit h =>
        obtain ⟨rest, rfl, h'⟩ := ih.1 h
        exact ⟨rest, rfl, h'⟩
    · rintro ⟨rest, rfl, h⟩
      exact .lit (ih.2 ⟨rest, rfl, h⟩)

/-- The text of a route in the tree. -/
def routeText (m p : Bytes) : Bytes := [47] ++ m ++ p

theorem segments_route {m p : Bytes} (hm : PlainMethod m) : segments none (routeText m p) = (47 :: m).map Seg.lit ++ segments none p := by
  obtain ⟨h1, h2, h3⟩ := hm
  have : routeText m p = (47 :: m) ++ p := rfl
  rw [this, segments_lits]
  · intro h; rcases List.mem_cons.1 h with h | h
    · cases h
    · exact h2 h
  · intro h; rcases List.mem_cons.1 h with h | h
    · cases h
    · exact h3 h

theorem split_slash {m m' rest path : Bytes} (hm : PlainMethod m) (hm' : 47 ∉ m') (hp : PathText path) (hr : rest.head? = some 47)
    (h : m ++ rest = m' ++ path) : m = m' ∧ rest = path := by
  rcases List.append_eq_append_iff.1 h with ⟨x, h1, h2⟩ | ⟨x, h1, h2⟩
  · -- m' = m ++ x, rest = x ++ path
    cases x with
    | nil => exact ⟨by simpa using h1.symm, by simpa using h2⟩
    | cons b x =>
      rw [h2] at hr
      simp only [List.cons_append, List.head?_cons, Option.some.injEq] at hr
      subst hr
      exact (hm' (by rw [h1]; simp)).elim
  · -- m = m' ++ x, path = x ++ rest
    cases x with
    | nil => exact ⟨by simpa using h1, by simpa using h2.symm⟩
    | cons b x =>
      rcases hp with rfl | rfl | hp
      · cases h2
      · rw [List.cons_append] at h2
        injection h2 with h3 h4
        subst h3
        exact (hm.2.2 (by rw [h1]; simp)).elim
      · rw [h2] at hp
        simp only [List.cons_append, List.head?_cons, Option.some.injEq] at hp
        subst hp
        exact (hm.1 (by rw [h1]; simp)).elim

theorem matches_slash {s : Bool} {p : Bytes} (hp : p.head? = some 47) {rest : Bytes} {caps : List (Bytes × Bytes)} (h : Matches s (segments none p) rest caps) :
    rest.head? = some 47 := by
  cases p with
  | nil => cases hp
  | cons b p =>
    simp only [List.head?_cons, Option.some.injEq] at hp
    subst hp
    have : segments none (47 :: p) = .lit 47 :: segments none p := rfl
    rw [this] at h
    cases h with
    | lit h => rfl

/-- The trick of putting the method in front of the path works. -/
theorem matches_route {s : Bool} {m m' p path : Bytes} {caps : List (Bytes × Bytes)} (hm : PlainMethod m) (hm' : 47 ∉ m') (hp : p.head? = some 47) (hpath : PathText path) :
    Matches s (segments none (routeText m p)) (routeText m' path) caps ↔ m = m' ∧ Matches s (segments none p) path caps := by
  rw [segments_route hm, matches_lits]
  constructor
  · rintro ⟨rest, h1, h2⟩
    have h3 : m ++ rest = m' ++ path := by
      have : routeText m' path = 47 :: (m' ++ path) := rfl
      rw [this, List.cons_append] at h1
      injection h1 with _ h1
      exact h1.symm
    obtain ⟨rfl, rfl⟩ := split_slash hm hm' hpath (matches_slash hp h2) h3
    exact ⟨rfl, h2⟩
  · rintro ⟨rfl, h⟩
    exact ⟨path, rfl, h⟩

theorem shape_lits (m : Bytes) : (m.map Seg.lit).map Seg.shape = m.map Seg.lit := by
  rw [List.map_map]; rfl

/-! ## The builder -/

section
variable {ε : Type}

theorem build_tree (ops : List (BuildOp ε)) : ∀ b : RouterBuilder ε,
    (ops.foldl RouterBuilder.apply b).tree = b.tree ++ (routes ops).map fun x => (routeText x.1 x.2.1, x.2.2) := by
  induction ops with
  | nil => intro b; simp [routes]
  | cons op ops ih =>
    intro b
    rw [List.foldl_cons, ih]
    cases op with
    | «at» m p e =>
      simp only [RouterBuilder.apply, RouterBuilder.at, routes, List.map_cons, List.append_assoc, List.singleton_append]
      rfl
    | data t v => rfl
    | wrappedData t v => rfl

theorem TypeMap.get_insert (m : TypeMap) (t t' : Ty) (v : Bytes) : (m.insert t v).get t' = if t' = t then some v else m.get t' := by
  unfold TypeMap.insert TypeMap.get
  rw [List.find?_cons]
  by_cases h : t' = t
  · subst h; simp
  · have h' : t ≠ t' := Ne.symm h
    simp only [h', decide_false, h, if_false]
    rw [List.find?_filter]
    congr 2
    funext e
    by_cases he : e.1 = t'
    · simp [he, h]
    · simp [he]

theorem build_data_step (b : RouterBuilder ε) (op : BuildOp ε) (t : Ty) :
    ((b.apply op).data.getD []).get (.data t) = (op.gives t).or ((b.data.getD []).get (.data t)) := by
  cases op with
  | «at» m p e => rfl
  | data t' v =>
    simp only [RouterBuilder.apply, RouterBuilder.data', RouterBuilder.wrappedData, Option.getD_some, TypeMap.get_insert, BuildOp.gives, Ty.data.injEq]
    by_cases h : t' = t
    · simp [h]
    · simp [h, Ne.symm h]
  | wrappedData t' v =>
    simp only [RouterBuilder.apply, RouterBuilder.wrappedData, Option.getD_some, TypeMap.get_insert, BuildOp.gives]
    by_cases h : t' = .data t
    · simp [h]
    · simp [h, Ne.symm h]

theorem build_data_kept (ops : List (BuildOp ε)) (t : Ty) (h : ∀ op ∈ ops, op.gives t = none) : ∀ b : RouterBuilder ε,
    ((ops.foldl RouterBuilder.apply b).data.getD []).get (.data t) = (b.data.getD []).get (.data t) := by
  induction ops with
  | nil => intro b; rfl
  | cons op ops ih =>
    intro b
    rw [List.foldl_cons, ih (fun o ho => h o (by simp [ho])), build_data_step, h op (by simp)]
    rfl

theorem build_some (ops : List (BuildOp ε)) : ∀ b : RouterBuilder ε, (ops.foldl RouterBuilder.apply b).data = none ↔ b.data = none ∧ ∀ op ∈ ops, ¬ op.IsData := by
  induction ops with
  | nil => intro b; simp
  | cons op ops ih =>
    intro b
    rw [List.foldl_cons, ih]
    cases op <;> simp [RouterBuilder.apply, RouterBuilder.at, RouterBuilder.data', RouterBuilder.wrappedData, BuildOp.IsData]

end

end Tophat
