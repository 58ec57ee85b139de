import Verif.Model.Http
/-! Helper lemmas about header maps. -/

namespace Tophat
namespace HeaderMap

theorem wf_nil : WF [] := ⟨by simp, by simp⟩

theorem keys_insert (m : HeaderMap) (k v : Bytes) :
    (m.insert k v).map (·.1) = if k ∈ m.map (·.1) then m.map (·.1) else m.map (·.1) ++ [k] := by
  induction m with
  | nil => simp [insert]
  | cons e m ih =>
    obtain ⟨k', vs⟩ := e
    by_cases h : k' = k
    · simp [insert, h]
    · have h' : k ≠ k' := fun x => h x.symm
      simp only [insert, h, if_false, List.map_cons, ih, List.mem_cons, h', false_or]
      split <;> simp

theorem keys_append (m : HeaderMap) (k v : Bytes) :
    (m.append k v).map (·.1) = if k ∈ m.map (·.1) then m.map (·.1) else m.map (·.1) ++ [k] := by
  induction m with
  | nil => simp [append]
  | cons e m ih =>
    obtain ⟨k', vs⟩ := e
    by_cases h : k' = k
    · simp [append, h]
    · have h' : k ≠ k' := fun x => h x.symm
      simp only [append, h, if_false, List.map_cons, ih, List.mem_cons, h', false_or]
      split <;> simp

theorem WF.insert {m : HeaderMap} (h : WF m) (k v : Bytes) : WF (m.insert k v) := by
  constructor
  · rw [keys_insert]
    split
    · exact h.nodup
    · rename_i hk
      rw [List.nodup_append]
      exact ⟨h.nodup, by simp, by simp; intro a b hb hab; exact hk (by simp; exact ⟨b, hab ▸ hb⟩)⟩
  · have hv := h.vals
    clear h
    induction m with
    | nil => simp [HeaderMap.insert]
    | cons e m ih =>
      obtain ⟨k', vs⟩ := e
      simp only [HeaderMap.insert]
      split
      · intro e he
        rcases List.mem_cons.1 he with rfl | he
        · simp
        · exact hv e (List.mem_cons_of_mem _ he)
      · intro e he
        rcases List.mem_cons.1 he with rfl | he
        · exact hv _ (List.mem_cons_self)
        · exact ih (fun e he => hv e (List.mem_cons_of_mem _ he)) e he

theorem WF.append {m : HeaderMap} (h : WF m) (k v : Bytes) : WF (m.append k v) := by
  constructor
  · rw [keys_append]
    split
    · exact h.nodup
    · rename_i hk
      rw [List.nodup_append]
      exact ⟨h.nodup, by simp, by simp; intro a b hb hab; exact hk (by simp; exact ⟨b, hab ▸ hb⟩)⟩
  · have hv := h.vals
    clear h
    induction m with
    | nil => simp [HeaderMap.append]
    | cons e m ih =>
      obtain ⟨k', vs⟩ := e
      simp only [HeaderMap.append]
      split
      · intro e he
        rcases List.mem_cons.1 he with rfl | he
        · simp
        · exact hv e (List.mem_cons_of_mem _ he)
      · intro e he
        rcases List.mem_cons.1 he with rfl | he
        · exact hv _ (List.mem_cons_self)
        · exact ih (fun e he => hv e (List.mem_cons_of_mem _ he)) e he

@[simp] theorem iter_nil : iter [] = [] := rfl
@[simp] theorem iter_cons (k : Bytes) (vs : List Bytes) (m : HeaderMap) :
    iter ((k, vs) :: m) = vs.map (fun v => (k, v)) ++ iter m := by simp [iter]

theorem iter_insert_new {m : HeaderMap} {k v : Bytes} (h : k ∉ m.map (·.1)) :
    (m.insert k v).iter = m.iter ++ [(k, v)] := by
  induction m with
  | nil => simp [insert]
  | cons e m ih =>
    obtain ⟨k', vs⟩ := e
    simp at h
    have : k' ≠ k := fun x => h.1 x.symm
    simp only [insert, this, if_false, iter_cons]
    rw [ih (by simpa using h.2)]; simp

theorem iter_append_new {m : HeaderMap} {k v : Bytes} (h : k ∉ m.map (·.1)) :
    (m.append k v).iter = m.iter ++ [(k, v)] := by
  induction m with
  | nil => simp [append]
  | cons e m ih =>
    obtain ⟨k', vs⟩ := e
    simp at h
    have : k' ≠ k := fun x => h.1 x.symm
    simp only [append, this, if_false, iter_cons]
    rw [ih (by simpa using h.2)]; simp

theorem containsKey_iff {m : HeaderMap} {k : Bytes} : m.containsKey k = true ↔ k ∈ m.map (·.1) := by
  simp [containsKey]

@[simp] theorem getAll_nil (k : Bytes) : getAll [] k = [] := rfl

theorem getAll_cons (k k' : Bytes) (vs : List Bytes) (m : HeaderMap) :
    getAll ((k', vs) :: m) k = (if k' = k then vs else []) ++ getAll m k := by
  by_cases h : k' = k
  · subst h
    have : List.filter ((fun (e : Bytes × Bytes) => e.1 == k') ∘ fun v => (k', v)) vs = vs := by
      apply List.filter_eq_self.2; simp
    simp [getAll, iter_cons, List.filter_append, List.filter_map, this, List.map_map, Function.comp_def]
  · have : List.filter ((fun (e : Bytes × Bytes) => e.1 == k) ∘ fun v => (k', v)) vs = [] := by
      apply List.filter_eq_nil_iff.2; simp [h]
    simp [getAll, iter_cons, List.filter_append, List.filter_map, h, this]

theorem getAll_eq_nil_of_not_mem {m : HeaderMap} {k : Bytes} (h : k ∉ m.map (·.1)) : m.getAll k = [] := by
  induction m with
  | nil => rfl
  | cons e m ih =>
    obtain ⟨k', vs⟩ := e
    simp at h
    have : k' ≠ k := fun x => h.1 x.symm
    rw [getAll_cons]
    simp only [this, if_false, List.nil_append]
    exact ih (by simpa using h.2)

theorem getAll_insert {m : HeaderMap} (hn : (m.map (·.1)).Nodup) (k k' v : Bytes) :
    (m.insert k v).getAll k' = if k' = k then [v] else m.getAll k' := by
  induction m with
  | nil =>
    rw [insert, getAll_cons]
    by_cases h : k' = k
    · simp [h]
    · have : k ≠ k' := fun x => h x.symm
      simp [h, this]
  | cons e m ih =>
    obtain ⟨k0, vs⟩ := e
    simp only [List.map_cons, List.nodup_cons] at hn
    simp only [insert]
    by_cases h0 : k0 = k
    · subst h0
      simp only [if_true]
      rw [getAll_cons, getAll_cons]
      by_cases h : k' = k0
      · subst h; simp [getAll_eq_nil_of_not_mem hn.1]
      · have : k0 ≠ k' := fun x => h x.symm
        simp [h, this]
    · simp only [h0, if_false]
      rw [getAll_cons, getAll_cons, ih hn.2]
      by_cases h : k' = k
      · subst h; simp [h0]
      · simp [h]

theorem getAll_append {m : HeaderMap} (hn : (m.map (·.1)).Nodup) (k k' v : Bytes) :
    (m.append k v).getAll k' = if k' = k then m.getAll k' ++ [v] else m.getAll k' := by
  induction m with
  | nil =>
    rw [append, getAll_cons]
    by_cases h : k' = k
    · simp [h]
    · have : k ≠ k' := fun x => h x.symm
      simp [h, this]
  | cons e m ih =>
    obtain ⟨k0, vs⟩ := e
    simp only [List.map_cons, List.nodup_cons] at hn
    simp only [append]
    by_cases h0 : k0 = k
    · subst h0
      simp only [if_true]
      rw [getAll_cons, getAll_cons]
      by_cases h : k' = k0
      · subst h; simp [getAll_eq_nil_of_not_mem hn.1]
      · have : k0 ≠ k' := fun x => h x.symm
        simp [h, this]
    · simp only [h0, if_false]
      rw [getAll_cons, getAll_cons, ih hn.2]
      by_cases h : k' = k
      · subst h; simp [h0]
      · simp [h]

theorem getAll_isEmpty {m : HeaderMap} (hw : ∀ e ∈ m, e.2 ≠ []) (k : Bytes) :
    (m.getAll k).isEmpty = !m.containsKey k := by
  induction m with
  | nil => rfl
  | cons e m ih =>
    obtain ⟨k', vs⟩ := e
    have hv : vs ≠ [] := hw (k', vs) List.mem_cons_self
    have ih := ih (fun e he => hw e (List.mem_cons_of_mem _ he))
    rw [getAll_cons]
    by_cases h : k' = k
    · cases vs with
      | nil => exact absurd rfl hv
      | cons a b => simp [h, containsKey]
    · simp only [h, if_false, List.nil_append, ih]
      simp [containsKey, h]

end HeaderMap
end Tophat
