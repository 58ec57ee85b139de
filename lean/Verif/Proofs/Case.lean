import Verif.Spec.Case
import Verif.Proofs.Served
import Verif.Props.ServerDecode
import Verif.Props.ClientDecode
/-!
# Proofs about upper and lower case
-/

set_option linter.unusedSectionVars false

namespace Tophat
open Spec

theorem lowerByte_fold (b : UInt8) : lowerByte b = foldCase b := by
  have h : ∀ n : Fin 256, lowerByte (UInt8.ofNat n.1) = foldCase (UInt8.ofNat n.1) := by decide +kernel
  have := h ⟨b.toNat, b.toNat_lt⟩
  simpa using this

theorem lower_fold (bs : Bytes) : lower bs = bs.map foldCase := by
  unfold lower
  exact List.map_congr_left fun b _ => lowerByte_fold b

theorem lower_lower (bs : Bytes) : lower (lower bs) = lower bs := by
  have h : ∀ n : Fin 256, lowerByte (lowerByte (UInt8.ofNat n.1)) = lowerByte (UInt8.ofNat n.1) := by decide +kernel
  unfold lower
  rw [List.map_map]
  refine List.map_congr_left fun b _ => ?_
  have := h ⟨b.toNat, b.toNat_lt⟩
  simpa using this

theorem sameText_iff {a b : Bytes} : SameText a b ↔ lower a = lower b := by
  rw [lower_fold, lower_fold]; rfl

theorem Spec.Pairwise.refl {α : Type} {R : α → α → Prop} (h : ∀ a, R a a) : ∀ l, Pairwise R l l
  | [] => .nil
  | _ :: l => .cons (h _) (refl h l)

theorem Spec.Pairwise.eq {α : Type} {R : α → α → Prop} {l l' : List α} (h : Pairwise R l l') (hR : ∀ a b, R a b → a = b) : l = l' := by
  induction h with
  | nil => rfl
  | cons h _ ih => rw [hR _ _ h, ih]

theorem Spec.Pairwise.last {α : Type} {R : α → α → Prop} {l l' : List α} (h : Pairwise R l l') :
    (l.getLast? = none ∧ l'.getLast? = none) ∨ ∃ a b, l.getLast? = some a ∧ l'.getLast? = some b ∧ R a b := by
  induction h with
  | nil => exact .inl ⟨rfl, rfl⟩
  | @cons a b as bs h hp ih =>
    right
    rcases ih with ⟨h1, h2⟩ | ⟨x, y, h1, h2, h3⟩
    · rw [List.getLast?_eq_none_iff] at h1 h2
      subst h1 h2
      exact ⟨a, b, rfl, rfl, h⟩
    · exact ⟨x, y, by rw [List.getLast?_cons, h1]; rfl, by rw [List.getLast?_cons, h2]; rfl, h3⟩

theorem Spec.Pairwise.head {α : Type} {R : α → α → Prop} {l l' : List α} (h : Pairwise R l l') :
    (l.head? = none ∧ l'.head? = none) ∨ ∃ a b, l.head? = some a ∧ l'.head? = some b ∧ R a b := by
  cases h with
  | nil => exact .inl ⟨rfl, rfl⟩
  | cons h _ => exact .inr ⟨_, _, rfl, rfl, h⟩

theorem Spec.Recased.values {free : List Bytes} {fs gs : List (Bytes × Bytes)} (h : Recased free fs gs) (k : Bytes) :
    Pairwise (SameValue free k) (valuesOf k fs) (valuesOf k gs) := by
  unfold Recased at h
  induction h with
  | nil => exact .nil
  | @cons f g fs gs h _ ih =>
    obtain ⟨h1, h2⟩ := h
    have hk := sameText_iff.1 h1
    unfold valuesOf
    by_cases hf : lower f.1 = k
    · have hg : lower g.1 = k := by rw [← hk]; exact hf
      rw [List.filter_cons_of_pos (by simpa using hf), List.filter_cons_of_pos (by simpa using hg)]
      refine .cons ?_ ih
      rcases h2 with h2 | ⟨⟨n, hn, h2⟩, h3⟩
      · exact .inl h2
      · refine .inr ⟨⟨n, hn, ?_⟩, h3⟩
        have h2 := sameText_iff.1 h2
        have : lower k = lower (lower f.1) := by rw [hf]
        rw [sameText_iff, this, lower_lower, h2]
    · have hg : ¬ lower g.1 = k := by rw [← hk]; exact hf
      rw [List.filter_cons_of_neg (by simpa using hf), List.filter_cons_of_neg (by simpa using hg)]
      exact ih

/-- Values of other fields are the same. -/
theorem Spec.Recased.same {free : List Bytes} {fs gs : List (Bytes × Bytes)} (h : Recased free fs gs) {k : Bytes} (hk : ∀ n ∈ free, ¬ SameText k n) :
    valuesOf k fs = valuesOf k gs :=
  (h.values k).eq fun _ _ hab => hab.elim id fun ⟨⟨n, hn, h⟩, _⟩ => absurd h (hk n hn)

/-! ## The server -/

/-- The one field whose value may be in any case. -/
def Spec.teOnly (free : List Bytes) : Prop := ∀ n ∈ free, n = ascii "transfer-encoding"

theorem Spec.Recased.te {free : List Bytes} (ht : teOnly free) {fs gs : List (Bytes × Bytes)} (h : Recased free fs gs) {k : Bytes} (hk : lower k ≠ ascii "transfer-encoding") :
    valuesOf k fs = valuesOf k gs :=
  h.same fun n hn e => hk (by rw [sameText_iff.1 e, ht n hn]; decide)

theorem Spec.Recased.field {free : List Bytes} (ht : teOnly free) {f g : Bytes × Bytes} (h1 : SameText f.1 g.1) (h2 : SameValue free f.1 f.2 g.2) :
    (BadLength f ↔ BadLength g) ∧ (BadCoding f ↔ BadCoding g) := by
  have hk := sameText_iff.1 h1
  unfold BadLength BadCoding KnownCoding
  rw [hk]
  rcases h2 with h2 | ⟨⟨n, hn, h2⟩, h3⟩
  · rw [h2]; exact ⟨Iff.rfl, Iff.rfl⟩
  · rw [sameText_iff.1 h3]
    refine ⟨?_, Iff.rfl⟩
    have : lower g.1 = ascii "transfer-encoding" := by rw [← hk, sameText_iff.1 h2, ht n hn]; decide
    rw [this]
    exact ⟨fun h => absurd h.1 (by decide), fun h => absurd h.1 (by decide)⟩

theorem Spec.Recased.good {free : List Bytes} (ht : teOnly free) {fs gs : List (Bytes × Bytes)} (h : Recased free fs gs) (hf : ∀ f ∈ fs, GoodField f) : ∀ g ∈ gs, GoodField g := by
  unfold Recased at h
  induction h with
  | nil => exact hf
  | @cons f g fs gs h _ ih =>
    intro x hx
    rcases List.mem_cons.1 hx with rfl | hx
    · have := hf f (List.mem_cons_self ..)
      obtain ⟨a, b⟩ := Recased.field ht h.1 h.2
      exact ⟨fun h => this.1 (a.2 h), fun h => this.2 (b.2 h)⟩
    · exact ih (fun f hf' => hf f (List.mem_cons_of_mem _ hf')) x hx

/-- The first bad field. -/
theorem Spec.Recased.split {free : List Bytes} {gs : List (Bytes × Bytes)} : ∀ {pre post : List (Bytes × Bytes)} {f : Bytes × Bytes}, Recased free (pre ++ f :: post) gs →
    ∃ pre' g post', gs = pre' ++ g :: post' ∧ Recased free pre pre' ∧ SameText f.1 g.1 ∧ SameValue free f.1 f.2 g.2 := by
  intro pre
  induction pre generalizing gs with
  | nil =>
    intro post f h
    cases h with
    | cons h h' => exact ⟨[], _, _, rfl, .nil, h.1, h.2⟩
  | cons a pre ih =>
    intro post f h
    cases h with
    | cons h h' =>
      obtain ⟨pre', g, post', rfl, h1, h2⟩ := ih h'
      exact ⟨_ :: pre', g, post', rfl, .cons h h1, h2⟩

theorem Spec.Recased.bodyLength {free : List Bytes} (ht : teOnly free) {fs gs : List (Bytes × Bytes)} (h : Recased free fs gs) {len : Option Nat} (hb : BodyLength fs len) : BodyLength gs len := by
  have e := h.te ht (k := ascii "content-length") (by decide)
  have hp : BodyLength.Plain fs len → BodyLength.Plain gs len := by
    unfold BodyLength.Plain
    rw [e]; exact id
  unfold BodyLength at hb ⊢
  rcases (h.values (ascii "transfer-encoding")).last with ⟨h1, h2⟩ | ⟨a, b, h1, h2, h3⟩
  · rw [h1] at hb; rw [h2]; exact hp hb
  · rw [h1] at hb; rw [h2]
    have : lower a = lower b := h3.elim (fun e => by rw [e]) fun e => sameText_iff.1 e.2
    dsimp only at hb ⊢
    rw [← this]
    split at hb
    · rename_i hc; rw [if_pos hc]; exact hb
    · rename_i hc; rw [if_neg hc]; exact hp hb

/-- The verdict is the same. -/
theorem judged_recased {free : List Bytes} (ht : teOnly free) {uriOk : Bytes → Bool} {h h' m t : Bytes} {v : Nat} {fs gs : List (Bytes × Bytes)} (hh : HasHead h m t v fs) (hh' : HasHead h' m t v gs)
    (hr : Recased free fs gs) {x : Verdict} (hj : Judged uriOk h x) :
    (∃ i st, x = .refuse i st ∧ Judged uriOk h' (.refuse i st)) ∨ (x = .giveUp ∧ Judged uriOk h' .giveUp) ∨
      ∃ i len, x = .serve i m t fs len ∧ Judged uriOk h' (.serve i m t gs len) := by
  have he : Expects fs = Expects gs := by unfold Expects; rw [hr.te ht (by decide)]
  have hho : valuesOf (ascii "host") fs = valuesOf (ascii "host") gs := hr.te ht (by decide)
  cases hj with
  | malformed a => exact absurd hh (a _ _ _ _)
  | noMethod a =>
    obtain ⟨rfl, rfl, rfl, rfl⟩ := a.unique hh
    exact .inl ⟨_, _, rfl, .noMethod hh'⟩
  | version a b c =>
    obtain ⟨rfl, rfl, rfl, rfl⟩ := a.unique hh
    exact .inl ⟨_, _, rfl, .version hh' b c⟩
  | length a b c d =>
    obtain ⟨rfl, rfl, rfl, rfl⟩ := a.unique hh
    obtain ⟨pre', g, post', rfl, h1, h2, h3⟩ := hr.split
    exact .inl ⟨_, _, rfl, .length hh' b (h1.good ht c) ((Recased.field ht h2 h3).1.1 d)⟩
  | coding a b c d =>
    obtain ⟨rfl, rfl, rfl, rfl⟩ := a.unique hh
    obtain ⟨pre', g, post', rfl, h1, h2, h3⟩ := hr.split
    exact .inr (.inl ⟨rfl, .coding hh' b (h1.good ht c) ((Recased.field ht h2 h3).2.1 d)⟩)
  | noHost a b c d =>
    obtain ⟨rfl, rfl, rfl, rfl⟩ := a.unique hh
    exact .inl ⟨_, _, rfl, by rw [he]; exact .noHost hh' b (hr.good ht c) (by rw [← hho]; exact d)⟩
  | badTarget a b c d e =>
    obtain ⟨rfl, rfl, rfl, rfl⟩ := a.unique hh
    exact .inl ⟨_, _, rfl, by rw [he]; exact .badTarget hh' b (hr.good ht c) (by rw [← hho]; exact d) e⟩
  | serve a b c d e f =>
    obtain ⟨rfl, rfl, rfl, rfl⟩ := a.unique hh
    exact .inr (.inr ⟨_, _, rfl, by rw [he]; exact .serve hh' b (hr.good ht c) (by rw [← hho]; exact d) e (hr.bodyLength ht f)⟩)

/-! ## The client -/

theorem replyTo_recased {h h' : Bytes} {v code : Nat} {fs gs : List (Bytes × Bytes)} (hh : HasReply h v code fs) (hh' : HasReply h' v code gs) (hr : Recased [] fs gs) {x : Reply} (hj : ReplyTo h x) :
    (x = .reject ∧ ReplyTo h' .reject) ∨ (x = .chunked ∧ ReplyTo h' .chunked) ∨ (∃ k, x = .fixed code fs k ∧ ReplyTo h' (.fixed code gs k)) ∨ (x = .bare code fs ∧ ReplyTo h' (.bare code gs)) := by
  have e : ∀ k, valuesOf k fs = valuesOf k gs := fun k => hr.same (by simp)
  have ea : Ambiguous fs ↔ Ambiguous gs := by unfold Ambiguous; rw [e, e]
  have ec : SaysChunked fs ↔ SaysChunked gs := by unfold SaysChunked; rw [e]
  cases hj with
  | malformed a => exact absurd hh (a _ _ _)
  | version a b => obtain ⟨rfl, rfl, rfl⟩ := a.unique hh; exact .inl ⟨rfl, .version hh' b⟩
  | ambiguous a b => obtain ⟨rfl, rfl, rfl⟩ := a.unique hh; exact .inl ⟨rfl, .ambiguous hh' (ea.1 b)⟩
  | length a b c => obtain ⟨rfl, rfl, rfl⟩ := a.unique hh; exact .inl ⟨rfl, .length hh' (by rw [← e]; exact b) c⟩
  | status a b c => obtain ⟨rfl, rfl, rfl⟩ := a.unique hh; exact .inl ⟨rfl, .status hh' (fun h => b (ec.2 h)) c⟩
  | chunked a b c => obtain ⟨rfl, rfl, rfl⟩ := a.unique hh; exact .inr (.inl ⟨rfl, .chunked hh' (fun h => b (ea.2 h)) (ec.1 c)⟩)
  | fixed a b c d f => obtain ⟨rfl, rfl, rfl⟩ := a.unique hh; exact .inr (.inr (.inl ⟨_, rfl, .fixed hh' (fun h => b (ea.2 h)) (by rw [← e]; exact c) d f⟩))
  | bare a b c d => obtain ⟨rfl, rfl, rfl⟩ := a.unique hh; exact .inr (.inr (.inr ⟨rfl, .bare hh' (fun h => b (ec.2 h)) (by rw [← e]; exact c) d⟩))

end Tophat
