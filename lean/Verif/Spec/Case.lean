import Verif.Spec.Connection
/-!
# Specification: upper and lower case

Used by C80.
-/

namespace Tophat.Spec

/-- The letters, upper and lower case. -/
def letters : List (UInt8 × UInt8) := (ascii "ABCDEFGHIJKLMNOPQRSTUVWXYZ").zip (ascii "abcdefghijklmnopqrstuvwxyz")

/-- The lower case of a letter; other bytes are left alone. -/
def foldCase (b : UInt8) : UInt8 := (letters.lookup b).getD b

/-- The same text, but for upper and lower case. -/
def SameText (a b : Bytes) : Prop := a.map foldCase = b.map foldCase

/-- Two lists of the same length, whose elements are related one by one. -/
inductive Pairwise {α β : Type} (R : α → β → Prop) : List α → List β → Prop
  | nil : Pairwise R [] []
  | cons {a b as bs} : R a b → Pairwise R as bs → Pairwise R (a :: as) (b :: bs)

/-- `v` and `w`, values of fields with the name `k`, are the same, or `k` is one of `free` and they differ in case only. -/
def SameValue (free : List Bytes) (k v w : Bytes) : Prop := v = w ∨ ((∃ n ∈ free, SameText k n) ∧ SameText v w)

/-- The same header fields, in the same order, but for the case of the names, and of the values of the fields `free`. -/
def Recased (free : List Bytes) (fs gs : List (Bytes × Bytes)) : Prop :=
  Pairwise (fun f g => SameText f.1 g.1 ∧ SameValue free f.1 f.2 g.2) fs gs

/-- What is observed is the same, but for the case of the values of the fields `free` in the request that the endpoint gets. -/
def SameEvent (free : List Bytes) : Event → Event → Prop
  | .call h len, .call h' len' => h.method = h'.method ∧ h.uri = h'.uri ∧ len = len' ∧ ∀ k, Pairwise (SameValue free k) (h.headers.getAll k) (h'.headers.getAll k)
  | e, e' => e = e'

end Tophat.Spec
