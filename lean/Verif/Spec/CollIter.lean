import Verif.Model.CollIter

/-!
# Usable iterators of an `identifiable_item_collection`
-/

namespace Wite.Spec.CollIter

open Wite.Collections

variable {n : Nat} {ι α : Type}

/-- Different vectors have different arrays; a vector without an array has no elements. -/
def Distinct (s : Arrays n ι α) : Prop :=
  (∀ i j a, s.data i = some a → s.data j = some a → i = j) ∧ ∀ i, s.data i = none → (s.w.colls i).ordered = []

/-- The iterator points into the array of collection `k`, or one behind its last element, and knows where that is. -/
def Into (s : Arrays n ι α) (k : Fin n) (it : CollIter n) : Prop :=
  it.array = s.data k ∧ it.pos ≤ (s.w.colls k).ordered.length ∧ it.parentEnd = (s.w.colls k).ordered.length

end Wite.Spec.CollIter
