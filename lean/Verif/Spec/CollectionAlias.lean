import Verif.Spec.ItemCollection
import Verif.Model.CollectionAlias

/-!
# Which id an argument stands for
-/

namespace Wite.Spec.ItemCollection

open Wite.Collections

variable {ι α : Type}

/-- In this heap the argument refers to an object, and its id is `id`. -/
def Refers (idOf : α → ι) (heap : Nat → Option α) : IdArg ι → ι → Prop
  | .own id', id => id' = id
  | .item a, id => ∃ x, heap a = some x ∧ idOf x = id

/-- The argument at `j` refers to an item of the collection that an argument before it names. -/
def Gone (ordered : List Nat) (rs : List (IdArg ι)) (ids : List ι) (j : Nat) : Prop :=
  ∃ a, rs[j]? = some (.item a) ∧ a ∈ ordered ∧ ∃ i < j, ids[i]? = ids[j]?

/-- The arguments before `j` name every item. -/
def AllNamed (idOf : α → ι) (l : List α) (ids : List ι) (j : Nat) : Prop := ∀ x ∈ l, idOf x ∈ ids.take j

end Wite.Spec.ItemCollection
