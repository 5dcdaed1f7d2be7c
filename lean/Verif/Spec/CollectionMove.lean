import Verif.Spec.ItemCollection
import Verif.Model.CollectionMove

/-!
# Several insertion-ordered lists that can be moved
-/

namespace Wite.Spec.CollectionMove

open Wite.Collections

variable {n : Nat} {ι α : Type} [DecidableEq ι]

/-- The same calls on the lists. -/
def step (idOf : α → ι) (op : Colls.Op n ι α) (ls : Fin n → List α) : Outcome (ItemCollection.Ret α) × (Fin n → List α) :=
  match op with
  | .call i op => ((ItemCollection.step idOf op (ls i)).1, fun k => if k = i then (ItemCollection.step idOf op (ls i)).2 else ls k)
  | .move i j => (.ok .unit, fun k => if k = j then [] else if k = i then ls j else ls k)

/-- The collection a call is about. -/
def target : Colls.Op n ι α → Fin n
  | .call i _ => i
  | .move i _ => i

/-- Program and lists agree at every moment of a program. -/
def Agrees (b : Build) (mem : Site → Nat → Bool) (idOf : α → ι) :
    List (Colls.Op n ι α) → Colls n ι α → (Fin n → List α) → Prop
  | [], w, ls => ∀ i, ItemCollection.Shows idOf (w.view i) (ls i)
  | op :: ops, w, ls =>
    (∀ i, ItemCollection.Shows idOf (w.view i) (ls i)) ∧
    ItemCollection.Matches (((Colls.step b mem idOf op).run w).2.view (target op)) ((Colls.step b mem idOf op).run w).1
      (step idOf op ls).1 ∧
    Agrees b mem idOf ops ((Colls.step b mem idOf op).run w).2 (step idOf op ls).2

/-- No call changes the id of an item through a reference. -/
def KeepsIds (idOf : α → ι) (ops : List (Colls.Op n ι α)) : Prop :=
  ∀ i id f, Colls.Op.call i (.modify id f) ∈ ops → ∀ x, idOf (f x) = idOf x

end Wite.Spec.CollectionMove
