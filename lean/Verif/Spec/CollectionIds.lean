import Verif.Model.CollectionIds
import Verif.Spec.ItemCollection

/-!
# An insertion-ordered list whose items are told apart by one comparison and erased by another

The intended behaviour of `identifiable_item_collection` for a type of id with two comparisons.
-/

namespace Wite.Spec.CollectionIds

open Wite.Collections Wite.Spec.ItemCollection

variable {ι α : Type} (c : IdCmp ι)

/-- Is there an item with an equivalent id? -/
def hasC (idOf : α → ι) (l : List α) (id : ι) : Bool := l.any fun x => c.same (idOf x) id

/-- Is there an item with an equal id? -/
def namesC (idOf : α → ι) (l : List α) (id : ι) : Bool := l.any fun x => c.eq id (idOf x)

/-- Append one after another unless an equivalent id is there, reporting for each whether it was new. -/
def addAllC (idOf : α → ι) : List α → List α → List Bool × List α
  | l, [] => ([], l)
  | l, x :: xs =>
    let r := addAllC idOf (if hasC c idOf l (idOf x) then l else l ++ [x]) xs
    ((!hasC c idOf l (idOf x)) :: r.1, r.2)

/-- Append one after another up to the first duplicate; was there none? -/
def addUntilC (idOf : α → ι) : List α → List α → Bool × List α
  | l, [] => (true, l)
  | l, x :: xs => if hasC c idOf l (idOf x) then (false, l) else addUntilC idOf (l ++ [x]) xs

/-- Without the items with an equal id. -/
def dropEq (idOf : α → ι) (l : List α) (id : ι) : List α := l.filter fun x => !c.eq id (idOf x)

/-- Remove by equal id one after another, reporting for each whether one was there. -/
def dropAllEq (idOf : α → ι) : List α → List ι → List Bool × List α
  | l, [] => ([], l)
  | l, id :: ids =>
    let r := dropAllEq idOf (dropEq c idOf l id) ids
    (namesC c idOf l id :: r.1, r.2)

/-- The calls on the list. -/
def stepL (idOf : α → ι) (op : ItemCollection.Op ι α) (l : List α) : Outcome (Ret α) × List α :=
  match op with
  | .insert x => if hasC c idOf l (idOf x) then (.throw duplicate, l) else (.ok .unit, l ++ [x])
  | .insertRange xs => (.ok .unit, (addAllC c idOf l xs).2)
  | .insertAll xs => (if (addUntilC c idOf l xs).1 then .ok .unit else .throw duplicate, (addUntilC c idOf l xs).2)
  | .tryInsert x => (.ok (.flag !hasC c idOf l (idOf x)), if hasC c idOf l (idOf x) then l else l ++ [x])
  | .tryInsertAll xs => (.ok (.flags (addAllC c idOf l xs).1), (addAllC c idOf l xs).2)
  | .erase id => (.ok (.flag (namesC c idOf l id)), dropEq c idOf l id)
  | .eraseAll ids => (.ok (.flags (dropAllEq c idOf l ids).1), (dropAllEq c idOf l ids).2)
  | .emplace x =>
    if hasC c idOf l (idOf x) then (.throw (.logicError "identifiable_item_collection already contains this ID"), l)
    else (.ok (.ref x), l ++ [x])
  | .excise id => (.ok (.owned (l.find? fun x => c.same (idOf x) id)), l.filter fun x => !c.same (idOf x) id)
  | .clear => (.ok .unit, [])
  | .modify id f => (.ok .unit, l.map fun x => if c.same (idOf x) id then f x else x)
  | .drop _ => (.ok .unit, l)

/-- The observers show the list. -/
def ShowsC (idOf : α → ι) (s : ItemCollection ι α) (l : List α) : Prop :=
  s.size = l.length ∧ s.isEmpty = l.isEmpty ∧ s.iterate = .ok l ∧
  (∀ id, s.containsC c id = hasC c idOf l id) ∧
  (∀ id, s.atIdC c id = match l.find? fun x => c.same (idOf x) id with
    | some x => .ok x
    | none => .throw (.outOfRange "identifiable_item_collection failed to retreive item by ID")) ∧
  (∀ i, s.atIndex i = match l[i]? with
    | some x => .ok x
    | none => .throw (.outOfRange "identifiable_item_collection failed to retreive item by index"))

/-- Program and list agree at every moment of a program. -/
def AgreesC (b : Build) (mem : Site → Nat → Bool) (idOf : α → ι) :
    List (ItemCollection.Op ι α) → ItemCollection ι α → List α → Prop
  | [], s, l => ShowsC c idOf s l
  | op :: ops, s, l =>
    ShowsC c idOf s l ∧
    Matches (Collections.ItemCollection.stepC c b mem idOf op s).2 (Collections.ItemCollection.stepC c b mem idOf op s).1 (stepL c idOf op l).1 ∧
    AgreesC b mem idOf ops (Collections.ItemCollection.stepC c b mem idOf op s).2 (stepL c idOf op l).2

end Wite.Spec.CollectionIds
