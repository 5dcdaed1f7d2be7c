import Verif.Model.ItemCollection

/-!
# An insertion-ordered list with unique ids, the intended behaviour of `identifiable_item_collection`
-/

namespace Wite.Spec.ItemCollection

open Wite.Collections

variable {ι α : Type} [DecidableEq ι]

/-- Is there an item with this id? -/
def has (idOf : α → ι) (l : List α) (id : ι) : Bool := l.any fun x => idOf x = id

/-- Append, unless the id is there. -/
def add (idOf : α → ι) (l : List α) (x : α) : List α := if has idOf l (idOf x) then l else l ++ [x]

/-- Append one after another, reporting for each whether it was new. -/
def addAll (idOf : α → ι) : List α → List α → List Bool × List α
  | l, [] => ([], l)
  | l, x :: xs =>
    let r := addAll idOf (add idOf l x) xs
    ((!has idOf l (idOf x)) :: r.1, r.2)

/-- Append one after another up to the first duplicate; was there none? -/
def addUntil (idOf : α → ι) : List α → List α → Bool × List α
  | l, [] => (true, l)
  | l, x :: xs => if has idOf l (idOf x) then (false, l) else addUntil idOf (l ++ [x]) xs

/-- Without the item of this id. -/
def remove (idOf : α → ι) (l : List α) (id : ι) : List α := l.filter fun x => idOf x ≠ id

/-- Remove one after another, reporting for each whether it was there. -/
def removeAll (idOf : α → ι) : List α → List ι → List Bool × List α
  | l, [] => ([], l)
  | l, id :: ids =>
    let r := removeAll idOf (remove idOf l id) ids
    (has idOf l id :: r.1, r.2)

/-- What a call returns, with items instead of addresses. -/
inductive Ret (α : Type) where
  | unit
  | flag (b : Bool)
  | flags (bs : List Bool)
  | ref (x : α)
  | owned (x : Option α)
  deriving DecidableEq, Repr

def duplicate : Exc := .logicError "Insertion of duplicate ID into identifiable_item_collection"

/-- The same calls on the list. -/
def step (idOf : α → ι) (op : ItemCollection.Op ι α) (l : List α) : Outcome (Ret α) × List α :=
  match op with
  | .insert x => if has idOf l (idOf x) then (.throw duplicate, l) else (.ok .unit, l ++ [x])
  | .insertRange xs => (.ok .unit, (addAll idOf l xs).2)
  | .insertAll xs => (if (addUntil idOf l xs).1 then .ok .unit else .throw duplicate, (addUntil idOf l xs).2)
  | .tryInsert x => (.ok (.flag !has idOf l (idOf x)), add idOf l x)
  | .tryInsertAll xs => (.ok (.flags (addAll idOf l xs).1), (addAll idOf l xs).2)
  | .erase id => (.ok (.flag (has idOf l id)), remove idOf l id)
  | .eraseAll ids => (.ok (.flags (removeAll idOf l ids).1), (removeAll idOf l ids).2)
  | .emplace x =>
    if has idOf l (idOf x) then (.throw (.logicError "identifiable_item_collection already contains this ID"), l)
    else (.ok (.ref x), l ++ [x])
  | .excise id => (.ok (.owned (l.find? fun x => idOf x = id)), remove idOf l id)
  | .clear => (.ok .unit, [])
  | .modify id f => (.ok .unit, l.map fun x => if idOf x = id then f x else x)
  | .drop _ => (.ok .unit, l)

/-- The observers show the list. -/
def Shows (idOf : α → ι) (s : ItemCollection ι α) (l : List α) : Prop :=
  s.size = l.length ∧ s.isEmpty = l.isEmpty ∧ s.iterate = .ok l ∧
  (∀ id, s.contains id = has idOf l id) ∧
  (∀ id, s.atId id = match l.find? fun x => idOf x = id with
    | some x => .ok x
    | none => .throw (.outOfRange "identifiable_item_collection failed to retreive item by ID")) ∧
  (∀ i, s.atIndex i = match l[i]? with
    | some x => .ok x
    | none => .throw (.outOfRange "identifiable_item_collection failed to retreive item by index"))

/-- An outcome with addresses against an outcome with items, in the state after the call: a reference leads to the
item in the collection, an owned pointer to the item handed out. -/
def Matches (s : ItemCollection ι α) : Outcome Collections.ItemCollection.Ret → Outcome (Ret α) → Prop
  | .ok .unit, .ok .unit => True
  | .ok (.flag b), .ok (.flag c) => b = c
  | .ok (.flags b), .ok (.flags c) => b = c
  | .ok (.ref a), .ok (.ref x) => s.heap a = some x ∧ a ∈ s.ordered
  | .ok (.owned (some a)), .ok (.owned (some x)) => s.heap a = some x ∧ a ∈ s.outside ∧ a ∉ s.ordered
  | .ok (.owned none), .ok (.owned none) => True
  | .throw e, .throw e' => e = e'
  | _, _ => False

/-- Program and list agree at every moment of a program. -/
def Agrees (b : Build) (mem : Site → Nat → Bool) (idOf : α → ι) :
    List (ItemCollection.Op ι α) → ItemCollection ι α → List α → Prop
  | [], s, l => Shows idOf s l
  | op :: ops, s, l =>
    Shows idOf s l ∧
    Matches (Collections.ItemCollection.step b mem idOf op s).2 (Collections.ItemCollection.step b mem idOf op s).1 (step idOf op l).1 ∧
    Agrees b mem idOf ops (Collections.ItemCollection.step b mem idOf op s).2 (step idOf op l).2

end Wite.Spec.ItemCollection
