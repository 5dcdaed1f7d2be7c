import Verif.Model.StaticVector

/-!
# A bounded list, the intended behaviour of `static_vector`
-/

namespace Wite.Spec.StaticVector

open Wite.Collections

/-- The message with which the capacity is refused. -/
def tooLong : Outcome Unit := .throw (.lengthError "static_vector: new size exceeds max size")

/-- A list cut or extended to `n` elements. -/
def resized {α : Type} (l : List α) (n : Nat) (x : α) : List α := l.take n ++ List.replicate (n - l.length) x

/-- The same calls on ordinary lists. -/
def step {α : Type} (cap : Nat) (d : α) (mv : α → α) (op : StaticVector.Op α) (ls : Nat → List α) :
    Outcome Unit × (Nat → List α) :=
  let put (i : Nat) (l : List α) : Nat → List α := fun k => if k = i then l else ls k
  match op with
  | .make i => (.ok (), put i [])
  | .ofList i init =>
    if init.length ≤ cap then (.ok (), put i init)
    else (.throw (.invalidArgument "Too many initialisation elements"), ls)
  | .pushBack i x => if (ls i).length < cap then (.ok (), put i (ls i ++ [x])) else (tooLong, ls)
  | .resize i n x => if n ≤ cap then (.ok (), put i (resized (ls i) n x)) else (tooLong, ls)
  | .resizeDefault i n => if n ≤ cap then (.ok (), put i (resized (ls i) n d)) else (tooLong, ls)
  | .clear i => (.ok (), put i [])
  | .setAt i pos x =>
    if pos < (ls i).length then (.ok (), put i ((ls i).set pos x))
    else (.throw (.outOfRange "Static vector access violation"), ls)
  | .swap i j => (.ok (), fun k => if k = j then ls i else if k = i then ls j else ls k)
  | .copy i j => (.ok (), put i (ls j))
  | .move i j => (.ok (), fun k => if k = j then (ls j).map mv else if k = i then ls j else ls k)

/-- The calls one after another: the outcomes and the lists at the end. -/
def history {α : Type} (cap : Nat) (d : α) (mv : α → α) :
    List (StaticVector.Op α) → (Nat → List α) → List (Outcome Unit) × (Nat → List α)
  | [], ls => ([], ls)
  | op :: ops, ls =>
    let (o, ls') := step cap d mv op ls
    let (os, ls'') := history cap d mv ops ls'
    (o :: os, ls'')

/-- The observers of a vector show the list `l`. -/
def Shows {α : Type} (cap : Nat) (v : StaticVector α) (l : List α) : Prop :=
  v.size = l.length ∧ v.capacity = cap ∧ v.isEmpty = l.isEmpty ∧ v.iterate = .ok l ∧
  (∀ i, v.at' i = match l[i]? with
    | some x => .ok x
    | none => .throw (.outOfRange "Static vector access violation")) ∧
  (∀ i x, l[i]? = some x → v.index i = .ok x) ∧
  (v.front = match l.head? with
    | some x => .ok x
    | none => .throw (.outOfRange "Static vector access violation")) ∧
  (v.back = match l.getLast? with
    | some x => .ok x
    | none => .throw (.outOfRange "Static vector access violation"))

end Wite.Spec.StaticVector
