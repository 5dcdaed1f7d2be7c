import Verif.Model.StaticVectorObjs

/-!
# Copying, moving and swapping `static_vector`s, with what happens to the objects in them

`Model/StaticVectorObjs.lean` follows the objects of one vector through `push_back`, `resize` and `clear`.  This file has programs with
several vectors that are also copied, moved, swapped and destroyed.  Copying, moving and assigning vectors is left to the members: the array
handles its optionals one by one, and these their objects ([array.overview], [optional.ctor], [optional.assign], [optional.swap]).

The simplifications are those of `Model/StaticVectorObjs.lean`; besides, assigning an object to itself and swapping it with itself leave its
value, and moving it onto itself leaves `self x` for `x`.
-/

namespace Wite.Collections

/-- The vectors of a program, its other variables, and what has been done to objects so far. -/
structure VecWorld (α : Type) where
  vecs : List (StaticVector α)
  vars : Nat → α
  events : List ObjEv

namespace VecWorld

variable {α : Type}

/-- Copy construction of an optional: `WITE_DEFAULT_CONSTRUCTORS` (static_vector.hpp:66) for one slot of `_data` (195). -/
def copySlot : Option α → List ObjEv
  | some _ => [.copy]
  | none => []

/-- Move construction of an optional (static_vector.hpp:66, 195). -/
def moveSlot : Option α → List ObjEv
  | some _ => [.move]
  | none => []

/-- Assignment of an optional to another (static_vector.hpp:66, 195): a held object is assigned to, made or destroyed. -/
def copyAssignSlot : Option α → Option α → List ObjEv
  | some _, some _ => [.copyAssign]
  | none, some _ => [.copy]
  | some _, none => [.destroy]
  | none, none => []

/-- Assignment of an optional that is moved from (static_vector.hpp:66, 195). -/
def moveAssignSlot : Option α → Option α → List ObjEv
  | some _, some _ => [.moveAssign]
  | none, some _ => [.move]
  | some _, none => [.destroy]
  | none, none => []

/-- `swap` of two optionals (static_vector.hpp:84): two objects are swapped, a single one is moved across. -/
def swapSlot : Option α → Option α → List ObjEv
  | some _, some _ => [.swap]
  | none, some _ => [.move, .destroy]
  | some _, none => [.move, .destroy]
  | none, none => []

/-- What is done to the objects in the slots of two arrays, one pair after another. -/
def pairwise (f : Option α → Option α → List ObjEv) (a b : List (Option α)) : List ObjEv := (List.zipWith f a b).flatten

/-- Record what is done. -/
def log (es : List ObjEv) (w : VecWorld α) : VecWorld α := { w with events := w.events ++ es }

/-- The statements of a program. -/
inductive Op where
  /-- `auto y = x_i;` -/
  | copyMake (i : Nat)
  /-- `auto y = std::move(x_i);` -/
  | moveMake (i : Nat)
  /-- `x_i = x_j;` -/
  | copyAssign (i j : Nat)
  /-- `x_i = std::move(x_j);` -/
  | moveAssign (i j : Nat)
  /-- `x_i.swap(x_j);` -/
  | swap (i j : Nat)
  /-- `push_back`, `resize` or `clear` of `x_i` -/
  | call (i : Nat) (op : ObjVec.Op)
  /-- the end of the vector made last -/
  | leave

/-- Copy construction (static_vector.hpp:66): all slots are copied. -/
def copyMake (v : StaticVector α) (w : VecWorld α) : VecWorld α :=
  { w with vecs := w.vecs ++ [v] }.log (v.data.flatMap copySlot)

/-- Move construction (static_vector.hpp:66): all slots are moved, and the count is copied. -/
def moveMake (mv : α → α) (i : Nat) (v : StaticVector α) (w : VecWorld α) : VecWorld α :=
  { w with vecs := w.vecs.set i (v.movedFrom mv) ++ [v] }.log (v.data.flatMap moveSlot)

/-- Copy assignment (static_vector.hpp:66). -/
def copyAssign (i : Nat) (v u : StaticVector α) (w : VecWorld α) : VecWorld α :=
  { w with vecs := w.vecs.set i u }.log (pairwise copyAssignSlot v.data u.data)

/-- Move assignment (static_vector.hpp:66), of another vector or the vector itself. -/
def moveAssign (mv self : α → α) (i j : Nat) (v u : StaticVector α) (w : VecWorld α) : VecWorld α :=
  (if i = j then { w with vecs := w.vecs.set i (u.movedFrom self) }
    else { w with vecs := (w.vecs.set i u).set j (u.movedFrom mv) }).log (pairwise moveAssignSlot v.data u.data)

/-- `swap` (static_vector.hpp:81-86). -/
def swap (i j : Nat) (v u : StaticVector α) (w : VecWorld α) : VecWorld α :=
  { w with vecs := (w.vecs.set i (StaticVector.swap v u).1).set j (StaticVector.swap v u).2 }.log (pairwise swapSlot v.data u.data)

/-- A call of a member function of one vector (static_vector.hpp:141-163). -/
def call (d : α) (mv : α → α) (i : Nat) (v : StaticVector α) (op : ObjVec.Op) (w : VecWorld α) : Outcome Unit × VecWorld α :=
  let r := ObjVec.step d mv op ⟨v, w.vars, w.events⟩
  (r.1, ⟨w.vecs.set i r.2.vec, r.2.vars, r.2.events⟩)

/-- The end of the last vector: the implicit destructor (static_vector.hpp:195). -/
def leave (w : VecWorld α) : VecWorld α :=
  match w.vecs.getLast? with
  | none => w
  | some v => { w with vecs := w.vecs.dropLast }.log (v.data.flatMap fun o => if Option.isSome o then [.destroy] else [])

/-- One statement (static_vector.hpp:66-163).  A program names only vectors that there are. -/
def step (d : α) (mv self : α → α) (op : Op) : St (VecWorld α) Unit := fun w =>
  match op with
  | .copyMake i =>
    match w.vecs[i]? with
    | some v => (.ok (), copyMake v w)
    | none => (.ok (), w)
  | .moveMake i =>
    match w.vecs[i]? with
    | some v => (.ok (), moveMake mv i v w)
    | none => (.ok (), w)
  | .copyAssign i j =>
    match w.vecs[i]?, w.vecs[j]? with
    | some v, some u => (.ok (), copyAssign i v u w)
    | _, _ => (.ok (), w)
  | .moveAssign i j =>
    match w.vecs[i]?, w.vecs[j]? with
    | some v, some u => (.ok (), moveAssign mv self i j v u w)
    | _, _ => (.ok (), w)
  | .swap i j =>
    match w.vecs[i]?, w.vecs[j]? with
    | some v, some u => (.ok (), swap i j v u w)
    | _, _ => (.ok (), w)
  | .call i op =>
    match w.vecs[i]? with
    | some v => call d mv i v op w
    | none => (.ok (), w)
  | .leave => (.ok (), leave w)

end VecWorld

end Wite.Collections
