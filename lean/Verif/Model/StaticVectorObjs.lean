import Verif.Model.StaticVector

/-!
# `wite/collections/static_vector.hpp` with objects as arguments

`Model/StaticVector.lean` passes values to `push_back` and `resize`.  Here the argument is an object: a variable of the
program or an element of the vector itself, handed over as it is or through `std::move`.  The model records, in order, what is
done to objects of the element type: the parameters and temporaries of the member functions as well as the elements.

None of these operations throws (`Model/StaticVectorThrow.lean` has exceptions).  Copying and moving give the new object the
value of the old one; moving leaves the value `mv x` where `x` was.  The element type is not trivially copyable, so that an
optional really calls its operations.
-/

namespace Wite.Collections

/-- What is done to an object of the element type. -/
inductive ObjEv where
  /-- `value_type{}` -/
  | default
  /-- construction from an lvalue -/
  | copy
  /-- construction from an rvalue -/
  | move
  /-- assignment of an rvalue -/
  | moveAssign
  | destroy
  /-- assignment of an lvalue -/
  | copyAssign
  /-- `swap` of two objects -/
  | swap
  deriving DecidableEq, Repr

/-- The object an argument names. -/
inductive ObjRef where
  /-- a variable of the program -/
  | var (i : Nat)
  /-- `v[k]` -/
  | elem (k : Nat)
  deriving DecidableEq, Repr

/-- An argument: the object itself, or `std::move` of it. -/
structure ObjArg where
  moved : Bool
  ref : ObjRef
  deriving DecidableEq, Repr

/-- A vector (static_vector.hpp:195-196), the variables of the program, and what has been done to objects so far. -/
structure ObjVec (α : Type) where
  vec : StaticVector α
  vars : Nat → α
  events : List ObjEv

namespace ObjVec

variable {α : Type}

/-- Record what is done. -/
def log (es : List ObjEv) (s : ObjVec α) : ObjVec α := { s with events := s.events ++ es }

/-- The value of the object a reference names; there is no element outside the array or in an empty optional. -/
def read (s : ObjVec α) : ObjRef → Outcome α
  | .var i => .ok (s.vars i)
  | .elem k => s.vec.index k

/-- The object changes its value. -/
def write (s : ObjVec α) (x : α) : ObjRef → ObjVec α
  | .var i => { s with vars := StaticVector.assign s.vars i x }
  | .elem k => { s with vec := { s.vec with data := s.vec.data.set k (some x) } }

/-- Initialise the parameter `value` (static_vector.hpp:149, called at 157 and 159) from the argument. -/
def param (mv : α → α) (a : ObjArg) (s : ObjVec α) : Outcome (α × ObjVec α) := do
  let x ← s.read a.ref
  pure (if a.moved then (x, (s.write (mv x) a.ref).log [.move]) else (x, s.log [.copy]))

/-- The loop of `std::generate_n` in `_alloc` (static_vector.hpp:177): an optional with a copy of the parameter is made and
assigned to the slot, which moves the copy into the element there, or makes an element of it if there is none; then the
optional is destroyed. -/
def fill (x : α) : Nat → Nat → ObjVec α → Outcome (ObjVec α)
  | _, 0, s => .ok s
  | pos, n + 1, s =>
    match s.vec.data[pos]? with
    | none => .ub
    | some old => fill x (pos + 1) n
        ({ s with vec := { s.vec with data := s.vec.data.set pos (some x) } }.log
          [.copy, if old.isSome then .moveAssign else .move, .destroy])

/-- `_alloc` (static_vector.hpp:176-178): its parameter is moved into and destroyed at the end. -/
def alloc (n : Nat) (x : α) (s : ObjVec α) : Outcome (ObjVec α) := do
  let t ← fill x s.vec.count n (s.log [.move])
  pure (t.log [.destroy])

/-- The loop of `_destroy_last_n` (static_vector.hpp:182): reset the `n` optionals before `pos`, last first. -/
def reset : Nat → Nat → ObjVec α → Outcome (ObjVec α)
  | _, 0, s => .ok s
  | 0, _ + 1, _ => .ub
  | pos + 1, n + 1, s =>
    match s.vec.data[pos]? with
    | none => .ub
    | some old => reset pos n
        ({ s with vec := { s.vec with data := s.vec.data.set pos none } }.log (if old.isSome then [.destroy] else []))

/-- The body of `_unsafe_resize` (static_vector.hpp:186-192) with the value `x` in its parameter. -/
def unsafeResize (n : Nat) (x : α) (s : ObjVec α) : Outcome (ObjVec α) := do
  let t ←
    if n > s.vec.size then alloc (n - s.vec.size) x s
    else if n < s.vec.size then reset s.vec.count (s.vec.size - n) s
    else pure s
  pure { t with vec := { t.vec with count := n } }

/-- The state after a call: what it did to the vector is kept if it returns. -/
def finish (s : ObjVec α) : Outcome (ObjVec α) → Outcome Unit × ObjVec α
  | .ok t => (.ok (), t)
  | .throw e => (.throw e, s)
  | .ub => (.ub, s)
  | .terminate => (.terminate, s)
  | .diverge => (.diverge, s)

/-- `resize` with a fill value (static_vector.hpp:149-155): the parameter is initialised before anything is checked, moved into
the parameter of `_unsafe_resize`, and both are destroyed in the end. -/
def resize (mv : α → α) (n : Nat) (a : ObjArg) : St (ObjVec α) Unit := fun s =>
  match param mv a s with
  | .ok (x, t) =>
    if n > t.vec.capacity then
      (.throw (.lengthError "static_vector: new size exceeds max size"), t.log [.destroy])
    else finish t (do
      let u ← unsafeResize n x (t.log [.move])
      pure (u.log [.destroy, .destroy]))
  | .throw e => (.throw e, s)
  | .ub => (.ub, s)
  | .terminate => (.terminate, s)
  | .diverge => (.diverge, s)

/-- `resize` without a fill value (static_vector.hpp:141-147): the parameter of `_unsafe_resize` is its default argument (185),
here `d`, made after the check. -/
def resizeDefault (d : α) (n : Nat) : St (ObjVec α) Unit := fun s =>
  if n > s.vec.capacity then
    (.throw (.lengthError "static_vector: new size exceeds max size"), s)
  else finish s (do
    let u ← unsafeResize n d (s.log [.default])
    pure (u.log [.destroy]))

/-- `push_back` of an lvalue or an rvalue (static_vector.hpp:157-159). -/
def pushBack (mv : α → α) (a : ObjArg) : St (ObjVec α) Unit := fun s => resize mv ((s.vec.size + 1) % 2 ^ 64) a s

/-- `clear` (static_vector.hpp:163): sets the count and touches no element. -/
def clear : St (ObjVec α) Unit := fun s => (.ok (), { s with vec := s.vec.clear })

/-- The end of the vector's life (the implicit destructor, static_vector.hpp:195): every optional that holds an element
destroys it. -/
def destruct (s : ObjVec α) : ObjVec α :=
  { s with vec := ⟨s.vec.data.map fun _ => none, 0⟩ }.log (s.vec.data.flatMap fun o => if Option.isSome o then [.destroy] else [])

/-- The calls of a program on one vector. -/
inductive Op where
  | pushBack (a : ObjArg)
  | resize (n : Nat) (a : ObjArg)
  | resizeDefault (n : Nat)
  | clear

/-- One call (static_vector.hpp:141-163). -/
def step (d : α) (mv : α → α) : Op → St (ObjVec α) Unit
  | .pushBack a => pushBack mv a
  | .resize n a => resize mv n a
  | .resizeDefault n => resizeDefault d n
  | .clear => clear

end ObjVec

end Wite.Collections
