import Verif.Model.State

/-!
# Model of `wite/collections/static_lookup.hpp` and `wite/collections/make_vector.hpp`

`static_lookup`: an array of pairs searched linearly.  Equality of keys and values is given by Boolean
functions, the user's `operator==`.

`make_vector`: a vector is its contents and its capacity.  How the standard library grows a vector is a
parameter; allocation failure is not modelled, exceeding `max_size()` is.
-/

namespace Wite.Collections

/-- The member (static_lookup.hpp:83). -/
structure StaticLookup (κ ν : Type) where
  items : List (κ × ν)
  deriving DecidableEq, Repr

namespace StaticLookup

variable {κ ν : Type}

/-- `_init` (static_lookup.hpp:58-66): the first of the remaining mappings goes to the position
`ITEM_COUNT - (number of the others) - 1`. -/
def init (count : Nat) : List (κ × ν) → List (κ × ν) → List (κ × ν)
  | items, [] => items
  | items, element :: others => init count (items.set (count - others.length - 1) element) others

/-- Constructor (static_lookup.hpp:42-46) and `make_static_lookup` (static_lookup.hpp:97-103); `blank` is the
value-initialised pair the array is filled with at first. -/
def make (blank : κ × ν) (mappings : List (κ × ν)) : StaticLookup κ ν :=
  ⟨init mappings.length (List.replicate mappings.length blank) mappings⟩

/-- `size` (static_lookup.hpp:48). -/
def size (t : StaticLookup κ ν) : Nat := t.items.length

/-- `get` (static_lookup.hpp:68-76): `std::ranges::find_if` for the element whose target component equals the
argument, then its other component. -/
def get {τ ρ : Type} (eq : τ → τ → Bool) (target : κ × ν → τ) (result : κ × ν → ρ) (t : StaticLookup κ ν) (x : τ) :
    Outcome ρ :=
  match t.items.find? fun p => eq (target p) x with
  | none => .throw (.outOfRange "Invalid item")
  | some p => .ok (result p)

/-- `at` (static_lookup.hpp:49-52). -/
def at' (eq : κ → κ → Bool) (t : StaticLookup κ ν) (k : κ) : Outcome ν := get eq Prod.fst Prod.snd t k

/-- `with` (static_lookup.hpp:53-55). -/
def with' (eq : ν → ν → Bool) (t : StaticLookup κ ν) (v : ν) : Outcome κ := get eq Prod.snd Prod.fst t v

/-- Assignment through the reference returned by the non-const `at` (static_lookup.hpp:52 and 78-81). -/
def setAt (eq : κ → κ → Bool) (k : κ) (v : ν) : St (StaticLookup κ ν) Unit := fun t =>
  match t.items.findIdx? fun p => eq p.1 k with
  | none => (.throw (.outOfRange "Invalid item"), t)
  | some i => (.ok (), ⟨t.items.modify i fun p => (p.1, v)⟩)

end StaticLookup

/-- A `std::vector`: contents and capacity. -/
structure Vec (α : Type) where
  contents : List α
  capacity : Nat
  deriving DecidableEq, Repr

/-- The arguments of `make_vector` (make_vector.hpp:17-30). -/
inductive VecArg (α : Type) where
  /-- `arg::reserve` -/
  | reserve (value : Nat)
  /-- `arg::size<T>` -/
  | size (value : Nat) (initialiseTo : α)
  deriving DecidableEq, Repr

namespace Vec

variable {α : Type}

/-- How a vector gets a capacity for `n` elements: `grow old n`. -/
structure Growth where
  grow : Nat → Nat → Nat
  enough : ∀ c n, n ≤ grow c n

/-- Make sure of a capacity for `n` elements. -/
def ensure (g : Growth) (maxSize n : Nat) (v : Vec α) : Outcome (Vec α) :=
  if n > maxSize then .throw (.lengthError "vector")
  else if n > v.capacity then .ok { v with capacity := g.grow v.capacity n }
  else .ok v

/-- `std::vector::resize` with a fill value. -/
def resize (g : Growth) (maxSize n : Nat) (x : α) (v : Vec α) : Outcome (Vec α) := do
  let v' ← ensure g maxSize n v
  pure { v' with contents := v'.contents.take n ++ List.replicate (n - v'.contents.length) x }

/-- One argument of `make_vector` (make_vector.hpp:36-38). -/
def applyArg (g : Growth) (maxSize : Nat) (v : Vec α) : VecArg α → Outcome (Vec α)
  | .reserve n => ensure g maxSize n v
  | .size n x => resize g maxSize n x v

/-- The arguments one after another (make_vector.hpp:36-40: a fold over the comma operator). -/
def applyArgs (g : Growth) (maxSize : Nat) : Vec α → List (VecArg α) → Outcome (Vec α)
  | v, [] => .ok v
  | v, a :: as => do
    let v' ← applyArg g maxSize v a
    applyArgs g maxSize v' as

/-- `make_vector` (make_vector.hpp:32-43). -/
def make (g : Growth) (maxSize : Nat) (args : List (VecArg α)) : Outcome (Vec α) := applyArgs g maxSize ⟨[], 0⟩ args

end Vec

end Wite.Collections
