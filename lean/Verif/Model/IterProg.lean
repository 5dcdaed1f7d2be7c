import Verif.Model.Algorithms
import Verif.Model.ReverseIter
import Verif.Model.FragmentString

/-!
# Any algorithm over random-access iterators

A `Prog` is an algorithm as the standard library has them, written for random-access iterators of any type: what it
does next may depend on everything it has read, on distances and on comparisons, but not on what an iterator is made of.
It is a tree, so every run ends.  Iterators are kept in numbered variables; a new one is appended by `copy`, `+` and `-`.
(Assigning one variable to another is `copy` and using the new number from then on.)

The same `Prog` can be run over plain pointers into an array (`arrayIters`), over the iterators of a `static_vector`
(`vectorIters`), over its reverse iterators (`reverseIters`) and over the iterators of a `fragment_string`
(`fragmentIters`).  Functions passed to the algorithm (comparisons, predicates) do not throw and are part of the `Prog`.
-/

namespace Wite.Alg

/-- An algorithm that reads and writes elements of type `α` through iterators and returns a `β` (no counterpart in
`/repo`). -/
inductive Prog (α β : Type)
  | ret (x : β)
  | load (r : Nat) (k : α → Prog α β)
  | store (r : Nat) (x : α) (k : Prog α β)
  | copy (r : Nat) (k : Prog α β)
  | incr (r : Nat) (k : Prog α β)
  | decr (r : Nat) (k : Prog α β)
  | addAssign (r : Nat) (n : Int) (k : Prog α β)
  | subAssign (r : Nat) (n : Int) (k : Prog α β)
  | plus (r : Nat) (n : Int) (k : Prog α β)
  | minus (r : Nat) (n : Int) (k : Prog α β)
  | distance (r s : Nat) (k : Int → Prog α β)
  | equal (r s : Nat) (k : Bool → Prog α β)
  | compare (r s : Nat) (k : Ordering → Prog α β)
  | subscript (r : Nat) (n : Int) (k : α → Prog α β)

/-- The operations of iterators `ι` into a container in state `σ` (no counterpart in `/repo`). -/
structure Iters (σ ι α : Type) where
  /-- `*i` -/
  load : σ → ι → Outcome α
  /-- `*i = x` -/
  store : σ → ι → α → Outcome σ
  /-- `++i` -/
  incr : σ → ι → Outcome ι
  /-- `--i` -/
  decr : σ → ι → Outcome ι
  /-- `i += n` -/
  addAssign : σ → ι → Int → Outcome ι
  /-- `i -= n` -/
  subAssign : σ → ι → Int → Outcome ι
  /-- `i + n` -/
  plus : σ → ι → Int → Outcome ι
  /-- `i - n` -/
  minus : σ → ι → Int → Outcome ι
  /-- `i - j` -/
  distance : σ → ι → ι → Outcome Int
  /-- `i == j` -/
  equal : ι → ι → Bool
  /-- `i <=> j` -/
  compare : ι → ι → Outcome Ordering
  /-- `i[n]` -/
  subscript : σ → ι → Int → Outcome α

/-- The value of a variable; an algorithm that uses one it has not set is undefined. -/
def reg {ι : Type} (regs : List ι) (r : Nat) : Outcome ι :=
  match regs[r]? with
  | some i => .ok i
  | none => .ub

/-- Run an algorithm (no counterpart in `/repo`): the outcome and the state the container is left in. -/
def run {σ ι α β : Type} (I : Iters σ ι α) : Prog α β → List ι → St σ β
  | .ret x, _ => pure x
  | .load r k, regs => do
    let i ← St.lift (reg regs r)
    let s ← St.get
    let x ← St.lift (I.load s i)
    run I (k x) regs
  | .store r x k, regs => do
    let i ← St.lift (reg regs r)
    let s ← St.get
    let s' ← St.lift (I.store s i x)
    St.set s'
    run I k regs
  | .copy r k, regs => do
    let i ← St.lift (reg regs r)
    run I k (regs ++ [i])
  | .incr r k, regs => do
    let i ← St.lift (reg regs r)
    let s ← St.get
    let j ← St.lift (I.incr s i)
    run I k (regs.set r j)
  | .decr r k, regs => do
    let i ← St.lift (reg regs r)
    let s ← St.get
    let j ← St.lift (I.decr s i)
    run I k (regs.set r j)
  | .addAssign r n k, regs => do
    let i ← St.lift (reg regs r)
    let s ← St.get
    let j ← St.lift (I.addAssign s i n)
    run I k (regs.set r j)
  | .subAssign r n k, regs => do
    let i ← St.lift (reg regs r)
    let s ← St.get
    let j ← St.lift (I.subAssign s i n)
    run I k (regs.set r j)
  | .plus r n k, regs => do
    let i ← St.lift (reg regs r)
    let s ← St.get
    let j ← St.lift (I.plus s i n)
    run I k (regs ++ [j])
  | .minus r n k, regs => do
    let i ← St.lift (reg regs r)
    let s ← St.get
    let j ← St.lift (I.minus s i n)
    run I k (regs ++ [j])
  | .distance r q k, regs => do
    let i ← St.lift (reg regs r)
    let j ← St.lift (reg regs q)
    let s ← St.get
    let d ← St.lift (I.distance s i j)
    run I (k d) regs
  | .equal r q k, regs => do
    let i ← St.lift (reg regs r)
    let j ← St.lift (reg regs q)
    run I (k (I.equal i j)) regs
  | .compare r q k, regs => do
    let i ← St.lift (reg regs r)
    let j ← St.lift (reg regs q)
    let o ← St.lift (I.compare i j)
    run I (k o) regs
  | .subscript r n k, regs => do
    let i ← St.lift (reg regs r)
    let s ← St.get
    let x ← St.lift (I.subscript s i n)
    run I (k x) regs

/-- A pointer moved by `n` in an array of `len` elements: undefined before the first or beyond one past the last. -/
def arrayMove (len i : Nat) (n : Int) : Outcome Nat :=
  if 0 ≤ (i : Int) + n ∧ (i : Int) + n ≤ len then .ok ((i : Int) + n).toNat else .ub

/-- The element at an offset of an array. -/
def arrayGet {α : Type} (l : List α) (i : Nat) : Outcome α :=
  match l[i]? with
  | some x => .ok x
  | none => .ub

/-- Pointers into an array, given by their offsets (no counterpart in `/repo`: what C++ says of pointers). -/
def arrayIters (α : Type) : Iters (List α) Nat α where
  load := arrayGet
  store := fun l i x => if i < l.length then .ok (l.set i x) else .ub
  incr := fun l i => arrayMove l.length i 1
  decr := fun l i => arrayMove l.length i (-1)
  addAssign := fun l i n => arrayMove l.length i n
  subAssign := fun l i n => arrayMove l.length i (-n)
  plus := fun l i n => arrayMove l.length i n
  minus := fun l i n => arrayMove l.length i (-n)
  distance := fun _ i j => .ok ((i : Int) - j)
  equal := fun i j => decide (i = j)
  compare := fun i j => .ok (Ord.compare i j)
  subscript := fun l i n => arrayMove l.length i n >>= arrayGet l

/-- Pointers into an array of constants, of which `[]` is not used: assigning does not compile for iterators to constants,
nor does `[]` for the iterators below, which is `ub` here. -/
def constIters (α : Type) : Iters (List α) Nat α :=
  { arrayIters α with store := fun _ _ _ => .ub, subscript := fun _ _ _ => .ub }

open Wite.Collections in
/-- The iterators of a `static_vector` (dereferencing_iterator.hpp:158-259; static_vector.hpp:88-103). -/
def vectorIters (b : Build) (unspecified : DerefIter → DerefIter → Ordering) (α : Type) :
    Iters (StaticVector α) DerefIter α where
  load := DerefIter.deref
  store := fun v i x =>
    match DerefIter.deref v i with
    | .ok _ => .ok { v with data := v.data.set i.pos (some x) }
    | _ => .ub
  incr := fun v i => DerefIter.incr b v.data.length i
  decr := fun v i => DerefIter.decr b v.data.length i
  addAssign := fun v i n => DerefIter.addAssign b v.data.length n i
  subAssign := fun v i n => DerefIter.subAssign b v.data.length n i
  plus := fun v i n => DerefIter.plus b v.data.length i n
  minus := fun v i n => DerefIter.minus b v.data.length i n
  distance := fun _ i j => DerefIter.distance b i j
  equal := DerefIter.eq
  compare := DerefIter.cmp b unspecified
  subscript := DerefIter.subscript b

open Wite.Collections in
/-- The reverse iterators of a `static_vector` (static_vector.hpp:63-64 and 104-107); `r[n]` as libstdc++ and libc++
have it. -/
def reverseIters (b : Build) (unspecified : DerefIter → DerefIter → Ordering) (α : Type) :
    Iters (StaticVector α) RevIter α where
  load := fun v r => RevIter.deref b v.data.length v.index r
  store := fun v r x => do
    let t ← DerefIter.decr b v.data.length r.current
    match DerefIter.deref v t with
    | .ok _ => .ok { v with data := v.data.set t.pos (some x) }
    | _ => .ub
  incr := fun v r => RevIter.incr b v.data.length r
  decr := fun v r => RevIter.decr b v.data.length r
  addAssign := fun v r n => RevIter.addAssign b v.data.length n r
  subAssign := fun v r n => RevIter.subAssign b v.data.length n r
  plus := fun v r n => RevIter.plus b v.data.length r n
  minus := fun v r n => RevIter.minus b v.data.length r n
  distance := fun _ x y => RevIter.distance b x y
  equal := fun x y => !RevIter.ne x y
  compare := RevIter.cmp b unspecified
  subscript := fun v r n => RevIter.subscript b v.data.length v.index r n

open Wite.Collections in
/-- The iterators of an `identifiable_item_collection` (identifiable_item_collection.hpp:63-71,
dereferencing_iterator.hpp:30-161).  Its elements are pointers, which have no `value()`, so `[]`
(dereferencing_iterator.hpp:124-128) does not compile. -/
def collectionIters {κ : Type} (b : Build) (unspecified : DerefIter → DerefIter → Ordering) (α : Type) :
    Iters (ItemCollection κ α) DerefIter α where
  load := fun s i => RevIter.readItem s i.pos
  store := fun _ _ _ => .ub
  incr := fun s i => DerefIter.incr b s.ordered.length i
  decr := fun s i => DerefIter.decr b s.ordered.length i
  addAssign := fun s i n => DerefIter.addAssign b s.ordered.length n i
  subAssign := fun s i n => DerefIter.subAssign b s.ordered.length n i
  plus := fun s i n => DerefIter.plus b s.ordered.length i n
  minus := fun s i n => DerefIter.minus b s.ordered.length i n
  distance := fun _ i j => DerefIter.distance b i j
  equal := DerefIter.eq
  compare := DerefIter.cmp b unspecified
  subscript := fun _ _ _ => .ub

open Wite.Str in
/-- The iterators of a `fragment_string` (string/fragment_string.hpp:45-238).  They have no `operator[]`, and the
characters are constant. -/
def fragmentIters {C : Type} (b : Build) : Iters (FragStr C) It C where
  load := fun fs i => Str.deref b fs i
  store := fun _ _ _ => .ub
  incr := fun fs i => Str.incr b fs i
  decr := fun fs i => Str.decr b fs i
  addAssign := fun fs i n => Str.plus b fs i n
  subAssign := fun fs i n => Str.minus b fs i n
  plus := fun fs i n => Str.plus b fs i n
  minus := fun fs i n => Str.minus b fs i n
  distance := fun fs i j => .ok (Str.diff fs i j)
  equal := It.eq
  compare := fun i j => .ok (It.threeWay i j)
  subscript := fun _ _ _ => .ub

open Wite.Str in
/-- `std::reverse_iterator` of these (string/fragment_string.hpp:248-249, 295-298), given by its base. -/
def fragmentRevIters {C : Type} (b : Build) : Iters (FragStr C) It C where
  load := fun fs i => do
    let t ← Str.decr b fs i
    Str.deref b fs t
  store := fun _ _ _ => .ub
  incr := fun fs i => Str.decr b fs i
  decr := fun fs i => Str.incr b fs i
  addAssign := fun fs i n => Str.minus b fs i n
  subAssign := fun fs i n => Str.plus b fs i n
  plus := fun fs i n => Str.minus b fs i n
  minus := fun fs i n => Str.plus b fs i n
  distance := fun fs i j => .ok (Str.diff fs j i)
  equal := It.eq
  compare := fun i j => .ok (It.threeWay j i)
  subscript := fun _ _ _ => .ub

/-- Iterators into two containers (no counterpart in `/repo`).  Iterators of different containers are never equal;
comparing them in another way is `ub`, as it is for pointers into different arrays. -/
def bothIters {σ ι τ κ α : Type} (I : Iters σ ι α) (J : Iters τ κ α) : Iters (σ × τ) (ι ⊕ κ) α where
  load := fun s i =>
    match i with
    | .inl i => I.load s.1 i
    | .inr j => J.load s.2 j
  store := fun s i x =>
    match i with
    | .inl i => do let s' ← I.store s.1 i x; pure (s', s.2)
    | .inr j => do let t' ← J.store s.2 j x; pure (s.1, t')
  incr := fun s i =>
    match i with
    | .inl i => do let i' ← I.incr s.1 i; pure (.inl i')
    | .inr j => do let j' ← J.incr s.2 j; pure (.inr j')
  decr := fun s i =>
    match i with
    | .inl i => do let i' ← I.decr s.1 i; pure (.inl i')
    | .inr j => do let j' ← J.decr s.2 j; pure (.inr j')
  addAssign := fun s i n =>
    match i with
    | .inl i => do let i' ← I.addAssign s.1 i n; pure (.inl i')
    | .inr j => do let j' ← J.addAssign s.2 j n; pure (.inr j')
  subAssign := fun s i n =>
    match i with
    | .inl i => do let i' ← I.subAssign s.1 i n; pure (.inl i')
    | .inr j => do let j' ← J.subAssign s.2 j n; pure (.inr j')
  plus := fun s i n =>
    match i with
    | .inl i => do let i' ← I.plus s.1 i n; pure (.inl i')
    | .inr j => do let j' ← J.plus s.2 j n; pure (.inr j')
  minus := fun s i n =>
    match i with
    | .inl i => do let i' ← I.minus s.1 i n; pure (.inl i')
    | .inr j => do let j' ← J.minus s.2 j n; pure (.inr j')
  distance := fun s i j =>
    match i, j with
    | .inl i, .inl j => I.distance s.1 i j
    | .inr i, .inr j => J.distance s.2 i j
    | _, _ => .ub
  equal := fun i j =>
    match i, j with
    | .inl i, .inl j => I.equal i j
    | .inr i, .inr j => J.equal i j
    | _, _ => false
  compare := fun i j =>
    match i, j with
    | .inl i, .inl j => I.compare i j
    | .inr i, .inr j => J.compare i j
    | _, _ => .ub
  subscript := fun s i n =>
    match i with
    | .inl i => I.subscript s.1 i n
    | .inr j => J.subscript s.2 j n

/-- What an iterator type checks beyond what pointers require: for an operation at offset `i` of `len` elements, with
the number given to it, the message of the assertion that fails. -/
structure Extra where
  addAssign : (len i : Nat) → (n : Int) → Option String
  subAssign : (len i : Nat) → (n : Int) → Option String
  plus : (len i : Nat) → (n : Int) → Option String
  minus : (len i : Nat) → (n : Int) → Option String
  subscript : (len i : Nat) → (n : Int) → Option String

/-- The first of these checks that fails when an algorithm runs over plain pointers: the contents at that moment and
the message. -/
def firstCheck {α β : Type} (X : Extra) : Prog α β → List Nat → List α → Option (List α × String)
  | .ret _, _, _ => none
  | .load r k, regs, l =>
    match reg regs r >>= arrayGet l with
    | .ok x => firstCheck X (k x) regs l
    | _ => none
  | .store r x k, regs, l =>
    match reg regs r with
    | .ok i => firstCheck X k regs (l.set i x)
    | _ => none
  | .copy r k, regs, l =>
    match reg regs r with
    | .ok i => firstCheck X k (regs ++ [i]) l
    | _ => none
  | .incr r k, regs, l =>
    match reg regs r with
    | .ok i => firstCheck X k (regs.set r (i + 1)) l
    | _ => none
  | .decr r k, regs, l =>
    match reg regs r with
    | .ok i => firstCheck X k (regs.set r (i - 1)) l
    | _ => none
  | .addAssign r n k, regs, l =>
    match reg regs r with
    | .ok i =>
      match X.addAssign l.length i n with
      | some msg => some (l, msg)
      | none => firstCheck X k (regs.set r ((i : Int) + n).toNat) l
    | _ => none
  | .subAssign r n k, regs, l =>
    match reg regs r with
    | .ok i =>
      match X.subAssign l.length i n with
      | some msg => some (l, msg)
      | none => firstCheck X k (regs.set r ((i : Int) - n).toNat) l
    | _ => none
  | .plus r n k, regs, l =>
    match reg regs r with
    | .ok i =>
      match X.plus l.length i n with
      | some msg => some (l, msg)
      | none => firstCheck X k (regs ++ [((i : Int) + n).toNat]) l
    | _ => none
  | .minus r n k, regs, l =>
    match reg regs r with
    | .ok i =>
      match X.minus l.length i n with
      | some msg => some (l, msg)
      | none => firstCheck X k (regs ++ [((i : Int) - n).toNat]) l
    | _ => none
  | .distance r s k, regs, l =>
    match reg regs r, reg regs s with
    | .ok i, .ok j => firstCheck X (k ((i : Int) - j)) regs l
    | _, _ => none
  | .equal r s k, regs, l =>
    match reg regs r, reg regs s with
    | .ok i, .ok j => firstCheck X (k (decide (i = j))) regs l
    | _, _ => none
  | .compare r s k, regs, l =>
    match reg regs r, reg regs s with
    | .ok i, .ok j => firstCheck X (k (Ord.compare i j)) regs l
    | _, _ => none
  | .subscript r n k, regs, l =>
    match reg regs r with
    | .ok i =>
      match X.subscript l.length i n with
      | some msg => some (l, msg)
      | none =>
        match arrayGet l ((i : Int) + n).toNat with
        | .ok x => firstCheck X (k x) regs l
        | _ => none
    | _ => none

/-- What `static_vector` iterators check (dereferencing_iterator.hpp:86-128 and 218-254): no jump may end at `end()`,
and `[]` takes no negative numbers. -/
def vectorExtra : Extra where
  addAssign := fun len i n => if (i : Int) + n = len then some "static_vector::operator+=: incrementing past end" else none
  subAssign := fun len i n => if (i : Int) - n = len then some "static_vector::operator-=: incrementing past end" else none
  plus := fun len i n => if (i : Int) + n = len then some "static_vector::operator+: incrementing past end" else none
  minus := fun len i n => if (i : Int) - n = len then some "static_vector::operator-: incrementing past end" else none
  subscript := fun _ _ n => if n < 0 then some "static_vector::operator[]: negative indices are invalid" else none

/-- The same seen from reverse iterators (static_vector.hpp:104-107), whose offsets count from the other end: no jump may
end at `rbegin()`. -/
def reverseExtra : Extra where
  addAssign := fun _ i n => if (i : Int) + n = 0 then some "static_vector::operator-=: incrementing past end" else none
  subAssign := fun _ i n => if (i : Int) - n = 0 then some "static_vector::operator+=: incrementing past end" else none
  plus := fun _ i n => if (i : Int) + n = 0 then some "static_vector::operator-: incrementing past end" else none
  minus := fun _ i n => if (i : Int) - n = 0 then some "static_vector::operator+: incrementing past end" else none
  subscript := fun _ i n => if (i : Int) + n = 0 then some "static_vector::operator-: incrementing past end" else none

/-- No further checks. -/
def noExtra : Extra where
  addAssign := fun _ _ _ => none
  subAssign := fun _ _ _ => none
  plus := fun _ _ _ => none
  minus := fun _ _ _ => none
  subscript := fun _ _ _ => none

/-- Algorithms that move iterators by `++` and `--` only, as those for bidirectional iterators do (no counterpart in `/repo`). -/
def StepsOnly {α β : Type} : Prog α β → Prop
  | .ret _ => True
  | .load _ k => ∀ x, StepsOnly (k x)
  | .store _ _ k => StepsOnly k
  | .copy _ k => StepsOnly k
  | .incr _ k => StepsOnly k
  | .decr _ k => StepsOnly k
  | .addAssign _ _ _ => False
  | .subAssign _ _ _ => False
  | .plus _ _ _ => False
  | .minus _ _ _ => False
  | .distance _ _ k => ∀ d, StepsOnly (k d)
  | .equal _ _ k => ∀ e, StepsOnly (k e)
  | .compare _ _ k => ∀ o, StepsOnly (k o)
  | .subscript _ _ _ => False

end Wite.Alg
