import Verif.Model.Numeric

/-!
# What the results of `min`, `max` and `minmax` refer to

Model/Numeric.lean gives the *values* of the results.  Here the arguments are objects: an argument is
a cell that holds a value as long as the object lives, temporaries die at the end of the full
expression, and a result is either a pair of values or a pair of references to cells.  Which of the
overloads of maths/numeric.hpp:95-123 a call means depends on whether the type is "plain"
(`common::is_pod_like`, common/concepts.hpp:31), on the number of arguments, and on how they are
passed.

Not modelled here: that for types of namespace `std` argument-dependent lookup adds `std::min` and
`std::max` to the candidates of the unqualified calls inside; Model/NumericCalls.lean does.
-/

namespace Wite.Maths.Ref

/-- The objects of the program: `none` for a cell whose object has been destroyed. -/
abbrev Store (α : Type) := Nat → Option α

/-- An argument: where the object is, whether it is a temporary (an rvalue), and whether it is
`const`. -/
structure Arg where
  cell : Nat
  temporary : Bool
  isConst : Bool := false
  deriving DecidableEq, Repr

variable {α : Type}

/-- Reading through a reference: undefined if the object is gone. -/
def load (st : Store α) (c : Nat) : Outcome α :=
  match st c with
  | some v => .ok v
  | none => .ub

/-- Reading the arguments, for parameters taken by value (maths/numeric.hpp:45, 84, 107-108). -/
def loadAll (st : Store α) : List Arg → Outcome (List α)
  | [] => pure []
  | a :: as => do
    let v ← load st a.cell
    let vs ← loadAll st as
    pure (v :: vs)

/-- `std::min(a, b)` returns a reference to one of its arguments. -/
def cellMin [LT α] [DecidableLT α] (st : Store α) (a b : Nat) : Outcome Nat := do
  let x ← load st a
  let y ← load st b
  pure (if y < x then b else a)

/-- `std::max(a, b)` returns a reference to one of its arguments. -/
def cellMax [LT α] [DecidableLT α] (st : Store α) (a b : Nat) : Outcome Nat := do
  let x ← load st a
  let y ← load st b
  pure (if x < y then b else a)

/-- `min(first, others...)` on objects (maths/numeric.hpp:56-67): the argument it selects. -/
def refMin [LT α] [DecidableLT α] (st : Store α) : Nat → Nat → List Nat → Outcome Nat
  | a, b, [] => cellMin st a b
  | a, b, c :: cs => do
    let r ← refMin st b c cs
    cellMin st a r

/-- `max(first, others...)` on objects (maths/numeric.hpp:69-80): the argument it selects. -/
def refMax [LT α] [DecidableLT α] (st : Store α) : Nat → Nat → List Nat → Outcome Nat
  | a, b, [] => cellMax st a b
  | a, b, c :: cs => do
    let r ← refMax st b c cs
    cellMax st a r

/-- The three overloads of `minmax`. -/
inductive Form
  /-- maths/numeric.hpp:95-103: two forwarding references, a pair of references -/
  | two
  /-- maths/numeric.hpp:105-113: parameters and results by value -/
  | values
  /-- maths/numeric.hpp:115-123: parameters and results are references to const -/
  | refs
  deriving DecidableEq, Repr

/-- The overload a call of `minmax` means.  The first needs two arguments from which the same `Value_T`
is deduced: both temporaries or both variables, equally `const`.  Its constraint
`not is_pod_like<Value_T>` (line 96) is about the deduced type, which for variables is a reference
type and never plain; being more specialised than the overload taking a pack by value, it is chosen
for variables of every type.  Otherwise the type decides (lines 106 and 116). -/
def form (plain : Bool) (a b : Arg) (rest : List Arg) : Form :=
  if rest = [] ∧ a.temporary = b.temporary ∧ a.isConst = b.isConst ∧ ¬ (plain ∧ a.temporary) then .two
  else if plain then .values
  else .refs

/-- The result of `minmax`: a pair of values or a pair of references. -/
inductive MinMax (α : Type)
  | vals (lo hi : α)
  | refs (lo hi : Nat)
  deriving DecidableEq, Repr

/-- Using `first` and `second` of the result. -/
def MinMax.read (st : Store α) : MinMax α → Outcome (α × α)
  | .vals lo hi => .ok (lo, hi)
  | .refs lo hi => do
    let x ← load st lo
    let y ← load st hi
    pure (x, y)

/-- `minmax(a, b, rest...)` (maths/numeric.hpp:95-123). -/
def minmax [LT α] [DecidableLT α] [LE α] [DecidableLE α] (plain : Bool) (st : Store α) (a b : Arg)
    (rest : List Arg) : Outcome (MinMax α) :=
  match form plain a b rest with
  | .two => do
    let x ← load st a.cell
    let y ← load st b.cell
    pure (if x ≤ y then .refs a.cell b.cell else .refs b.cell a.cell)
  | .values => do
    let x ← load st a.cell
    let y ← load st b.cell
    let vs ← loadAll st rest
    pure (.vals (vmin x y vs) (vmax x y vs))
  | .refs => do
    let lo ← refMin st a.cell b.cell (rest.map Arg.cell)
    let hi ← refMax st a.cell b.cell (rest.map Arg.cell)
    pure (.refs lo hi)

/-- The end of the full expression that contains the call: its temporaries are destroyed. -/
def endExpr (args : List Arg) (st : Store α) : Store α :=
  fun c => if args.any (fun a => a.temporary && a.cell == c) then none else st c

/-- Assigning to the variable in a cell. -/
def assign (st : Store α) (c : Nat) (v : α) : Store α := fun d => if d = c then some v else st d

/-- The result of `min` or `max`: `FirstValue_T` is a value for plain types and for temporaries, and a
reference to const for `const` variables (maths/numeric.hpp:58, 71). -/
inductive One (α : Type)
  | val (v : α)
  | ref (c : Nat)
  deriving DecidableEq, Repr

/-- Using the result of `min` or `max`. -/
def One.read (st : Store α) : One α → Outcome α
  | .val v => .ok v
  | .ref c => load st c

/-- Whether a call of `min` or `max` compiles: plain types always do; for other types all arguments must
be passed alike (line 59-60), and for variables that are not `const` the reference to const returned
by `std::min` does not convert to the `T&` to be returned. -/
def oneCompiles (plain : Bool) (a b : Arg) (rest : List Arg) : Bool :=
  plain || ((b :: rest).all (fun c => c.temporary == a.temporary && c.isConst == a.isConst) &&
    (a.temporary || a.isConst))

/-- `min(a, b, rest...)` for calls that compile (maths/numeric.hpp:43-67). -/
def min [LT α] [DecidableLT α] (plain : Bool) (st : Store α) (a b : Arg) (rest : List Arg) : Outcome (One α) :=
  if plain then do
    let x ← load st a.cell
    let y ← load st b.cell
    let vs ← loadAll st rest
    pure (.val (vmin x y vs))
  else do
    let c ← refMin st a.cell b.cell (rest.map Arg.cell)
    if a.temporary then do
      let v ← load st c
      pure (.val v)
    else pure (.ref c)

/-- `max(a, b, rest...)` for calls that compile (maths/numeric.hpp:69-93). -/
def max [LT α] [DecidableLT α] (plain : Bool) (st : Store α) (a b : Arg) (rest : List Arg) : Outcome (One α) :=
  if plain then do
    let x ← load st a.cell
    let y ← load st b.cell
    let vs ← loadAll st rest
    pure (.val (vmax x y vs))
  else do
    let c ← refMax st a.cell b.cell (rest.map Arg.cell)
    if a.temporary then do
      let v ← load st c
      pure (.val v)
    else pure (.ref c)

end Wite.Maths.Ref
