import Verif.Model.StaticLookup
import Verif.Model.NumTy

/-!
# Model of `wite/collections/static_lookup.hpp`: arguments of several types

The constructor, the deduction guide and `make_static_lookup` with pairs of number types that need not be the same, and
`at` and `with` with an argument of another number type.  Of other types of keys and values nothing is said here.
-/

namespace Wite.Collections

open Wite.Maths

/-- The type of an argument: `std::pair<first, second>`. -/
structure PairTy where
  first : NumTy
  second : NumTy

/-- An argument: a pair of some type. -/
structure PairArg where
  ty : PairTy
  key : ty.first.Val
  value : ty.second.Val

namespace LookupCalls

/-- `common::common_type_t` (common/concepts.hpp:99-108): the first type.  Whether the others are the same is the value of
`all_types_are_the_same`, which is not asked for.  Without types the name is ill-formed. -/
def commonType : List PairTy → Option PairTy
  | [] => none
  | t :: _ => some t

/-- Whether `static_lookup<K, V, count>(args...)` compiles (static_lookup.hpp:27-28 and 42-46): the common type is
`std::pair<K, V>` and the count is right.  (`_init` takes the other arguments by conversion, static_lookup.hpp:58-66, which is
possible between number types.) -/
def ctorAccepts (k v : NumTy) (count : Nat) (ts : List PairTy) : Prop :=
  commonType ts = some ⟨k, v⟩ ∧ ts.length = count

/-- The type `static_lookup(args...)` has without template arguments (static_lookup.hpp:88-93). -/
def deduced (ts : List PairTy) : Option PairTy := commonType ts

/-- Whether `make_static_lookup(first, others...)` compiles (static_lookup.hpp:97-103): the first type is the common type of the
others. -/
def makeAccepts : List PairTy → Prop
  | [] => False
  | t :: ts => commonType ts = some t

/-- A pair converted to `std::pair<K, V>`: the members one by one. -/
def convertPair (k v : NumTy) (a : PairArg) : Outcome (k.Val × v.Val) := do
  let x ← a.ty.first.convert k a.key
  let y ← a.ty.second.convert v a.value
  pure (x, y)

/-- The pairs after conversion, in the order of the arguments (static_lookup.hpp:58-66). -/
def convertAll (k v : NumTy) : List PairArg → Outcome (List (k.Val × v.Val))
  | [] => .ok []
  | a :: as => do
    let p ← convertPair k v a
    let ps ← convertAll k v as
    pure (p :: ps)

/-- The lookup constructed from the arguments (static_lookup.hpp:42-46 and 97-103). -/
def construct (k v : NumTy) (blank : k.Val × v.Val) (args : List PairArg) : Outcome (StaticLookup k.Val v.Val) := do
  let ps ← convertAll k v args
  pure (StaticLookup.make blank ps)

/-- `at(x)` with an argument of type `s` (static_lookup.hpp:49-52): the parameter is bound to the converted key. -/
def atArg (k v s : NumTy) (t : StaticLookup k.Val v.Val) (x : s.Val) : Outcome v.Val := do
  let key ← s.convert k x
  StaticLookup.at' k.eqv t key

/-- `with(x)` with an argument of type `s` (static_lookup.hpp:53-55). -/
def withArg (k v s : NumTy) (t : StaticLookup k.Val v.Val) (x : s.Val) : Outcome k.Val := do
  let value ← s.convert v x
  StaticLookup.with' v.eqv t value

end LookupCalls

end Wite.Collections
