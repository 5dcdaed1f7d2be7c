import Verif.Model.ResultCalls

/-!
# Model of `wite/core/overload.hpp`

An `overloaded` made of functions with one parameter each, called with an object or given to `std::visit`.  Which function is called is
decided by the overload resolution of C++20 ([over.match.best], [over.ics.rank]): no conversion is better than a promotion, a promotion is
better than any other conversion; of two functions for which nothing is to be converted one that is not a template is better.
Simplifications: the parameters are of the form `T`, `const T&`, `auto` or `const auto&` with a number type or another type without
conversions from other types; number types as in `ResultCalls`; all functions return the same type; a variant always holds
one of its alternatives (`std::visit` throws for one that was left without a value by an exception).
-/

namespace Wite

open Wite.Maths Wite.ResultCalls

/-- The type of an alternative or a parameter: a number type, or one of the other types (classes, `enum class`es), which are numbered. -/
inductive HeldTy where
  | num (t : NumTy)
  | cls (n : Nat)
  deriving DecidableEq

/-- The objects of the type; `C n` are those of the other type with number `n`. -/
def HeldTy.Val (C : Nat → Type) : HeldTy → Type
  | .num t => t.Val
  | .cls n => C n

/-- A function given to `overloaded`: with a parameter of a type, or with an `auto` parameter. -/
inductive OverFn (C : Nat → Type) (R : Type) where
  | typed (t : HeldTy) (body : t.Val C → Outcome R)
  | generic (body : (t : HeldTy) → t.Val C → Outcome R)

namespace Overload

variable {C : Nat → Type} {R : Type}

/-- The type of the parameter; `none` for `auto`. -/
def param : OverFn C R → Option HeldTy
  | .typed t _ => some t
  | .generic _ => none

/-- How good the function is for an argument of type `s`, the less the better; `none` if it cannot be called with it. -/
def fit (s : HeldTy) : Option HeldTy → Option Nat
  | none => some 1
  | some t =>
    match s, t with
    | .num s, .num t => some (if s = t then 0 else if promoted s = t then 2 else 3)
    | .cls m, .cls n => if m = n then some 0 else none
    | _, _ => none

/-- `overloaded{fns...}` (core/overload.hpp:16-22) compiles if no two functions have the same parameter: two `operator()`s brought in by
line 18 with the same parameters are an error. -/
def wellFormed (fns : List (OverFn C R)) : Prop := (fns.map param).Nodup

/-- Whether the function can be called with an argument of type `s` and is at least as good as `r`. -/
def fitsWithin (s : HeldTy) (r : Nat) (f : OverFn C R) : Bool :=
  match fit s (param f) with
  | none => false
  | some q => decide (q ≤ r)

/-- Whether the function can be called with an argument of type `s` and no other of the functions is as good. -/
def isBest (s : HeldTy) (fns : List (OverFn C R)) (f : OverFn C R) : Bool :=
  match fit s (param f) with
  | none => false
  | some r => decide ((fns.filter (fitsWithin s r)).length = 1)

/-- The function that is better than all others for an argument of type `s`; `none`: there is none, and the call does not compile. -/
def best (s : HeldTy) (fns : List (OverFn C R)) : Option (OverFn C R) := fns.find? (isBest s fns)

/-- The argument for a parameter of type `t` (no conversion exists between types of which one is not a number type, `best` does not
choose such a function). -/
def convertArg (s t : HeldTy) (x : s.Val C) : Outcome (t.Val C) :=
  if h : s = t then .ok (h ▸ x)
  else
    match s, t, x with
    | .num s, .num t, x => s.convert t x
    | _, _, _ => .ub

/-- The call of a function. -/
def run (s : HeldTy) (x : s.Val C) : OverFn C R → Outcome R
  | .typed t body => convertArg s t x >>= body
  | .generic body => body s x

/-- `overloaded{fns...}(x)` (core/overload.hpp:16-22) with an object of type `s`; `none`: does not compile. -/
def call (fns : List (OverFn C R)) (s : HeldTy) (x : s.Val C) : Option (Outcome R) :=
  (best s fns).map (run s x)

/-- Whether `std::visit(overloaded{fns...}, v)` (core/overload.hpp:16-22) compiles for a variant with the alternatives `alts`: every one needs
a function. -/
def visitCompiles (fns : List (OverFn C R)) (alts : List HeldTy) : Prop := ∀ s ∈ alts, (best s fns).isSome = true

instance (fns : List (OverFn C R)) (alts : List HeldTy) : Decidable (visitCompiles fns alts) := by
  unfold visitCompiles; infer_instance

/-- `std::visit(overloaded{fns...}, v)` (core/overload.hpp:16-22) for a variant with the alternatives `alts` that holds `x` of type `s`;
`none`: does not compile. -/
def visit (fns : List (OverFn C R)) (alts : List HeldTy) (s : HeldTy) (x : s.Val C) : Option (Outcome R) :=
  if visitCompiles fns alts then call fns s x else none

end Overload

end Wite
