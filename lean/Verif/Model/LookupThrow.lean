import Verif.Model.StaticLookup

/-!
# Lookups of objects whose operations throw

`Model/StaticLookup.lean` assumes that keys and values are made, copied, assigned and compared without exceptions, and does not say how
often.  Here every such operation is recorded, and any of them may throw.

Simplifications: the mappings of one call are copied from the first to the last, each key before its value (C++ leaves the order of
arguments open); moving a pair and destroying objects do not throw and are not recorded; there is at least one mapping, as the code asks for.
-/

namespace Wite.Collections.LookupThrow

/-- The operations of keys and values (in the array of static_lookup.hpp:83, in the parameters of 44, 59 and 99-101, in the assignment of 61
and in the comparison of 70). -/
inductive Ev (κ ν : Type) where
  | blankKey
  | blankValue
  | copyKey (k : κ)
  | copyValue (v : ν)
  | assignKey (k : κ)
  | assignValue (v : ν)
  | compareKeys (mine given : κ)
  | compareValues (mine given : ν)
  deriving DecidableEq, Repr

/-- The exception of an operation when it is the `n`-th of the program (of those of static_lookup.hpp:44-81), if it throws. -/
abbrev Fails (κ ν : Type) := Ev κ ν → Nat → Option Exc

variable {κ ν : Type}

/-- Perform an operation (one of those of static_lookup.hpp:44-81); the state is the record of those performed. -/
def op (F : Fails κ ν) (e : Ev κ ν) : St (List (Ev κ ν)) Unit := fun log =>
  match F e log.length with
  | none => (.ok (), log ++ [e])
  | some x => (.throw x, log ++ [e])

/-- Operations one after another, up to the first that throws (as in static_lookup.hpp:44-46). -/
def perform (F : Fails κ ν) : List (Ev κ ν) → St (List (Ev κ ν)) Unit
  | [] => pure ()
  | e :: es => do
    op F e
    perform F es

/-- The body of a `noexcept` function (static_lookup.hpp:44, 59 and 101). -/
def nothrow {α : Type} (x : St (List (Ev κ ν)) α) : St (List (Ev κ ν)) α := fun log => (noexcept (x.run log).1, (x.run log).2)

/-- Mappings are copied into parameters taken by value (static_lookup.hpp:44, 59 and 99-101). -/
def copies (ms : List (κ × ν)) : List (Ev κ ν) := ms.flatMap fun m => [.copyKey m.1, .copyValue m.2]

/-- `_init` (static_lookup.hpp:58-66), its parameters having been made: the first mapping is assigned, the others are copied for the
next call. -/
def init (F : Fails κ ν) : List (κ × ν) → St (List (Ev κ ν)) Unit
  | [] => pure ()
  | m :: others => nothrow do
    perform F [.assignKey m.1, .assignValue m.2]
    perform F (copies others)
    init F others

/-- The constructor (static_lookup.hpp:42-46), its parameters having been made: the array is made first, then the mappings are copied for
`_init`. -/
def ctor (F : Fails κ ν) (blank : κ × ν) (ms : List (κ × ν)) : St (List (Ev κ ν)) (StaticLookup κ ν) := nothrow do
  perform F (ms.flatMap fun _ => [.blankKey, .blankValue])
  perform F (copies ms)
  init F ms
  pure (StaticLookup.make blank ms)

/-- `static_lookup{m, ...}` with variables (static_lookup.hpp:44): the caller copies them. -/
def construct (F : Fails κ ν) (blank : κ × ν) (ms : List (κ × ν)) : St (List (Ev κ ν)) (StaticLookup κ ν) := do
  perform F (copies ms)
  ctor F blank ms

/-- `make_static_lookup(m, ...)` with variables (static_lookup.hpp:97-103): the caller copies them, and the function copies them for the
constructor. -/
def makeLookup (F : Fails κ ν) (blank : κ × ν) (ms : List (κ × ν)) : St (List (Ev κ ν)) (StaticLookup κ ν) := do
  perform F (copies ms)
  nothrow do
    perform F (copies ms)
    ctor F blank ms

/-- `std::ranges::find_if` with the comparison (static_lookup.hpp:70), and what follows (71-75). -/
def search {ρ : Type} (F : Fails κ ν) (cmp : κ × ν → Ev κ ν) (eq : κ × ν → Bool) (result : κ × ν → ρ) :
    List (κ × ν) → St (List (Ev κ ν)) ρ
  | [] => St.throw (.outOfRange "Invalid item")
  | m :: ms => do
    op F (cmp m)
    if eq m then pure (result m) else search F cmp eq result ms

/-- `at` (static_lookup.hpp:49-52). -/
def at' (F : Fails κ ν) (eq : κ → κ → Bool) (t : StaticLookup κ ν) (k : κ) : St (List (Ev κ ν)) ν :=
  search F (fun m => .compareKeys m.1 k) (fun m => eq m.1 k) Prod.snd t.items

/-- `with` (static_lookup.hpp:53-55). -/
def with' (F : Fails κ ν) (eq : ν → ν → Bool) (t : StaticLookup κ ν) (v : ν) : St (List (Ev κ ν)) κ :=
  search F (fun m => .compareValues m.2 v) (fun m => eq m.2 v) Prod.fst t.items

end Wite.Collections.LookupThrow
