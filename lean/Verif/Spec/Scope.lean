import Verif.Model.Scope

/-!
# When guards should run

A monitor reads a trace from left to right with a stack of the guards alive.  It accepts only if
every guard's destructor starts while the guard is the youngest one alive (reverse order of
declaration), the function starts right there and at most once, and by the end of the destructor
it has run exactly if the guard had not been released and `want` says so.
-/

namespace Wite.Spec.Scope

open Wite.Scope

/-- The documented conditions: `scope_exit` always, `scope_success` when the scope was left
normally, `scope_fail` when it was left by an exception. -/
def documented (c : Cond) (_uncaught : Nat) (how : Exit) : Bool :=
  match c, how with
  | .all, _ => true
  | .success, .normal => true
  | .success, .exceptional _ => false
  | .fail, .normal => false
  | .fail, .exceptional _ => true

/-- A guard alive. -/
structure Alive where
  k : Nat
  c : Cond
  /-- exceptions in flight when it was created -/
  uncaught : Nat
  released : Bool
  /-- how its scope has been left, once it has -/
  how : Option Exit
  ran : Bool
  deriving DecidableEq, Repr

/-- One event; `none` rejects. -/
def watch (want : Cond → Nat → Exit → Bool) (stack : List Alive) (ev : Event) : Option (List Alive) :=
  match ev with
  | .act _ => some stack
  | .created k c u =>
    if stack.any (fun e => e.k == k) then none else some (⟨k, c, u, false, none, false⟩ :: stack)
  | .released k =>
    if stack.any (fun e => e.k == k && e.how == none) then
      some (stack.map fun e => if e.k = k then { e with released := true } else e)
    else none
  | .leaving k how =>
    match stack with
    | e :: es => if e.k = k ∧ e.how = none then some ({ e with how := some how } :: es) else none
    | [] => none
  | .runs k =>
    match stack with
    | e :: es => if e.k = k ∧ e.how ≠ none ∧ e.ran = false then some ({ e with ran := true } :: es) else none
    | [] => none
  | .left k =>
    match stack with
    | e :: es =>
      match e.how with
      | some how => if e.k = k ∧ e.ran = (!e.released && want e.c e.uncaught how) then some es else none
      | none => none
    | [] => none

/-- A whole trace. -/
def watchAll (want : Cond → Nat → Exit → Bool) : List Alive → List Event → Option (List Alive)
  | stack, [] => some stack
  | stack, ev :: evs =>
    match watch want stack ev with
    | some stack' => watchAll want stack' evs
    | none => none

/-- The monitor accepts a complete execution: it starts and ends with no guard alive. -/
def Accepts (want : Cond → Nat → Exit → Bool) (t : List Event) : Prop := watchAll want [] t = some []

/-- The monitor has no objection to the beginning of an execution. -/
def AcceptsPrefix (want : Cond → Nat → Exit → Bool) (t : List Event) : Prop := ∃ st, watchAll want [] t = some st

/-- The program declares only `scope_exit` guards. -/
def OnlyScopeExit : Prog → Prop
  | .seq p q | .tryCatch p q => OnlyScopeExit p ∧ OnlyScopeExit q
  | .guard _ c f rest => c = .all ∧ OnlyScopeExit f ∧ OnlyScopeExit rest
  | _ => True

/-- Guard functions of the program declare no `scope_success` or `scope_fail` guards
themselves. -/
def PlainFunctions : Prog → Prop
  | .seq p q | .tryCatch p q => PlainFunctions p ∧ PlainFunctions q
  | .guard _ _ f rest => OnlyScopeExit f ∧ PlainFunctions rest
  | _ => True

/-- The actions in a trace, in order. -/
def actions (t : List Event) : List Nat := t.filterMap fun | .act a => some a | _ => none

/-- The program contains the action `a` somewhere. -/
def Mentions (a : Nat) : Prog → Prop
  | .act b => a = b
  | .seq p q | .tryCatch p q => Mentions a p ∨ Mentions a q
  | .guard _ _ f rest => Mentions a f ∨ Mentions a rest
  | _ => False

/-- The program contains a release of the guard variable `x` of its surroundings.  (A guard function
cannot mention its own guard; a declaration of `x` hides the outer one in the rest of its block.) -/
def Releases (x : Nat) : Prog → Prop
  | .release y => x = y
  | .seq p q | .tryCatch p q => Releases x p ∨ Releases x q
  | .guard y _ f rest => Releases x f ∨ (x ≠ y ∧ Releases x rest)
  | _ => False

/-- The number of guards created with serial number `k` in a trace. -/
def createdCount (k : Nat) (t : List Event) : Nat :=
  t.countP fun | .created j _ _ => j == k | _ => false

end Wite.Spec.Scope
