import Verif.Spec.Io
import Verif.Model.IoAlias

/-!
# Specification of writes whose arguments lie in the buffer

What the caller would pass after copying: `AArg.copy` is the argument as a value of its own, with the bytes it has before the
call.
-/

namespace Wite.Spec

open Wite.Io

/-- The `n` bytes from `src` on. -/
def slice (mem : List Nat) (src n : Nat) : List Nat := (mem.drop src).take n

/-- The argument, copied before the call. -/
def copyArg (mem : List Nat) : AArg → WVal
  | .value v => v
  | .obj src n => .single .native (slice mem src n)
  | .span src n k => .range n ((List.range k).map fun i => slice mem (src + i * n) n)

/-- The number of bytes of an argument. -/
def argSize : AArg → Nat
  | .value v => sizeOfVal v
  | .obj _ n => n
  | .span _ n k => k * n

/-- What the argument refers to exists. -/
def ArgInside (mem : List Nat) : AArg → Prop
  | .value v => GoodVal v
  | .obj src n => src + n ≤ mem.length
  | .span src n k => src + k * n ≤ mem.length

/-- The bytes of an argument lie at or after `pos`, where they will be written, or end before `start`. -/
def ArgApart (start pos : Nat) : AArg → Prop
  | .value _ => True
  | .obj src n => pos ≤ src ∨ src + n ≤ start
  | .span src n k => pos ≤ src ∨ src + k * n ≤ start

/-- So do all arguments of a call that writes them one after another from `pos` on. -/
def ArgsApart (start : Nat) : (pos : Nat) → List AArg → Prop
  | _, [] => True
  | pos, v :: vs => ArgApart start pos v ∧ ArgsApart start (pos + argSize v) vs

/-- The same of the arguments that are spans only. -/
def SpansApart (start : Nat) : (pos : Nat) → List AArg → Prop
  | _, [] => True
  | pos, v :: vs =>
    (match v with
      | .span _ _ _ => ArgApart start pos v
      | _ => True) ∧ SpansApart start (pos + argSize v) vs

end Wite.Spec
