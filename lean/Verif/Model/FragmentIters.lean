import Verif.Model.FragmentString

/-!
# Model of iterators of several fragment_strings

`Model/FragmentString.lean` looks at iterators of one string.  Here an iterator also knows the string object it belongs to,
as its pointers into the array `_fragments` do (string/fragment_string.hpp:48-58); objects are numbered.  The member
`fragment` always points to an element of the array, never behind it, so pointers of different objects differ.
-/

namespace Wite.Str

variable {C : Type}

/-- An iterator of the string object number `obj` (string/fragment_string.hpp:48-58). -/
structure ObjIt where
  obj : Nat
  it : It
  deriving DecidableEq, Repr

namespace ObjIt

/-- `_debug_verify_integrity` (string/fragment_string.hpp:170-175), called in debug builds only. -/
def verify (b : Build) (x y : ObjIt) : Outcome Unit :=
  debugAssert b (decide (y.obj = x.obj)) "fragment_string: Iterators point to different parent objects"

/-- `operator==` (string/fragment_string.hpp:84-90). -/
def eq (b : Build) (x y : ObjIt) : Outcome Bool := do
  verify b x y
  pure (decide (x.obj = y.obj) && It.eq x.it y.it)

/-- `operator<=>` (string/fragment_string.hpp:76-82).  The order of pointers into different arrays is unspecified: `less`
is what the implementation says. -/
def cmp (b : Build) (less : ObjIt → ObjIt → Bool) (x y : ObjIt) : Outcome Ordering := do
  verify b x y
  pure (if x.obj = y.obj then It.threeWay x.it y.it else if less x y then .lt else .gt)

/-- `operator-(const iterator&)` (string/fragment_string.hpp:154-167): the difference of pointers into different arrays is
undefined. -/
def sub (b : Build) (fs : FragStr C) (x y : ObjIt) : Outcome Int := do
  verify b x y
  if x.obj = y.obj then pure (diff fs x.it y.it) else .ub

end ObjIt

/-- `for (; i != last; ++i) out.push_back(*i);` with `i` an iterator of the string `fs`, object number `obj`, and `last` an
iterator of any string, in at most `fuel` rounds. -/
def readUntil (b : Build) (fs : FragStr C) (obj : Nat) : Nat → It → ObjIt → Outcome (List C)
  | 0, _, _ => .diverge
  | fuel + 1, i, last => do
    let same ← ObjIt.eq b ⟨obj, i⟩ last
    if same then pure []
    else do
      let c ← deref b fs i
      let j ← incr b fs i
      let cs ← readUntil b fs obj fuel j last
      pure (c :: cs)

end Wite.Str
