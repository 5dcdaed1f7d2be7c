import Mathlib.Data.Int.Order.Basic
import Verif.Model.FragmentString
import Verif.Model.StringCalls

/-!
# Model of which overloads of `basic_fragment_string` a text finds

The constructors, `compare`, `starts_with`, `ends_with`, `contains`, `find` and `operator+` of `wite/string/fragment_string.hpp`
take text as an array or a pointer, as a `std::basic_string`, as a `std::basic_string_view`, as a fragment string or as a single
character.  This file models which of the overloads a call finds, and what the overload found does with the text.

Simplifications: `const` and value categories make no difference and are left out; so are null pointers, braced lists, numbers that
are no characters and classes that convert to one of the types mentioned.  Characters are the numbers they stand for.
-/

namespace Wite.FragmentCalls

open Wite Wite.Str Wite.StringCalls

/-- How a text is kept. -/
inductive Form where
  /-- an array of characters, such as a literal -/
  | array
  /-- a pointer to characters -/
  | pointer
  /-- `std::basic_string` -/
  | string
  /-- `std::basic_string_view` -/
  | view
  deriving DecidableEq, Repr

/-- The type of an argument, without references and `const`. -/
inductive ArgTy where
  | text (f : Form) (c : CharTy)
  /-- `basic_fragment_string<c, n>` -/
  | frag (c : CharTy) (n : Nat)
  | chr (c : CharTy)
  deriving DecidableEq, Repr

/-- The type of a parameter. -/
inductive ParTy where
  /-- `const C*` (string/fragment_string.hpp:253, 330, 346, 361, 378, 569) -/
  | ptr (c : CharTy)
  /-- an array bound that cannot be deduced (string/fragment_string.hpp:255-256, 559-561) -/
  | boundedArray
  /-- `std::basic_string_view<C>` (string/fragment_string.hpp:324, 342, 357, 374, 450) -/
  | viewOf (c : CharTy)
  /-- `std::basic_string<C>` (string/fragment_string.hpp:327) -/
  | strOf (c : CharTy)
  /-- a fragment string of any number of fragments (string/fragment_string.hpp:334-335, 350-351, 365-366, 382-383, 574-577) -/
  | anyFrag (c : CharTy)
  /-- a fragment string of the same number of fragments: the copy and move constructors (string/fragment_string.hpp:251) -/
  | sameFrag (c : CharTy) (n : Nat)
  /-- `C` (string/fragment_string.hpp:340, 355, 370, 431) -/
  | chr (c : CharTy)
  deriving DecidableEq, Repr

/-- How an argument becomes a parameter, best first ([over.ics.rank]). -/
inductive Rank where
  | exact
  | standard
  | user
  deriving DecidableEq, Repr

/-- One conversion is better than the other. -/
def Rank.better : Rank → Rank → Bool
  | .exact, .standard => true
  | .exact, .user => true
  | .standard, .user => true
  | _, _ => false

/-- The conversion of an argument to a parameter, if there is one.  Arrays become pointers; `std::basic_string` converts to a view, a view
to a string only explicitly; every character converts to every character type. -/
def conversion (a : ArgTy) : ParTy → Option Rank
  | .ptr c =>
    match a with
    | .text .array d => if c = d then some .exact else none
    | .text .pointer d => if c = d then some .exact else none
    | _ => none
  | .boundedArray => none
  | .viewOf c =>
    match a with
    | .text .view d => if c = d then some .exact else none
    | .text _ d => if c = d then some .user else none
    | _ => none
  | .strOf c =>
    match a with
    | .text .string d => if c = d then some .exact else none
    | .text .view _ => none
    | .text _ d => if c = d then some .user else none
    | _ => none
  | .anyFrag c =>
    match a with
    | .frag d _ => if c = d then some .exact else none
    | _ => none
  | .sameFrag c n =>
    match a with
    | .frag d m => if c = d ∧ n = m then some .exact else none
    | _ => none
  | .chr c =>
    match a with
    | .chr d => some (if c = d then .exact else .standard)
    | _ => none

/-- The calls, with a fragment string `fs` and an argument `x`. -/
inductive Fn where
  /-- `basic_fragment_string<C, N>(x)` -/
  | make
  /-- `fs.compare(x)` -/
  | compare
  /-- `fs.starts_with(x)` -/
  | startsWith
  /-- `fs.ends_with(x)` -/
  | endsWith
  /-- `fs.contains(x)` -/
  | contains
  /-- `fs.find(x)` -/
  | find
  /-- `fs + x` -/
  | plus
  /-- `x + fs` -/
  | plusLeft
  /-- `fs == x` -/
  | equal
  deriving DecidableEq, Repr

/-- The parameters for `x` of the overloads of a function of `basic_fragment_string<c, n>`: the constructors (string/fragment_string.hpp:251-256),
`compare` (324-338), `starts_with` (340-353), `ends_with` (355-368), `contains` (370-402), `find` (431-450) and `operator+` (558-578).  There is
no `operator==`. -/
def overloads (c : CharTy) (n : Nat) : Fn → List ParTy
  | .make => [.sameFrag c n, .ptr c, .boundedArray]
  | .compare => [.viewOf .char, .strOf .char, .ptr .char, .anyFrag c]
  | .startsWith => [.chr c, .viewOf c, .ptr c, .anyFrag c]
  | .endsWith => [.chr c, .viewOf c, .ptr c, .anyFrag c]
  | .contains => [.chr c, .viewOf c, .ptr c, .anyFrag c]
  | .find => [.chr c, .viewOf c]
  | .plus => [.boundedArray, .ptr c, .anyFrag c]
  | .plusLeft => [.anyFrag c]
  | .equal => []

/-- The overloads that can be called, with the conversions they need. -/
def viable (a : ArgTy) (ps : List ParTy) : List (ParTy × Rank) :=
  ps.filterMap fun p => (conversion a p).map fun r => (p, r)

/-- Overload resolution ([over.match.best]): the overload better than every other. -/
def best (a : ArgTy) (ps : List ParTy) : Option ParTy :=
  ((viable a ps).find? fun x => (viable a ps).all fun y => decide (x.1 = y.1) || x.2.better y.2).map Prod.fst

/-- The overload that a call finds; `none` if it does not compile. -/
def chosen (c : CharTy) (n : Nat) (f : Fn) (a : ArgTy) : Option ParTy := best a (overloads c n f)

/-- What `std::string` does with text of its own character type: it is made of, compared with, searched for and joined with text in every
form (a view is joined since C++26 only), and with single characters except in its constructors, `compare` and `==`.  No counterpart in `/repo`. -/
def stringTakes (f : Fn) (form : Option Form) : Bool :=
  match f, form with
  | .plus, some .view => false
  | .plusLeft, some .view => false
  | .make, none => false
  | .compare, none => false
  | .equal, none => false
  | _, _ => true

/-! ## What the overloads do -/

/-- A text as it is kept: the characters of an array or from a pointer on, the characters of a string or a view. -/
structure Text where
  form : Form
  chars : List Int
  deriving DecidableEq, Repr

/-- What a call gives. -/
inductive Answer where
  | sign (r : Int)
  | flag (r : Bool)
  | position (r : Nat)
  | string (r : FragStr Int)
  deriving DecidableEq, Repr

/-- Reading a C string: the characters before the first zero (`std::basic_string_view(const Char_T*)`, string/fragment_string.hpp:253, 331, 347);
without a zero the behaviour is undefined. -/
def readCStr (m : List Int) : Outcome (List Int) := if (0 : Int) ∈ m then .ok (cstr m) else .ub

/-- The characters that the overload with this parameter sees. -/
def seen (p : ParTy) (t : Text) : Outcome (List Int) :=
  match p with
  | .ptr _ => readCStr t.chars
  | .viewOf _ | .strOf _ =>
    match t.form with
    | .array | .pointer => readCStr t.chars
    | .string | .view => .ok t.chars
  | _ => .ub

/-- A narrow character compared with one of type `c` (string/fragment_string.hpp:507-514): by the usual arithmetic conversions, which change the value
only beside `char32_t`. -/
def beside (c : CharTy) (x : Int) : Int := if c = .char32 then x % 2 ^ 32 else x

/-- A call with a text of characters `d` for a fragment string of characters `c`; `none` if it does not compile. -/
def call (b : Build) (c : CharTy) (fs : FragStr Int) (f : Fn) (d : CharTy) (t : Text) (pos : Nat) : Option (Outcome Answer) :=
  match chosen c fs.length f (.text t.form d) with
  | none => none
  | some p =>
    match f with
    | .make => some (do let s ← seen p t; pure (.string (some s :: defaulted (fs.length - 1))))
    | .compare => some (do let s ← seen p t; let r ← compareView b fs (s.map (beside c)); pure (.sign r))
    | .startsWith => some (do let s ← seen p t; let r ← startsWithView b fs s; pure (.flag r))
    | .endsWith => some (do let s ← seen p t; let r ← endsWithView b fs s; pure (.flag r))
    | .contains => some (do let s ← seen p t; let r ← containsView b fs s; pure (.flag r))
    | .find => some (do let s ← seen p t; let r ← findView b fs s pos; pure (.position r))
    | .plus => some (do let s ← seen p t; pure (.string (concat fs [some s])))
    | .plusLeft => none
    | .equal => none

end Wite.FragmentCalls
