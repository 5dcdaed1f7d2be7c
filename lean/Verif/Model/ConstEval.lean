import Verif.Model.FragmentString
import Verif.Model.StaticLookup
import Verif.Model.StaticVector

/-!
# Evaluation at compile time

A call is a constant expression if it returns normally and everything that is evaluated on the way may be evaluated at compile time: no function that is not declared
`constexpr`, no exception, no undefined behaviour.  This file follows the functions declared `constexpr` of fragment_string, static_vector, static_lookup,
`is_not_whitespace` and the check of scope guards, and marks every call of a function that is not `constexpr`.

Simplifications: C++20 with the later corrections to `std::optional`; characters, elements, keys and values are of literal types whose own operations are `constexpr`;
the objects themselves can be made at compile time.  A function template declared `constexpr` none of whose calls is a constant expression is taken as compilers take it: as a
function that can be called at run time.  `std::equal`, `std::next`, `std::accumulate`, `std::generate_n`, `std::copy_n`, `std::ranges::find_if` and
`std::ranges::any_of` are `constexpr` and call the operators of the iterators they are given.
-/

namespace Wite.ConstEval

open Wite Wite.Str Wite.Collections

/-- An evaluation: what comes of it, and whether all of it may be done at compile time (no counterpart in `/repo`). -/
structure Ev (α : Type) where
  out : Outcome α
  allowed : Bool

/-- Something that may be evaluated at compile time: language constructs and `constexpr` functions of the standard library. -/
def compileTime {α : Type} (o : Outcome α) : Ev α := ⟨o, true⟩

/-- A call of a function that is not `constexpr`. -/
def runTime {α : Type} (o : Outcome α) : Ev α := ⟨o, false⟩

/-- One evaluation after the other. -/
protected def Ev.bind {α β : Type} (x : Ev α) (f : α → Ev β) : Ev β :=
  match x.out with
  | .ok a => ⟨(f a).out, x.allowed && (f a).allowed⟩
  | .throw e => ⟨.throw e, x.allowed⟩
  | .ub => ⟨.ub, x.allowed⟩
  | .terminate => ⟨.terminate, x.allowed⟩
  | .diverge => ⟨.diverge, x.allowed⟩

instance : Monad Ev where
  pure a := compileTime (.ok a)
  bind := Ev.bind

/-- The body of a `noexcept` function. -/
def Ev.noexcept {α : Type} (x : Ev α) : Ev α := ⟨Wite.noexcept x.out, x.allowed⟩

/-- The call is a constant expression. -/
def Ev.IsConstant {α : Type} (x : Ev α) : Prop := x.allowed = true ∧ x.out.returns

/-! ## fragment_string -/

section
variable {C : Type}

/-- The constructor of the iterators (string/fragment_string.hpp:70-74), which is not `constexpr`. -/
def makeIter (it : It) : Ev It := runTime (.ok it)

/-- `cbegin()` and `begin()` (string/fragment_string.hpp:285-289). -/
def fsBegin (fs : FragStr C) : Ev It := do
  let it ← compileTime (begin' fs)
  makeIter it

/-- `cend()` and `end()` (string/fragment_string.hpp:290-294), also in `crbegin()` and `rbegin()` (295-296). -/
def fsEnd (fs : FragStr C) : Ev It := do
  let it ← compileTime (end' fs)
  makeIter it

/-- `length()`, `size()`, `max_size()` and `capacity()` (string/fragment_string.hpp:276-283). -/
def fsLength (fs : FragStr C) : Ev Nat := compileTime (.ok (length fs))

/-- `operator[]` (string/fragment_string.hpp:308): `operator+=` (string/fragment_string.hpp:129-132) is not `constexpr` either. -/
def fsIndex (b : Build) (fs : FragStr C) (pos : Nat) : Ev C := Ev.noexcept do
  let first ← fsBegin fs
  let it ← runTime (plus b fs first (toDiff pos))
  compileTime (deref b fs it)

/-- `at(pos)` (string/fragment_string.hpp:300-306). -/
def fsAt (b : Build) (fs : FragStr C) (pos : Nat) : Ev C :=
  if length fs ≤ pos then compileTime (.throw (.outOfRange "Error: accessing fragment_string beyond end of string"))
  else fsIndex b fs pos

/-- `front()` (string/fragment_string.hpp:310-314). -/
def fsFront (b : Build) (fs : FragStr C) : Ev C := compileTime (front b fs)

/-- `back()` (string/fragment_string.hpp:316-320). -/
def fsBack (b : Build) (fs : FragStr C) : Ev C := compileTime (back b fs)

/-- `compare` (string/fragment_string.hpp:324-338) of views, strings and C strings, with `_compare` (502-528). -/
def fsCompare [LinearOrder C] (b : Build) (fs : FragStr C) (s : List C) : Ev Int := do
  let itThis ← fsBegin fs
  let endThis ← fsEnd fs
  runTime (compareLoop b fs (view s) endThis s.length (length fs + 1) itThis 0)

/-- `compare(fragment_string)` (string/fragment_string.hpp:334-338). -/
def fsCompareFs [LinearOrder C] (b : Build) (fs gs : FragStr C) : Ev Int := do
  let first ← fsBegin gs
  let last ← fsEnd gs
  let itThis ← fsBegin fs
  let endThis ← fsEnd fs
  runTime (compareLoop b fs (fwd b gs) endThis last (length fs + 1) itThis first)

variable [DecidableEq C]

/-- `starts_with(c)` (string/fragment_string.hpp:340). -/
def fsStartsWithChar (b : Build) (fs : FragStr C) (c : C) : Ev Bool := Ev.noexcept do
  if empty fs then pure false
  else do
    let x ← fsFront b fs
    pure (decide (x = c))

/-- `ends_with(c)` (string/fragment_string.hpp:355). -/
def fsEndsWithChar (b : Build) (fs : FragStr C) (c : C) : Ev Bool := Ev.noexcept do
  if empty fs then pure false
  else do
    let x ← fsBack b fs
    pure (decide (x = c))

/-- `starts_with` of a view or a C string (string/fragment_string.hpp:342-348): the iterators are made before `_match_substring` (485-500) is called. -/
def fsStartsWith (b : Build) (fs : FragStr C) (s : List C) : Ev Bool := Ev.noexcept do
  let first ← fsBegin fs
  runTime (matchSubstring (fwd b fs) (view s) first (length fs) 0 s.length s.length)

/-- `ends_with` of a view or a C string (string/fragment_string.hpp:357-363). -/
def fsEndsWith (b : Build) (fs : FragStr C) (s : List C) : Ev Bool := Ev.noexcept do
  let last ← fsEnd fs
  runTime (matchSubstring (rev b fs) (rview s) last (length fs) s.length 0 s.length)

/-- `starts_with(fragment_string)` (string/fragment_string.hpp:350-353). -/
def fsStartsWithFs (b : Build) (fs gs : FragStr C) : Ev Bool := Ev.noexcept do
  let first ← fsBegin fs
  let gfirst ← fsBegin gs
  let glast ← fsEnd gs
  runTime (matchSubstring (fwd b fs) (fwd b gs) first (length fs) gfirst glast (length gs))

/-- `ends_with(fragment_string)` (string/fragment_string.hpp:365-368). -/
def fsEndsWithFs (b : Build) (fs gs : FragStr C) : Ev Bool := Ev.noexcept do
  let last ← fsEnd fs
  let gfirst ← fsBegin gs
  let glast ← fsEnd gs
  runTime (matchSubstring (rev b fs) (rev b gs) last (length fs) glast gfirst (length gs))

/-- `contains(c)` (string/fragment_string.hpp:370-372). -/
def fsContainsChar (fs : FragStr C) (c : C) : Ev Bool := compileTime (.ok (containsChar fs c))

/-- `find(ch, pos)` (string/fragment_string.hpp:431-448): `_seek_fragment_containing_position` (530) is not `constexpr`. -/
def fsFindChar (fs : FragStr C) (ch : C) (pos : Nat) : Ev Nat :=
  if length fs ≤ pos then pure npos
  else do
    let (i, checked) ← runTime (seekFragment fs pos)
    pure (findCharLoop ch checked (fs.drop i))

/-- `find(sv, pos)` (string/fragment_string.hpp:450-482). -/
def fsFind (b : Build) (fs : FragStr C) (s : List C) (pos : Nat) : Ev Nat := Ev.noexcept do
  if length fs < (pos + s.length) % 2 ^ 64 then pure npos
  else if length fs < s.length then pure npos
  else do
    let thisEnd ← fsEnd fs
    let (i, checked) ← runTime (seekFragment fs pos)
    let start ← makeIter ⟨i, pos - checked⟩
    let currEnd ← runTime (plus b fs start (toDiff s.length))
    runTime (findLoop b fs s thisEnd (length fs + 1) start currEnd pos)

/-- `contains` of a view or a C string (string/fragment_string.hpp:374-380). -/
def fsContains (b : Build) (fs : FragStr C) (s : List C) : Ev Bool := do
  let i ← fsFind b fs s 0
  pure (decide (npos ≠ i))

/-- `contains(fragment_string)` (string/fragment_string.hpp:382-402). -/
def fsContainsFs (b : Build) (fs gs : FragStr C) : Ev Bool := Ev.noexcept do
  if length fs < length gs then pure false
  else do
    let otherBegin ← fsBegin gs
    let otherEnd ← fsEnd gs
    let first ← fsBegin fs
    let thisEnd ← runTime (plus b fs first (toDiff (length fs - length gs)))
    runTime (containsLoop b fs gs otherBegin otherEnd thisEnd (length fs) first)

omit [DecidableEq C]

/-- `substr(pos, count)` (string/fragment_string.hpp:404-415). -/
def fsSubstr (b : Build) (fs : FragStr C) (pos count : Nat) : Ev (List C) :=
  if length fs ≤ pos then compileTime (.throw (.outOfRange "fragment_string: substring start out of range"))
  else do
    let first ← fsBegin fs
    let stop ← (if count = npos ∨ length fs ≤ (pos + count) % 2 ^ 64 then fsEnd fs
      else runTime (plus b fs first (toDiff ((pos + count) % 2 ^ 64))))
    let start ← runTime (plus b fs first (toDiff pos))
    runTime (readRange (fwd b fs) start stop)

/-- `copy(dest, count, pos)` (string/fragment_string.hpp:417-429). -/
def fsCopy (b : Build) (fs : FragStr C) (count pos : Nat) : Ev (Nat × List C) :=
  if length fs ≤ pos then compileTime (.throw (.outOfRange "fragment_string: copy start out of range"))
  else do
    let first ← fsBegin fs
    let start ← runTime (plus b fs first (toDiff pos))
    let cs ← runTime (copyN (fwd b fs) (min count (length fs - pos)) start)
    pure (min count (length fs - pos), cs)

end

/-! ## static_vector -/

section
variable {α : Type}

/-- `operator++` of the iterators (collections/dereferencing_iterator.hpp:60-65): `_WITE_RELEASE_CONSTEXPR` is `constexpr` only where `NDEBUG` is defined
(env/configuration.hpp:46-52; core/assert.hpp:57-58 defines a macro of another name for the builds with `assert`). -/
def advance (b : Build) : Ev Unit :=
  match b with
  | .release => compileTime (.ok ())
  | .debug | .aborting => runTime (.ok ())

/-- `at(pos)` (collections/static_vector.hpp:129-139). -/
def svAt (v : StaticVector α) (pos : Nat) : Ev α := compileTime (v.at' pos)

/-- The constructor from a list (collections/static_vector.hpp:71-78). -/
def svOfList (cap : Nat) (init : List α) : Ev (StaticVector α) := compileTime (StaticVector.ofList cap init)

/-- `_unsafe_resize` (collections/static_vector.hpp:185-193): `_destroy_last_n` (180) is not `constexpr`. -/
def svUnsafeResize (n : Nat) (x : α) (v : StaticVector α) : Ev (StaticVector α) := do
  let v' ←
    if n > v.size then compileTime (StaticVector.alloc (n - v.size) x v)
    else if n < v.size then runTime (StaticVector.destroyLastN (v.size - n) v)
    else pure v
  pure { v' with count := n }

/-- `resize` (collections/static_vector.hpp:141-155): the vector afterwards. -/
def svResize (n : Nat) (x : α) (v : StaticVector α) : Ev (StaticVector α) :=
  if n > v.capacity then compileTime (.throw (.lengthError "static_vector: new size exceeds max size"))
  else svUnsafeResize n x v

/-- A loop from `begin()` to `end()` (collections/static_vector.hpp:88-103), reading the elements. -/
def svReadFrom (b : Build) (v : StaticVector α) (i : Nat) : Nat → Ev (List α)
  | 0 => pure []
  | n + 1 => do
    let x ← compileTime (v.index i)
    advance b
    let xs ← svReadFrom b v (i + 1) n
    pure (x :: xs)

/-- A loop over all elements. -/
def svIterate (b : Build) (v : StaticVector α) : Ev (List α) := svReadFrom b v 0 v.count

/-- `std::equal(begin(), end(), other.begin())` (collections/static_vector.hpp:170). -/
def svEqualFrom (b : Build) (eq : α → α → Bool) (v w : StaticVector α) (i : Nat) : Nat → Ev Bool
  | 0 => pure true
  | n + 1 => do
    let x ← compileTime (v.index i)
    let y ← compileTime (w.index i)
    if eq x y then do
      advance b
      svEqualFrom b eq v w (i + 1) n
    else pure false

/-- `operator==` (collections/static_vector.hpp:165-171). -/
def svEqual (b : Build) (eq : α → α → Bool) (v w : StaticVector α) : Ev Bool :=
  if v.count ≠ w.count then pure false else svEqualFrom b eq v w 0 v.count

/-- `operator!=` (collections/static_vector.hpp:173). -/
def svNotEqual (b : Build) (eq : α → α → Bool) (v w : StaticVector α) : Ev Bool := do
  let e ← svEqual b eq v w
  pure !e

end

/-! ## The others -/

/-- `static_lookup::at` of a constant table (collections/static_lookup.hpp:49-51, 69-76). -/
def slAt {κ ν : Type} (eq : κ → κ → Bool) (t : StaticLookup κ ν) (k : κ) : Ev ν := compileTime (t.at' eq k)

/-- `static_lookup::with` (collections/static_lookup.hpp:53-55, 69-76). -/
def slWith {κ ν : Type} (eq : ν → ν → Bool) (t : StaticLookup κ ν) (v : ν) : Ev κ := compileTime (t.with' eq v)

/-- `is_not_whitespace` (string/trim.hpp:28-36): `std::isspace` and `std::iswspace` are not `constexpr`. -/
def isNotWhitespace {C : Type} (isspace : C → Outcome Bool) (c : C) : Ev Bool := do
  let s ← runTime (isspace c)
  pure !s

/-- When a guard runs (core/scope.hpp:28). -/
inductive When where
  | all
  | success
  | fail
  deriving DecidableEq, Repr

/-- `_chech_exit_condition` (core/scope.hpp:32-50): `std::uncaught_exceptions` is not `constexpr`. -/
def checkExitCondition (w : When) (uncaught : Nat) : Ev Bool :=
  match w with
  | .all => pure true
  | .success => do
    let n ← runTime (.ok uncaught)
    pure (n == 0)
  | .fail => do
    let n ← runTime (.ok uncaught)
    pure (decide (n > 0))

end Wite.ConstEval
