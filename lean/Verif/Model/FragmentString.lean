import Mathlib.Order.Defs.LinearOrder
import Verif.Model.Outcome

/-!
# fragment_string (string/fragment_string.hpp)

A fragment string is an array of string views.  The model keeps the characters each view
covers.  Simplifications, all of them recorded in DESIGN.md: fragment lengths are natural
numbers and their sum does not wrap (the characters exist in memory, so the sum is below
`2 ^ 63` unless a view is repeated astronomically often); an iterator is the index of its
fragment and the offset of `current` in that fragment; two iterators that are compared or
subtracted belong to the same string.
-/

namespace Wite.Str

variable {C : Type}

/-- A `std::basic_string_view<Char_T>` of the array `_fragments` (string/fragment_string.hpp:40-43,
548): `none` is a default-constructed view, whose `data()` is null, and `some s` a view of
the characters `s` that are followed in memory by a terminating zero, as made by the
constructor at 253. -/
abbrev Frag (C : Type) := Option (List C)

/-- The characters of a view; a default-constructed view is empty (string/fragment_string.hpp:40). -/
def Frag.chars : Frag C → List C
  | none => []
  | some s => s

/-- `_fragments` (string/fragment_string.hpp:43, 548): the array of `FRAGMENT_COUNT` views. -/
abbrev FragStr (C : Type) := List (Frag C)

/-- The string that a `const Char_T*` denotes: the characters before the first zero
(`std::basic_string_view(const Char_T*)`, used at string/fragment_string.hpp:253, 331, 347). -/
def cstr [DecidableEq C] [Zero C] (mem : List C) : List C := mem.takeWhile (fun c => decide (c ≠ 0))

/-- `basic_fragment_string()` (string/fragment_string.hpp:251): `n` value-initialised views. -/
def defaulted (n : Nat) : FragStr C := List.replicate n none

/-- `basic_fragment_string(pointer str)` (string/fragment_string.hpp:253).  A null pointer is not modelled. -/
def ofPtr [DecidableEq C] [Zero C] (mem : List C) : FragStr C := [some (cstr mem)]

/-- `operator""_fs(str, n)` and `operator""_wfs` (string/fragment_string.hpp:584-590): `lit` are the
characters between the quotes, which the compiler ends with a zero; the length is ignored. -/
def literal [DecidableEq C] [Zero C] (lit : List C) : FragStr C := ofPtr (lit ++ [0])

/-- `basic_fragment_string(left, right)` (string/fragment_string.hpp:258-263) as used by the
`operator+`s at 558-579, where the array has room for exactly both. -/
def concat (l r : FragStr C) : FragStr C := l ++ r

/-- `operator+(left, const Char_T*)` (string/fragment_string.hpp:558-569). -/
def concatPtr [DecidableEq C] [Zero C] (l : FragStr C) (mem : List C) : FragStr C := concat l (ofPtr mem)

/-- `length()` (string/fragment_string.hpp:276-279). -/
def length : FragStr C → Nat
  | [] => 0
  | f :: fs => f.chars.length + length fs

/-- `empty()` (string/fragment_string.hpp:322). -/
def empty (fs : FragStr C) : Bool := decide (0 = length fs)

/-- `to_str()` (string/fragment_string.hpp:265-272): appends the C string at `data()` of every
fragment; appending a null pointer is undefined. -/
def toStr [DecidableEq C] [Zero C] : FragStr C → Outcome (List C)
  | [] => .ok []
  | none :: _ => .ub
  | some s :: fs => do
    let rest ← toStr fs
    pure (cstr (s ++ [0]) ++ rest)

/-- `os << f` for a string view: `fill` characters pad the text on the left up to `width`
(`std::operator<<(ostream, string_view)`; left adjustment is not modelled). -/
def insertView (fill : C) (width : Nat) (s : List C) : List C := List.replicate (width - s.length) fill ++ s

/-- `operator<<` (string/fragment_string.hpp:601-617) on a stream with the given fill character
and width: every insertion resets the width to zero. -/
def print (fill : C) : Nat → FragStr C → List C
  | _, [] => []
  | width, f :: fs => insertView fill width f.chars ++ print fill 0 fs

/-! ## Iterators -/

/-- `iterator::_data` (string/fragment_string.hpp:48-58): the index of `fragment` and the offset
of `current` from the beginning of that fragment.  `fragment_end` and
`debug_fragment_range_begin` are the same for all iterators of a string. -/
structure It where
  frag : Nat
  cur : Nat
  deriving DecidableEq, Repr

/-- `*_data.fragment` (string/fragment_string.hpp:92-237): undefined outside the array. -/
def fragAt (fs : FragStr C) (i : Nat) : Outcome (List C) :=
  match fs[i]? with
  | some f => .ok f.chars
  | none => .ub

/-- `operator==` (string/fragment_string.hpp:84-90, 57). -/
def It.eq (x y : It) : Bool := decide (x.frag = y.frag) && decide (x.cur = y.cur)

/-- `operator<=>` (string/fragment_string.hpp:76-82, 57): memberwise in the order of declaration. -/
def It.threeWay (x y : It) : Ordering :=
  match compare x.frag y.frag with
  | .eq => compare x.cur y.cur
  | o => o

/-- `operator*` (string/fragment_string.hpp:92-98). -/
def deref (b : Build) (fs : FragStr C) (it : It) : Outcome C := do
  let s ← fragAt fs it.frag
  debugAssert b (decide (it.cur < s.length)) "fragment_string: dereference iterator out-of-range"
  match s[it.cur]? with
  | some c => pure c
  | none => .ub

/-- `operator++` (string/fragment_string.hpp:100-117): moving `current` beyond the end of its
view is undefined. -/
def incr (b : Build) (fs : FragStr C) (it : It) : Outcome It := do
  let s ← fragAt fs it.frag
  debugAssert b (!(decide (it.frag + 1 = fs.length) && decide (it.cur = s.length)))
    "fragment_string::operator++: already at end"
  if it.cur < s.length then
    if it.cur + 1 = s.length then
      if it.frag + 1 = fs.length then pure ⟨it.frag, s.length⟩
      else pure ⟨it.frag + 1, 0⟩
    else pure ⟨it.frag, it.cur + 1⟩
  else .ub

/-- `operator--` (string/fragment_string.hpp:119-130). -/
def decr (b : Build) (fs : FragStr C) (it : It) : Outcome It := do
  debugAssert b (!(decide (it.frag = 0) && decide (it.cur = 0)))
    "fragment_string::operator--: already at beginning"
  if it.cur = 0 then
    if it.frag = 0 then .ub
    else do
      let s ← fragAt fs (it.frag - 1)
      if s.length = 0 then .ub else pure ⟨it.frag - 1, s.length - 1⟩
  else pure ⟨it.frag, it.cur - 1⟩

/-- `_seek_forward` (string/fragment_string.hpp:185-207) with `current` at offset `cur` of the first
of the remaining fragments, which has index `i`.  Once an iterator stands at the end of the
last fragment the loop changes nothing any more, so an offset that is left over keeps it
running for ever. -/
def seekForward (b : Build) (i : Nat) : FragStr C → Nat → Nat → Outcome It
  | [], _, _ => .ub
  | [s], cur, offset =>
    if offset = 0 then .ok ⟨i, cur⟩
    else
      let dist := s.chars.length - cur
      if offset < dist then .ok ⟨i, cur + offset⟩
      else do
        debugAssert b (decide (offset = dist))
          "fragment_string::_seek_forward: trying to seek beyond end of range"
        if offset - dist = 0 then pure ⟨i, s.chars.length⟩ else .diverge
  | s :: t :: rest, cur, offset =>
    if offset = 0 then .ok ⟨i, cur⟩
    else
      let dist := s.chars.length - cur
      if offset < dist then .ok ⟨i, cur + offset⟩
      else seekForward b (i + 1) (t :: rest) 0 (offset - dist)

/-- `_seek_backward` (string/fragment_string.hpp:209-223) from offset `cur` of fragment `i`. -/
def seekBackward (b : Build) (fs : FragStr C) : Nat → Nat → Nat → Outcome It
  | 0, cur, offset =>
    if offset ≤ cur then .ok ⟨0, cur - offset⟩
    else do
      debugAssert b false "fragment_string::_seek_backward: trying to seek to before start of range"
      .ub
  | i + 1, cur, offset =>
    if offset ≤ cur then .ok ⟨i + 1, cur - offset⟩
    else do
      let s ← fragAt fs i
      seekBackward b fs i s.length (offset - cur)

/-- The negation of a `difference_type`: undefined for the most negative value. -/
def negDiff (d : Int) : Outcome Int := if d = -(2 ^ 63) then .ub else .ok (-d)

/-- `_seek` (string/fragment_string.hpp:177-183). -/
def seek (b : Build) (fs : FragStr C) (it : It) (d : Int) : Outcome It :=
  if 0 < d then seekForward b it.frag (fs.drop it.frag) it.cur d.toNat
  else do
    let k ← negDiff d
    seekBackward b fs it.frag it.cur k.toNat

/-- `operator+=` and `operator+` (string/fragment_string.hpp:132-135, 142-146). -/
def plus (b : Build) (fs : FragStr C) (it : It) (d : Int) : Outcome It := seek b fs it d

/-- `operator-=` and `operator-(difference_type)` (string/fragment_string.hpp:137-140, 148-152). -/
def minus (b : Build) (fs : FragStr C) (it : It) (d : Int) : Outcome It := do
  let k ← negDiff d
  seek b fs it k

/-- `_sublength` (string/fragment_string.hpp:225-229). -/
def sublength (fs : FragStr C) (lo hi : Nat) : Nat := length ((fs.drop lo).take (hi - lo))

/-- `_distance` (string/fragment_string.hpp:231-237); the sum is taken modulo `2 ^ 64` and read as
a signed number there. -/
def distance (fs : FragStr C) (low high : It) : Int := (sublength fs low.frag high.frag : Int) - low.cur + high.cur

/-- `operator-(const iterator&)` (string/fragment_string.hpp:154-167): `x - y`. -/
def diff (fs : FragStr C) (x y : It) : Int :=
  if y.frag < x.frag then distance fs y x
  else if x.frag < y.frag then -distance fs x y
  else (x.cur : Int) - y.cur

/-- `begin()` (string/fragment_string.hpp:285-289); an array of no fragments has no front. -/
def begin' : FragStr C → Outcome It
  | [] => .ub
  | _ :: _ => .ok ⟨0, 0⟩

/-- `end()` (string/fragment_string.hpp:290-294). -/
def end' (fs : FragStr C) : Outcome It :=
  match fs.getLast? with
  | none => .ub
  | some s => .ok ⟨fs.length - 1, s.chars.length⟩

/-! ## Iterators as the algorithms of the standard library see them -/

/-- The operations of a random-access iterator type (no counterpart in `/repo`; the
algorithms below are function templates there and in the standard library). -/
structure Iter (σ C : Type) where
  /-- `*it` -/
  deref : σ → Outcome C
  /-- `++it` -/
  next : σ → Outcome σ
  /-- `it + n` -/
  plus : σ → Int → Outcome σ
  /-- `x - y` -/
  diff : σ → σ → Int
  /-- `x == y` -/
  eq : σ → σ → Bool

/-- The iterators of a fragment string (string/fragment_string.hpp:45-238). -/
def fwd (b : Build) (fs : FragStr C) : Iter It C where
  deref := Str.deref b fs
  next := incr b fs
  plus := Str.plus b fs
  diff := Str.diff fs
  eq := It.eq

/-- `std::reverse_iterator` of these (string/fragment_string.hpp:248-249, 295-298), given by its base. -/
def rev (b : Build) (fs : FragStr C) : Iter It C where
  deref := fun it => do
    let t ← decr b fs it
    Str.deref b fs t
  next := decr b fs
  plus := minus b fs
  diff := fun x y => Str.diff fs y x
  eq := It.eq

/-- The iterators of a string view or string: offsets into its characters. -/
def view (s : List C) : Iter Nat C where
  deref := fun i => match s[i]? with
    | some c => .ok c
    | none => .ub
  next := fun i => if i < s.length then .ok (i + 1) else .ub
  plus := fun i d => if 0 ≤ (i : Int) + d ∧ (i : Int) + d ≤ s.length then .ok ((i : Int) + d).toNat else .ub
  diff := fun x y => (x : Int) - y
  eq := fun x y => decide (x = y)

/-- `std::reverse_iterator` of these, given by its base. -/
def rview (s : List C) : Iter Nat C where
  deref := fun i => if 0 < i then (match s[i - 1]? with
    | some c => .ok c
    | none => .ub) else .ub
  next := fun i => if 0 < i then .ok (i - 1) else .ub
  plus := fun i d => if 0 ≤ (i : Int) - d ∧ (i : Int) - d ≤ s.length then .ok ((i : Int) - d).toNat else .ub
  diff := fun x y => (y : Int) - x
  eq := fun x y => decide (x = y)

/-- The characters read by `for (; i != last; ++i) out.push_back(*i);` in at most `fuel` rounds. -/
def readLoop {σ : Type} (I : Iter σ C) : Nat → σ → σ → Outcome (List C)
  | 0, _, _ => .diverge
  | fuel + 1, i, last =>
    if I.eq i last then .ok []
    else do
      let c ← I.deref i
      let j ← I.next i
      let cs ← readLoop I fuel j last
      pure (c :: cs)

/-- `std::basic_string(first, last)` for random-access iterators: a range whose end lies before
its beginning is undefined. -/
def readRange {σ : Type} (I : Iter σ C) (first last : σ) : Outcome (List C) :=
  if I.diff last first < 0 then .ub
  else readLoop I ((I.diff last first).toNat + 1) first last

/-- `std::copy_n(first, n, dest)`: the characters written to `dest`. -/
def copyN {σ : Type} (I : Iter σ C) : Nat → σ → Outcome (List C)
  | 0, _ => .ok []
  | n + 1, i => do
    let c ← I.deref i
    let j ← I.next i
    let cs ← copyN I n j
    pure (c :: cs)

section
variable [DecidableEq C] {σ τ : Type}

/-- The loop of `std::equal(first1, last1, first2)`. -/
def equalLoop (I : Iter σ C) (J : Iter τ C) : Nat → σ → σ → τ → Outcome Bool
  | 0, _, _, _ => .diverge
  | fuel + 1, i, last, j =>
    if I.eq i last then .ok true
    else do
      let x ← I.deref i
      let y ← J.deref j
      if x = y then do
        let i' ← I.next i
        let j' ← J.next j
        equalLoop I J fuel i' last j'
      else pure false

/-- `std::equal(first1, last1, first2, last2)` for random-access iterators: compares the lengths first. -/
def stdEqual (I : Iter σ C) (J : Iter τ C) (first1 last1 : σ) (first2 last2 : τ) : Outcome Bool :=
  if I.diff last1 first1 = J.diff last2 first2 then
    equalLoop I J ((I.diff last1 first1).toNat + 1) first1 last1 first2
  else .ok false

end

/-! ## Access -/

/-- The conversion of a `size_type` to a `difference_type`. -/
def toDiff (n : Nat) : Int := if n % 2 ^ 64 < 2 ^ 63 then ((n % 2 ^ 64 : Nat) : Int) else ((n % 2 ^ 64 : Nat) : Int) - 2 ^ 64

/-- `operator[]` (string/fragment_string.hpp:308). -/
def index (b : Build) (fs : FragStr C) (pos : Nat) : Outcome C := noexcept do
  let first ← begin' fs
  let it ← plus b fs first (toDiff pos)
  deref b fs it

/-- `at(pos)` (string/fragment_string.hpp:300-306). -/
def at' (b : Build) (fs : FragStr C) (pos : Nat) : Outcome C :=
  if length fs ≤ pos then .throw (.outOfRange "Error: accessing fragment_string beyond end of string")
  else index b fs pos

/-- `front()` (string/fragment_string.hpp:310-314): the front of an empty view is undefined. -/
def front (b : Build) (fs : FragStr C) : Outcome C := do
  debugAssert b (decide (0 < length fs)) "accessing fragment_string beyond end of string"
  match fs.head? with
  | none => .ub
  | some f => match f.chars.head? with
    | none => .ub
    | some c => pure c

/-- `back()` (string/fragment_string.hpp:316-320). -/
def back (b : Build) (fs : FragStr C) : Outcome C := do
  debugAssert b (decide (0 < length fs)) "accessing fragment_string beyond end of string"
  match fs.getLast? with
  | none => .ub
  | some f => match f.chars.getLast? with
    | none => .ub
    | some c => pure c

/-! ## Comparison -/

section
variable [LinearOrder C] {σ : Type}

/-- The loop of `_compare` (string/fragment_string.hpp:504-527); each round moves `it_this`
forward, so `length() + 1` rounds are enough. -/
def compareLoop (b : Build) (fs : FragStr C) (J : Iter σ C) (endThis : It) (last : σ) : Nat → It → σ → Outcome Int
  | 0, _, _ => .diverge
  | fuel + 1, it, j =>
    if it.eq endThis then
      if J.eq j last then .ok 0 else .ok (-1)
    else if J.eq j last then .ok 1
    else do
      let x ← deref b fs it
      let y ← J.deref j
      if x < y then pure (-1)
      else if y < x then pure 1
      else do
        let it' ← incr b fs it
        let j' ← J.next j
        compareLoop b fs J endThis last fuel it' j'

/-- `_compare` (string/fragment_string.hpp:502-528). -/
def compareIter (b : Build) (fs : FragStr C) (J : Iter σ C) (first last : σ) : Outcome Int := do
  let itThis ← begin' fs
  let endThis ← end' fs
  compareLoop b fs J endThis last (length fs + 1) itThis first

/-- `compare(string_view)` and `compare(string)` (string/fragment_string.hpp:324-329). -/
def compareView (b : Build) (fs : FragStr C) (s : List C) : Outcome Int :=
  compareIter b fs (view s) 0 s.length

/-- `compare(const char*)` (string/fragment_string.hpp:330-332). -/
def comparePtr [Zero C] (b : Build) (fs : FragStr C) (mem : List C) : Outcome Int := compareView b fs (cstr mem)

/-- `compare(fragment_string)` (string/fragment_string.hpp:334-338). -/
def compareFs (b : Build) (fs gs : FragStr C) : Outcome Int := do
  let first ← begin' gs
  let last ← end' gs
  compareIter b fs (fwd b gs) first last

end

/-! ## Prefixes and suffixes -/

section
variable [DecidableEq C] {σ τ : Type}

/-- `_match_substring` (string/fragment_string.hpp:485-500). -/
def matchSubstring (I : Iter σ C) (J : Iter τ C) (thisBegin : σ) (thisLength : Nat)
    (otherBegin otherEnd : τ) (otherLength : Nat) : Outcome Bool :=
  if thisLength = 0 then .ok false
  else if thisLength < otherLength then .ok false
  else do
    let thisEnd ← I.plus thisBegin (toDiff otherLength)
    stdEqual J I otherBegin otherEnd thisBegin thisEnd

/-- `starts_with(c)` (string/fragment_string.hpp:340). -/
def startsWithChar (b : Build) (fs : FragStr C) (c : C) : Outcome Bool := noexcept do
  if empty fs then pure false
  else do
    let x ← front b fs
    pure (decide (x = c))

/-- `starts_with(string_view)` (string/fragment_string.hpp:342-344). -/
def startsWithView (b : Build) (fs : FragStr C) (s : List C) : Outcome Bool := noexcept do
  let first ← begin' fs
  matchSubstring (fwd b fs) (view s) first (length fs) 0 s.length s.length

/-- `starts_with(const Char_T*)` (string/fragment_string.hpp:346-348). -/
def startsWithPtr [Zero C] (b : Build) (fs : FragStr C) (mem : List C) : Outcome Bool := startsWithView b fs (cstr mem)

/-- `starts_with(fragment_string)` (string/fragment_string.hpp:350-353). -/
def startsWithFs (b : Build) (fs gs : FragStr C) : Outcome Bool := noexcept do
  let first ← begin' fs
  let gfirst ← begin' gs
  let glast ← end' gs
  matchSubstring (fwd b fs) (fwd b gs) first (length fs) gfirst glast (length gs)

/-- `ends_with(c)` (string/fragment_string.hpp:355). -/
def endsWithChar (b : Build) (fs : FragStr C) (c : C) : Outcome Bool := noexcept do
  if empty fs then pure false
  else do
    let x ← back b fs
    pure (decide (x = c))

/-- `ends_with(string_view)` (string/fragment_string.hpp:357-359). -/
def endsWithView (b : Build) (fs : FragStr C) (s : List C) : Outcome Bool := noexcept do
  let last ← end' fs
  matchSubstring (rev b fs) (rview s) last (length fs) s.length 0 s.length

/-- `ends_with(const Char_T*)` (string/fragment_string.hpp:361-363). -/
def endsWithPtr [Zero C] (b : Build) (fs : FragStr C) (mem : List C) : Outcome Bool := endsWithView b fs (cstr mem)

/-- `ends_with(fragment_string)` (string/fragment_string.hpp:365-368). -/
def endsWithFs (b : Build) (fs gs : FragStr C) : Outcome Bool := noexcept do
  let last ← end' fs
  let gfirst ← begin' gs
  let glast ← end' gs
  matchSubstring (rev b fs) (rev b gs) last (length fs) glast gfirst (length gs)

/-! ## Searching -/

/-- `std::string::npos` (string/fragment_string.hpp:375, 405, 431). -/
def npos : Nat := 2 ^ 64 - 1

/-- The loop of `_seek_fragment_containing_position` (string/fragment_string.hpp:535-545): `i` fragments,
the last of them of length `prev`, have been passed and `checked` is their total length. -/
def seekFragmentLoop (pos : Nat) (i checked prev : Nat) : FragStr C → Outcome (Nat × Nat)
  | [] => if checked ≤ pos then .ub else .ok (i - 1, checked - prev)
  | f :: fs =>
    if checked ≤ pos then seekFragmentLoop pos (i + 1) (checked + f.chars.length) f.chars.length fs
    else .ok (i - 1, checked - prev)

/-- `_seek_fragment_containing_position` (string/fragment_string.hpp:530-546). -/
def seekFragment (fs : FragStr C) (pos : Nat) : Outcome (Nat × Nat) :=
  if pos = 0 then .ok (0, 0) else seekFragmentLoop pos 0 0 0 fs

/-- The loop of `find(ch, pos)` (string/fragment_string.hpp:438-447) over the remaining fragments. -/
def findCharLoop (ch : C) : Nat → FragStr C → Nat
  | _, [] => npos
  | checked, f :: fs =>
    match f.chars.idxOf? ch with
    | none => findCharLoop ch (checked + f.chars.length) fs
    | some p => checked + p

/-- `find(ch, pos)` (string/fragment_string.hpp:431-448). -/
def findChar (fs : FragStr C) (ch : C) (pos : Nat) : Outcome Nat :=
  if length fs ≤ pos then .ok npos
  else do
    let (i, checked) ← seekFragment fs pos
    pure (findCharLoop ch checked (fs.drop i))

/-- The loop of `find(sv, pos)` (string/fragment_string.hpp:471-479); each round moves `curr_end`
forward, so `length() + 1` rounds are enough. -/
def findLoop (b : Build) (fs : FragStr C) (s : List C) (thisEnd : It) : Nat → It → It → Nat → Outcome Nat
  | 0, _, _, _ => .diverge
  | fuel + 1, it, currEnd, out => do
    let same ← stdEqual (view s) (fwd b fs) 0 s.length it currEnd
    if same then pure out
    else if currEnd.eq thisEnd then pure npos
    else do
      let it' ← incr b fs it
      let currEnd' ← incr b fs currEnd
      findLoop b fs s thisEnd fuel it' currEnd' (out + 1)

/-- `find(sv, pos)` (string/fragment_string.hpp:450-482); `pos + sv.size()` is computed modulo `2 ^ 64`. -/
def findView (b : Build) (fs : FragStr C) (s : List C) (pos : Nat) : Outcome Nat := noexcept do
  if length fs < (pos + s.length) % 2 ^ 64 then pure npos
  else if length fs < s.length then pure npos
  else do
    let thisEnd ← end' fs
    let (i, checked) ← seekFragment fs pos
    let start : It := ⟨i, pos - checked⟩
    let currEnd ← plus b fs start (toDiff s.length)
    findLoop b fs s thisEnd (length fs + 1) start currEnd pos

/-- `contains(c)` (string/fragment_string.hpp:370-372). -/
def containsChar (fs : FragStr C) (c : C) : Bool := fs.any (fun f => (f.chars.idxOf? c).isSome)

/-- `contains(string_view)` (string/fragment_string.hpp:374-376). -/
def containsView (b : Build) (fs : FragStr C) (s : List C) : Outcome Bool := do
  let i ← findView b fs s 0
  pure (decide (npos ≠ i))

/-- `contains(const Char_T*)` (string/fragment_string.hpp:378-380). -/
def containsPtr [Zero C] (b : Build) (fs : FragStr C) (mem : List C) : Outcome Bool := containsView b fs (cstr mem)

/-- The loop of `contains(fragment_string)` (string/fragment_string.hpp:395-399). -/
def containsLoop (b : Build) (fs gs : FragStr C) (otherBegin otherEnd thisEnd : It) : Nat → It → Outcome Bool
  | 0, _ => .ok false
  | effectiveLen + 1, it =>
    if it.eq thisEnd then .ok false
    else do
      let stop ← plus b fs it (toDiff (length gs))
      let same ← stdEqual (fwd b gs) (fwd b fs) otherBegin otherEnd it stop
      if same then pure true
      else do
        let it' ← incr b fs it
        containsLoop b fs gs otherBegin otherEnd thisEnd effectiveLen it'

/-- `contains(fragment_string)` (string/fragment_string.hpp:382-402). -/
def containsFs (b : Build) (fs gs : FragStr C) : Outcome Bool := noexcept do
  if length fs < length gs then pure false
  else do
    let otherBegin ← begin' gs
    let otherEnd ← end' gs
    let first ← begin' fs
    let thisEnd ← plus b fs first (toDiff (length fs - length gs))
    containsLoop b fs gs otherBegin otherEnd thisEnd (length fs) first

end

/-! ## Slices -/

/-- `substr(pos, count)` (string/fragment_string.hpp:404-415). -/
def substr (b : Build) (fs : FragStr C) (pos count : Nat) : Outcome (List C) :=
  if length fs ≤ pos then .throw (.outOfRange "fragment_string: substring start out of range")
  else do
    let first ← begin' fs
    let stop ← (if count = npos ∨ length fs ≤ (pos + count) % 2 ^ 64 then end' fs
      else plus b fs first (toDiff ((pos + count) % 2 ^ 64)))
    let start ← plus b fs first (toDiff pos)
    readRange (fwd b fs) start stop

/-- `copy(dest, count, pos)` (string/fragment_string.hpp:417-429): the count returned and the
characters written to `dest`, which must have room for them. -/
def copy (b : Build) (fs : FragStr C) (count pos : Nat) : Outcome (Nat × List C) :=
  if length fs ≤ pos then .throw (.outOfRange "fragment_string: copy start out of range")
  else do
    let n := min count (length fs - pos)
    let first ← begin' fs
    let start ← plus b fs first (toDiff pos)
    let cs ← copyN (fwd b fs) n start
    pure (n, cs)

end Wite.Str
