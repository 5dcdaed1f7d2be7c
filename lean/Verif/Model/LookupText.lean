import Verif.Model.Outcome

/-!
# Model of `static_lookup` with text

What `static_lookup` does with keys or values that are C strings, string views or strings.  Pointers and views
refer to memory that the program may change between the calls; a `std::string` in the lookup is a copy.

Simplified: characters are numbers; memory is one array of characters, some of which belong to no object that
is alive (reading these is undefined); a `std::string` the caller has is its characters in this memory;
copying a string always finds memory; the other component of the pairs is any type at all.  With `constexpr`
lookups the compiler refuses what is undefined here, and also comparisons of addresses of different literals.
-/

namespace Wite.LookupText

/-- Memory: the character at each address, if one is alive there.  No counterpart in /repo. -/
abbrev Mem := List (Option Nat)

/-- `n` characters from an address on; undefined if one of them is not alive.  No counterpart in /repo. -/
def charsAt (m : Mem) (a : Nat) : Nat → Outcome (List Nat)
  | 0 => .ok []
  | n + 1 =>
    match m[a]? with
    | some (some c) => do
      let cs ← charsAt m (a + 1) n
      pure (c :: cs)
    | _ => .ub

/-- The characters of memory up to a NUL; undefined if there is none.  No counterpart in /repo. -/
def untilNul : Mem → Outcome (List Nat)
  | some c :: m => if c = 0 then .ok [] else do
    let cs ← untilNul m
    pure (c :: cs)
  | _ => .ub

/-- The C string at an address.  No counterpart in /repo. -/
def cString (m : Mem) (a : Nat) : Outcome (List Nat) := untilNul (m.drop a)

/-- Text as a caller has it: a pointer (a literal, once it is put into a pair), a view, or a string
(README.md:522-542). -/
inductive Arg where
  | pointer (a : Nat)
  | view (a n : Nat)
  | string (a n : Nat)
  deriving DecidableEq, Repr

/-- The types text can have in a lookup: `const char*`, `std::string_view`, `std::string`
(collections/static_lookup.hpp:37-39). -/
inductive Kind where
  | pointer
  | view
  | string
  deriving DecidableEq, Repr

/-- Text in a lookup (collections/static_lookup.hpp:83). -/
inductive Cell where
  | pointer (a : Nat)
  | view (a n : Nat)
  /-- A view of `n` characters of a string that is gone -/
  | dangling (n : Nat)
  | string (cs : List Nat)
  deriving DecidableEq, Repr

/-- The type of an argument. -/
def Arg.kind : Arg → Kind
  | .pointer _ => .pointer
  | .view _ _ => .view
  | .string _ _ => .string

/-- The implicit conversion of an argument of `at` or `with` to the type of the text in the lookup
(collections/static_lookup.hpp:49-55); `none` where there is none.  A view of a C string has as many characters
as there are before the NUL. -/
def convert (m : Mem) : Kind → Arg → Option (Outcome Cell)
  | .pointer, .pointer a => some (.ok (.pointer a))
  | .view, .pointer a => some (do
      let cs ← cString m a
      pure (.view a cs.length))
  | .view, .view a n => some (.ok (.view a n))
  | .view, .string a n => some (.ok (.view a n))
  | .string, .pointer a => some (do
      let cs ← cString m a
      pure (.string cs))
  | .string, .string a n => some (do
      let cs ← charsAt m a n
      pure (.string cs))
  | .string, .view _ _ => none
  | .pointer, _ => none

/-- The conversion of the text of a mapping (collections/static_lookup.hpp:44, 58-66): the same, but the pairs
are passed by value, so that a view made of a string is one of a copy that is gone when the lookup is made. -/
def store (m : Mem) : Kind → Arg → Option (Outcome Cell)
  | .view, .string _ n => some (.ok (.dangling n))
  | k, arg => convert m k arg

/-- `==` of text in the lookup and the converted argument (collections/static_lookup.hpp:70): pointers are
compared, not what they point to; views of different lengths are different without being read. -/
def same (m : Mem) : Cell → Cell → Outcome Bool
  | .pointer a, .pointer b => .ok (a == b)
  | .view a n, .view b k =>
    if n = k then do
      let x ← charsAt m a n
      let y ← charsAt m b k
      pure (x == y)
    else .ok false
  | .dangling n, .view _ k => if n = k then (if n = 0 then .ok true else .ub) else .ok false
  | .string x, .string y => .ok (x == y)
  | _, _ => .ub

/-- A lookup with text: the type of the text and the items (collections/static_lookup.hpp:83). -/
structure Lookup (ρ : Type) where
  kind : Kind
  items : List (Cell × ρ)

/-- The mappings one after another (collections/static_lookup.hpp:58-66); `none` if one of them does not
convert. -/
def initItems {ρ : Type} (m : Mem) (k : Kind) : List (Arg × ρ) → Option (Outcome (List (Cell × ρ)))
  | [] => some (.ok [])
  | p :: ps =>
    match store m k p.1, initItems m k ps with
    | some c, some rest => some (do
        let c ← c
        let cs ← rest
        pure ((c, p.2) :: cs))
    | _, _ => none

/-- `static_lookup{mappings...}` (collections/static_lookup.hpp:42-46, 88-93): the type of the text is that of
the first mapping; `none` if it does not compile. -/
def construct {ρ : Type} (m : Mem) : List (Arg × ρ) → Option (Outcome (Lookup ρ))
  | [] => none
  | p :: ps =>
    match initItems m p.1.kind (p :: ps) with
    | some items => some (do
        let cs ← items
        pure ⟨p.1.kind, cs⟩)
    | none => none

/-- `get` (collections/static_lookup.hpp:68-76): the items are compared in order until one is the same. -/
def find {ρ : Type} (m : Mem) (x : Cell) : List (Cell × ρ) → Outcome ρ
  | [] => .throw (.outOfRange "Invalid item")
  | p :: ps => do
    let b ← same m p.1 x
    if b then pure p.2 else find m x ps

/-- `at(text)` where the keys are text, `with(text)` where the values are (collections/static_lookup.hpp:49-55);
`none` if it does not compile. -/
def lookUp {ρ : Type} (m : Mem) (t : Lookup ρ) (arg : Arg) : Option (Outcome ρ) :=
  match convert m t.kind arg with
  | some c => some (do
      let x ← c
      find m x t.items)
  | none => none

end Wite.LookupText
