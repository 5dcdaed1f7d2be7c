import Verif.Model.Split

/-!
# Model of `split_to` with views as pieces

File: string/split.hpp.  A `std::basic_string_view` is a pair of iterators into the memory its text lives in, here
offsets; reading outside of the memory is undefined behaviour.  Nothing is copied: the pieces are views of the same
memory.
-/

namespace Wite.SplitViews

open Wite.Split

variable {α : Type u} [DecidableEq α]

/-- A view: the offsets of its first character and of the end. -/
structure View where
  start : Nat
  stop : Nat
  deriving DecidableEq, Repr

/-- `std::find(first, first + n, delimiter)` in memory: the offset of the first occurrence or of the end. -/
def find (mem : List α) (delim : α) : (n first : Nat) → Outcome Nat
  | 0, first => .ok first
  | n + 1, first =>
    match mem[first]? with
    | none => .ub
    | some c => if c = delim then .ok first else find mem delim n (first + 1)

/-- `std::find_if(first, first + n, c != delimiter)` (string/split.hpp:43). -/
def findNot (mem : List α) (delim : α) : (n first : Nat) → Outcome Nat
  | 0, first => .ok first
  | n + 1, first =>
    match mem[first]? with
    | none => .ub
    | some c => if c ≠ delim then .ok first else findNot mem delim n (first + 1)

/-- `advance_past_delimiter` (string/split.hpp:36-47). -/
def advance (mem : List α) (begin stop : Nat) (delim : α) (b : Behaviour) : Outcome Nat :=
  match b with
  | .keepEmpty => .ok (if begin = stop then begin else begin + 1)
  | .dropEmpty => findNot mem delim (stop - begin) begin

/-- `first_token<std::basic_string_view>` (string/split.hpp:58-67). -/
def firstToken (mem : List α) (v : View) (delim : α) (b : Behaviour) : Outcome (View × View × Bool) := do
  let tokenEnd ← find mem delim (v.stop - v.start) v.start
  let next ← advance mem tokenEnd v.stop delim b
  pure (⟨v.start, tokenEnd⟩, ⟨next, v.stop⟩, tokenEnd != v.stop)

/-- The `while (true)` loop of `split_to` (string/split.hpp:78-94), for a number of turns; more turns than given count
as a loop that does not end. -/
def loop (mem : List α) (delim : α) (b : Behaviour) : (turns : Nat) → View → Outcome (List View)
  | 0, _ => .diverge
  | turns + 1, v => do
    let (token, remainder, performed) ← firstToken mem v delim b
    let here := if b = .keepEmpty ∨ (b = .dropEmpty ∧ token.start ≠ token.stop) then [token] else []
    if performed then do
      let rest ← loop mem delim b turns remainder
      pure (here ++ rest)
    else pure here

/-- `split_to<std::vector<std::basic_string_view>>` (string/split.hpp:73-95). -/
def splitTo (mem : List α) (v : View) (delim : α) (b : Behaviour) : Outcome (List View) :=
  loop mem delim b (v.stop - v.start + 1) v

end Wite.SplitViews
