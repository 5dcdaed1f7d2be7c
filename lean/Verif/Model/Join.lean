import Verif.Model.Outcome

/-!
# Model of `wite/string/join.hpp`
-/

namespace Wite.Join

variable {α : Type u}

/-- Writing one code unit through the output iterator at offset `pos` of the
preallocated string: outside the string it is undefined behaviour. -/
def writeOne (st : List α × Nat) (c : α) : Outcome (List α × Nat) :=
  if st.2 < st.1.length then .ok (st.1.set st.2 c, st.2 + 1) else .ub

/-- `std::copy(s.begin(), s.end(), pos)` one element at a time. -/
def copyInto : List α × Nat → List α → Outcome (List α × Nat)
  | st, [] => .ok st
  | st, c :: cs => do
    let st' ← writeOne st c
    copyInto st' cs

/-- The body of the `for_each` over the second and later strings
(string/join.hpp:63-66): write the delimiter, then copy the string. -/
def appendAll (delim : α) : List α × Nat → List (List α) → Outcome (List α × Nat)
  | st, [] => .ok st
  | st, s :: ss => do
    let st1 ← writeOne st delim
    let st2 ← copyInto st1 s
    appendAll delim st2 ss

/-- The size preallocated by `join` (string/join.hpp:56-58).  Sizes are exact natural
numbers: total lengths beyond 2^64 cannot exist in memory. -/
def joinSize (strings : List (List α)) : Nat :=
  strings.foldl (fun curr s => curr + s.length) 0 + strings.length - 1

/-- `join` (string/join.hpp:42-70).  `zero` is `Char_t{}`, the fill character. -/
def join (zero : α) (strings : List (List α)) (delim : α) : Outcome (List α) :=
  match strings with
  | [] => .ok []
  | [s] => .ok s
  | s :: ss => do
    let buf := List.replicate (joinSize (s :: ss)) zero
    let st ← copyInto (buf, 0) s
    let st' ← appendAll delim st ss
    pure st'.1

end Wite.Join
