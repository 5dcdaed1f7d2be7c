import Verif.Model.Split
import Verif.Model.StaticVector

/-!
# Model of `split_to` (`wite/string/split.hpp`) for result types other than `std::vector`

`split_to` only asks of its result type that it can be made without arguments and has a `push_back`.
The result under construction is a state `σ`; `push` is its `push_back`.
-/

namespace Wite.Split

variable {α : Type} [DecidableEq α] {σ : Type}

/-- The `while (true)` loop of `split_to` (string/split.hpp:78-92) with the `push_back` of any result
type (string/split.hpp:83).  What does not end normally leaves the loop. -/
def splitLoop (push : List α → St σ Unit) (s : List α) (delim : α) (b : Behaviour) : St σ Unit := fun out =>
  let r := firstToken s delim b
  match (if b = .keepEmpty ∨ (b = .dropEmpty ∧ r.1 ≠ []) then (push r.1).run out else (.ok (), out)) with
  | (.ok (), out') =>
    if _h : r.2.2 = true then (splitLoop push r.2.1 delim b).run out' else (.ok (), out')
  | stopped => stopped
termination_by s.length
decreasing_by exact firstToken_shorter s delim b _h

/-- `split_to<Result_T>` (string/split.hpp:73-95): `start` is `Result_T{}`; the function is `noexcept`. -/
def splitInto (start : σ) (push : List α → St σ Unit) (s : List α) (delim : α) (b : Behaviour) : Outcome σ :=
  noexcept (match (splitLoop push s delim b).run start with
    | (.ok (), out) => .ok out
    | (.throw e, _) => .throw e
    | (.ub, _) => .ub
    | (.terminate, _) => .terminate
    | (.diverge, _) => .diverge)

/-- `split_to<static_vector<std::basic_string<Char_T>, cap>>` (string/split.hpp:73-95 with
collections/static_vector.hpp:157-159). -/
def splitToStatic (cap : Nat) (s : List α) (delim : α) (b : Behaviour) :
    Outcome (Collections.StaticVector (List α)) :=
  splitInto (Collections.StaticVector.empty cap) Collections.StaticVector.pushBack s delim b

/-- The pointer overload of `split_to` with a `static_vector` (string/split.hpp:99-113). -/
def splitToStaticPtr (cap : Nat) (p : Option (List Nat)) (delim : Nat) (b : Behaviour) :
    Outcome (Collections.StaticVector (List Nat)) :=
  match p with
  | none => .ok (Collections.StaticVector.empty cap)
  | some m => do
    let s ← viewOfPtr m
    splitToStatic cap s delim b

end Wite.Split
