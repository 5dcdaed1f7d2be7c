import Verif.Model.Outcome

/-!
# Model of `wite/string/split.hpp`

A `basic_string_view` is a `List α` of code units; an iterator into it is the
suffix starting at that iterator (so `begin == end` is "the suffix is empty").
-/

namespace Wite.Split

variable {α : Type u} [DecidableEq α]

/-- `enum class split_behaviour` (string/split.hpp:30). -/
inductive Behaviour where
  | keepEmpty
  | dropEmpty
  deriving DecidableEq, Repr

/-- `detail::split::advance_past_delimiter` (string/split.hpp:36-47).
`begin` is the suffix starting at `token_end`. -/
def advancePastDelimiter (begin : List α) (delim : α) (b : Behaviour) : List α :=
  match b with
  | .keepEmpty =>
    match begin with
    | [] => []            -- begin == end ? begin
    | _ :: rest => rest   -- : std::next(begin)
  | .dropEmpty => begin.dropWhile (fun c => !(c != delim))  -- find_if(c != delimiter)

/-- `detail::split::first_token` (string/split.hpp:58-67): the token, the remainder
and whether a split was performed. -/
def firstToken (s : List α) (delim : α) (b : Behaviour) : List α × List α × Bool :=
  let tokenEnd := s.dropWhile (fun c => !(c == delim))   -- std::find
  let token := s.takeWhile (fun c => !(c == delim))
  (token, advancePastDelimiter tokenEnd delim b, !tokenEnd.isEmpty)

omit [DecidableEq α] in
theorem dropWhile_length_le (p : α → Bool) (l : List α) : (l.dropWhile p).length ≤ l.length := by
  induction l with
  | nil => simp
  | cons x xs ih => simp only [List.dropWhile_cons]; split <;> simp <;> omega

theorem firstToken_shorter (s : List α) (delim : α) (b : Behaviour)
    (h : (firstToken s delim b).2.2 = true) :
    (firstToken s delim b).2.1.length < s.length := by
  simp only [firstToken] at h ⊢
  have hle := dropWhile_length_le (fun c => !(c == delim)) s
  have hhead := List.head?_dropWhile_not (fun c => !(c == delim)) s
  revert h hle hhead
  generalize s.dropWhile (fun c => !(c == delim)) = te
  intro h hle hhead
  cases te with
  | nil => simp at h
  | cons x xs =>
    cases b with
    | keepEmpty => simp [advancePastDelimiter] at hle ⊢; omega
    | dropEmpty =>
      have h2 := dropWhile_length_le (fun c => !(c != delim)) xs
      simp at hhead
      simp [advancePastDelimiter, hhead] at hle h2 ⊢
      omega

/-- The `while (true)` loop of `split_to` (string/split.hpp:78-94).  It terminates
because a remainder is only used after a split was performed, and is then shorter. -/
def splitTo (s : List α) (delim : α) (b : Behaviour) : List (List α) :=
  let r := firstToken s delim b
  let here := if b = .keepEmpty ∨ (b = .dropEmpty ∧ r.1 ≠ []) then [r.1] else []
  if _h : r.2.2 = true then
    here ++ splitTo r.2.1 delim b
  else
    here
termination_by s.length
decreasing_by exact firstToken_shorter s delim b _h

/-- `split` on a string view (string/split.hpp:117-122): `split_to` a vector. -/
def split (s : List α) (delim : α) (b : Behaviour) : List (List α) := splitTo s delim b

/-- Memory seen through a `const Char_T*`: `none` is the null pointer, `some m` the
code units from the pointer to the end of the object it points into (code unit 0 is NUL).
Converting a pointer to a `basic_string_view` scans for NUL; running off the end of the
object is undefined behaviour. -/
def viewOfPtr (m : List Nat) : Outcome (List Nat) :=
  if 0 ∈ m then .ok (m.takeWhile (· != 0)) else .ub

/-- The pointer overload `split_to(const Char_T*, ...)` (string/split.hpp:99-113). -/
def splitToPtr (p : Option (List Nat)) (delim : Nat) (b : Behaviour) : Outcome (List (List Nat)) :=
  match p with
  | none => .ok []
  | some m => do
    let s ← viewOfPtr m
    pure (splitTo s delim b)

/-- The pointer overload `split(const Char_T*)` (string/split.hpp:126-139): space
delimiter (32) and the default behaviour `drop_empty`. -/
def splitPtr (p : Option (List Nat)) : Outcome (List (List Nat)) :=
  match p with
  | none => .ok []
  | some m => do
    let s ← viewOfPtr m
    pure (split s 32 .dropEmpty)

end Wite.Split
