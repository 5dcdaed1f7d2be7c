/-!
# Specification vocabulary for the string functions

Nothing here refers to the model.  `List.intercalate [c] ps` of the Lean library is
the pieces `ps` separated by single `c`s.
-/

namespace Wite.Spec

variable {α : Type u}

/-- `pieces` is a decomposition of `s` into `c`-separated fields: at least one field, no
field contains the separator, and writing the fields separated by `c` gives `s`. -/
structure IsFieldDecomposition (c : α) (s : List α) (pieces : List (List α)) : Prop where
  nonempty : pieces ≠ []
  free : ∀ p ∈ pieces, c ∉ p
  glue : List.intercalate [c] pieces = s

/-- `r` is what remains of `s` after removing a prefix consisting of `p`-elements only,
and `r` does not start with a `p`-element. -/
def IsLeftTrim (p : α → Bool) (s r : List α) : Prop :=
  (∃ pre, s = pre ++ r ∧ ∀ x ∈ pre, p x = true) ∧ ∀ x, r.head? = some x → p x = false

/-- `r` is what remains of `s` after removing a suffix consisting of `p`-elements only,
and `r` does not end with a `p`-element. -/
def IsRightTrim (p : α → Bool) (s r : List α) : Prop :=
  (∃ post, s = r ++ post ∧ ∀ x ∈ post, p x = true) ∧ ∀ x, r.getLast? = some x → p x = false

/-- Both ends. -/
def IsStrip (p : α → Bool) (s r : List α) : Prop :=
  (∃ pre post, s = pre ++ r ++ post ∧ (∀ x ∈ pre, p x = true) ∧ ∀ x ∈ post, p x = true) ∧
  (∀ x, r.head? = some x → p x = false) ∧ ∀ x, r.getLast? = some x → p x = false

end Wite.Spec
