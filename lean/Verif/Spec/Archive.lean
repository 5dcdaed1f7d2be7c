import Verif.Spec.IoLayout
import Verif.Spec.Hex
import Verif.Spec.Uuid
import Verif.Spec.Strings

/-!
# What a file of nested data under UUIDs looks like
-/

namespace Wite.Spec.Archive

open Wite.Io Wite.Layouts Wite.Spec Wite.Spec.IoLayout

/-- The line of a piece of data under a UUID. -/
def lineText (host : Endian) (F : Uuid.Layout) (up : Bool) (sep : Nat) (l : Layout) (r : List Nat × l.Data) : List Nat :=
  Uuid.text F up r.1 ++ sep :: hexText (bytes host l r.2)

/-- The text of a file. -/
def fileText (host : Endian) (F : Uuid.Layout) (up : Bool) (sep nl : Nat) (l : Layout) (rs : List (List Nat × l.Data)) : List Nat :=
  List.intercalate [nl] (rs.map (lineText host F up sep l))

/-- What a line means: in front of the only separator the UUID in its format, behind it digits of the bytes of the data, in pairs.  A
character that is left over behind the last pair is ignored. -/
def Says (host : Endian) (F : Uuid.Layout) (sep : Nat) (l : Layout) (s : List Nat) (r : List Nat × l.Data) : Prop :=
  ∃ key digits, s = key ++ sep :: digits ∧ sep ∉ key ∧ sep ∉ digits ∧
    Uuid.HasShape (Uuid.shape F) key ∧ r.1 = Uuid.ofDigits (Uuid.digitsAt (Uuid.shape F) key) ∧
    denote (digits.take (digits.length - digits.length % 2)) = some (bytes host l r.2) ∧ Fits l r.2

/-- The keys are UUIDs, the numbers fit into their types, and the bytes fit into a buffer of the program. -/
def Storable (host : Endian) (cap : Nat) (l : Layout) (r : List Nat × l.Data) : Prop :=
  Uuid.IsUuid r.1 ∧ Fits l r.2 ∧ (bytes host l r.2).length ≤ cap

/-- The separator and the line end are different and are neither hexadecimal digits nor characters of the format nor NUL. -/
structure Marks (F : Uuid.Layout) (sep nl : Nat) : Prop where
  different : sep ≠ nl
  sep_digit : ¬IsHexDigit sep
  nl_digit : ¬IsHexDigit nl
  sep_shape : some sep ∉ Uuid.shape F
  nl_shape : some nl ∉ Uuid.shape F
  sep_zero : sep ≠ 0
  nl_zero : nl ≠ 0

end Wite.Spec.Archive
