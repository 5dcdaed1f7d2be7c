import Verif.Spec.StaticVector
import Verif.Model.StaticVectorThrow

/-!
# A bounded list under calls that may throw
-/

namespace Wite.Spec.ThrowVec

open Wite.Collections

/-- What a call that returns does to a list. -/
def apply {α : Type} (d : α) (l : List α) : ThrowVec.Op α → List α
  | .pushBack _ x => l ++ [x]
  | .resize _ n x => StaticVector.resized l n x
  | .resizeDefault n => StaticVector.resized l n d
  | .clear => []

/-- The list after the calls that returned; the others did nothing. -/
def returned {α : Type} (d : α) : List (ThrowVec.Op α) → List (Outcome Unit) → List α → List α
  | op :: ops, .ok () :: os, l => returned d ops os (apply d l op)
  | _ :: ops, _ :: os, l => returned d ops os l
  | _, _, l => l

end Wite.Spec.ThrowVec
