import Verif.Model.Result

/-!
# What a result object should hold after a history of calls

Stated backwards from the end of the history, without the variant: which value or error
was stored last in the object with a given number.
-/

namespace Wite.Spec.Result

open Wite

/-- What object `k` holds after a history, given newest call first.  `Sum.inl` is a value,
`Sum.inr` an error. -/
def lastStored {V E : Type} (v0 : V) (mv : V → V) (me : E → E) (init : Nat → V ⊕ E) :
    List (Result.Op V E) → Nat → V ⊕ E
  | [], k => init k
  | op :: older, k =>
    let before := lastStored v0 mv me init older
    match op with
    | .default i => if k = i then .inl v0 else before k
    | .ofValue i v => if k = i then .inl v else before k
    | .ofError i e => if k = i then .inr e else before k
    | .copy i j => if k = i then before j else before k
    | .move i j => if k = j then (before j).map mv me else if k = i then before j else before k
    | .emplace i ctor =>
      match ctor with
      | .ok v => if k = i then .inl v else before k
      | _ => before k
    | .swap i j => if k = j then before i else if k = i then before j else before k
    | .transform i f =>
      if k = i then
        match before i with
        | .inl v =>
          match f v with
          | .ok (.value v') => .inl v'
          | .ok (.error e') => .inr e'
          | _ => before i
        | .inr e => .inr e
      else before k
    | .transformError i f =>
      if k = i then
        match before i with
        | .inl v => .inl v
        | .inr e =>
          match f e with
          | .ok (.value v') => .inl v'
          | .ok (.error e') => .inr e'
          | _ => before i
      else before k

/-- What the observers of a result report when it holds `c`: exactly one of `ok` and
`is_error`, the accessor of the alternative held returns its content and the other
terminates the program. -/
def Shows {V E : Type} (r : Result V E) : V ⊕ E → Prop
  | .inl v => r.ok = true ∧ r.hasValue = true ∧ r.isError = false ∧ r.getValue = .ok v ∧ r.getError = .terminate
  | .inr e => r.ok = false ∧ r.hasValue = false ∧ r.isError = true ∧ r.getError = .ok e ∧ r.getValue = .terminate

/-- A call that cannot terminate the program or have undefined behaviour: constructors run by
`emplace` do not throw and functions passed in return or throw. -/
def Tame {V E : Type} : Result.Op V E → Prop
  | .emplace _ ctor => ∃ v, ctor = .ok v
  | .transform _ f => ∀ v, (∃ r, f v = .ok r) ∨ ∃ e, f v = .throw e
  | .transformError _ f => ∀ x, (∃ r, f x = .ok r) ∨ ∃ e, f x = .throw e
  | _ => True

end Wite.Spec.Result
