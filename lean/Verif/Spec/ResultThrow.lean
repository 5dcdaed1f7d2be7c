import Verif.Model.ResultThrow

/-!
# What calls on results that return should have stored

Contents are `none` for a result that has lost its content, otherwise a value (`Sum.inl`) or an error (`Sum.inr`).
-/

namespace Wite.Spec.ResultThrow

open Wite

variable {V E : Type}

/-- A result that holds a value shows it, one that does not holds an error and shows that. -/
def Usable (r : Cell V E) : Prop :=
  (r.ok = true ∧ r.isError = false ∧ ∃ v, r.getValue = .ok v) ∨
  (r.ok = false ∧ r.isError = true ∧ ∃ e, r.getError = .ok e)

/-- What a result contains, by its observers. -/
def Contains (r : Cell V E) : Option (V ⊕ E) → Prop
  | some (.inl v) => r.ok = true ∧ r.getValue = .ok v
  | some (.inr e) => r.ok = false ∧ r.getError = .ok e
  | none => r.ok = false ∧ r.getError = .terminate

/-- The content given by what a function returned. -/
def content : Cell.Returned V E → Option (V ⊕ E)
  | .value v => some (.inl v)
  | .error e => some (.inr e)
  | .result (.value v) => some (.inl v)
  | .result (.error e) => some (.inr e)
  | .result .valueless => none

/-- What object `k` contains after a call that returned, given what the objects contained before it. -/
def after (T : Elements V E) (before : Nat → Option (V ⊕ E)) (k : Nat) : Cell.Op V E → Option (V ⊕ E)
  | .default i => if k = i then some (.inl T.v0) else before k
  | .ofValue i _ v => if k = i then some (.inl v) else before k
  | .ofError i _ e => if k = i then some (.inr e) else before k
  | .copy i j => if k = i then before j else before k
  | .move i j => if k = j then (before j).map (Sum.map T.movedV T.movedE) else if k = i then before j else before k
  | .emplace i ctor =>
    match ctor with
    | .ok v => if k = i then some (.inl v) else before k
    | _ => before k
  | .swap i j => if k = j then before i else if k = i then before j else before k
  | .transform i f =>
    if k = i then
      match before i with
      | some (.inl v) =>
        match f v with
        | .ok r => content r
        | _ => before i
      | c => c
    else before k
  | .transformError i f =>
    if k = i then
      match before i with
      | some (.inr e) =>
        match f e with
        | .ok r => content r
        | _ => before i
      | c => c
    else before k

/-- The functions passed in return results that have their content. -/
def Sound : Cell.Op V E → Prop
  | .transform _ f => ∀ v, f v ≠ .ok (.result .valueless)
  | .transformError _ f => ∀ e, f e ≠ .ok (.result .valueless)
  | _ => True

/-- The element types keep their promises and fail at most when a value is default constructed or when a value or an
error is copied or copy-assigned. -/
def Quiet (T : Elements V E) : Prop :=
  ∀ a n, T.ok a n = false → T.nx a = false ∧ (a = .defaultV ∨ a = .copyV ∨ a = .copyE ∨ a = .assignV ∨ a = .assignE)

/-- A call in which constructors run by `emplace` do not throw and functions passed in return or throw. -/
def Tame : Cell.Op V E → Prop
  | .emplace _ ctor => ∃ v, ctor = .ok v
  | .transform _ f => ∀ v, (∃ r, f v = .ok r) ∨ ∃ e, f v = .throw e
  | .transformError _ f => ∀ x, (∃ r, f x = .ok r) ∨ ∃ e, f x = .throw e
  | _ => True

end Wite.Spec.ResultThrow
