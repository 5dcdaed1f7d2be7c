import Verif.Model.CollectionDict
import Verif.Spec.CollectionIds

/-!
# What an associative container has to do
-/

namespace Wite.Spec.CollectionDict

open Wite.Collections

/-- The equivalence of keys of a `std::map` with this comparison: neither is less. -/
def mapSame {ι : Type} (lt : ι → ι → Bool) (x y : ι) : Bool := !lt x y && !lt y x

/-- The container behaves like a list of pairs of which no two have the same key; `R` says which list it stands for: `find`
finds the pair with the key, `insert` adds a pair, `erase` takes the pair with the key out, and `clear` destroys what is in it,
in any order. -/
structure StandsFor {δ ι : Type} (D : Dict δ ι) (same : ι → ι → Bool) (R : δ → List (ι × Nat) → Prop) : Prop where
  empty : R D.empty []
  find : ∀ {d l}, R d l → ∀ id, D.find d id = (l.find? fun p => same p.1 id).map Prod.snd
  size : ∀ {d l}, R d l → D.size d = l.length
  values : ∀ {d l}, R d l → (D.values d).Perm (l.map Prod.snd)
  insert : ∀ {d l}, R d l → ∀ id a, (∀ p ∈ l, same p.1 id = false) → R (D.insert d id a) (l ++ [(id, a)])
  erase : ∀ {d l}, R d l → ∀ id, R (D.erase d id) (l.filter fun p => !same p.1 id)

/-- What the calls of a program return or throw, up to the first that does neither. -/
def answers {σ κ β : Type} (step : κ → St σ β) : List κ → σ → List (Outcome β)
  | [], _ => []
  | op :: ops, s =>
    match step op s with
    | (.ok r, s') => .ok r :: answers step ops s'
    | (.throw e, s') => .throw e :: answers step ops s'
    | (o, _) => [o]

/-- The two collections show the same: the same ids, the same items for each id and each index, the same size, and the same
items one after another. -/
def ShowSame {δ δ' ι α : Type} (D : Dict δ ι) (E : Dict δ' ι) (s : DictCollection δ α) (t : DictCollection δ' α) : Prop :=
  (∀ id, s.contains D id = t.contains E id) ∧ (∀ id, s.atId D id = t.atId E id) ∧ (∀ i, s.atIndex i = t.atIndex i) ∧
  s.size D = t.size E ∧ s.isEmpty D = t.isEmpty E ∧ s.iterate = t.iterate

/-- Either both programs got through and the collections show the same, or neither did. -/
def EndAlike {δ δ' ι α : Type} (D : Dict δ ι) (E : Dict δ' ι) : Option (DictCollection δ α) → Option (DictCollection δ' α) → Prop
  | some s, some t => ShowSame D E s t
  | none, none => True
  | _, _ => False

/-- The observers show the list of items; `same` says which ids are the same key. -/
def ShowsD {δ ι α : Type} (D : Dict δ ι) (same : ι → ι → Bool) (idOf : α → ι) (s : DictCollection δ α) (l : List α) : Prop :=
  s.size D = l.length ∧ s.isEmpty D = l.isEmpty ∧ s.iterate = .ok l ∧
  (∀ id, s.contains D id = l.any fun x => same (idOf x) id) ∧
  (∀ id, s.atId D id = match l.find? fun x => same (idOf x) id with
    | some x => .ok x
    | none => .throw (.outOfRange "identifiable_item_collection failed to retreive item by ID")) ∧
  (∀ i, s.atIndex i = match l[i]? with
    | some x => .ok x
    | none => .throw (.outOfRange "identifiable_item_collection failed to retreive item by index"))

/-- An outcome with addresses against an outcome with items, in the state after the call: a reference leads to the
item in the collection, an owned pointer to the item handed out. -/
def MatchesD {δ α : Type} (s : DictCollection δ α) : Outcome Collections.ItemCollection.Ret → Outcome (ItemCollection.Ret α) → Prop
  | .ok .unit, .ok .unit => True
  | .ok (.flag b), .ok (.flag c) => b = c
  | .ok (.flags b), .ok (.flags c) => b = c
  | .ok (.ref a), .ok (.ref x) => s.heap a = some x ∧ a ∈ s.ordered
  | .ok (.owned (some a)), .ok (.owned (some x)) => s.heap a = some x ∧ a ∈ s.outside ∧ a ∉ s.ordered
  | .ok (.owned none), .ok (.owned none) => True
  | .throw e, .throw e' => e = e'
  | _, _ => False

/-- The collection and an insertion-ordered list agree at every moment of a program. -/
def AgreesD {δ ι α : Type} (D : Dict δ ι) (same eq : ι → ι → Bool) (b : Build) (mem : Site → Nat → Bool) (idOf : α → ι) :
    List (Collections.ItemCollection.Op ι α) → DictCollection δ α → List α → Prop
  | [], s, l => ShowsD D same idOf s l
  | op :: ops, s, l =>
    ShowsD D same idOf s l ∧
    MatchesD (DictCollection.step D eq b mem idOf op s).2 (DictCollection.step D eq b mem idOf op s).1
      (CollectionIds.stepL ⟨same, eq⟩ idOf op l).1 ∧
    AgreesD D same eq b mem idOf ops (DictCollection.step D eq b mem idOf op s).2 (CollectionIds.stepL ⟨same, eq⟩ idOf op l).2

end Wite.Spec.CollectionDict
