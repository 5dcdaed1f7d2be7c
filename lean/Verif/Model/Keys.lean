import Verif.Model.Outcome
import Verif.Model.Index
import Verif.Model.Uuid
import Verif.Model.Point

/-!
# The library's types as keys of the standard's containers

The containers themselves are not in /repo: `std::map` is a search tree kept in order by `<`, whose shape the standard leaves
open, and `std::unordered_map` is a table of buckets chosen by the hash, whose number and arrangement are left open too.  Here they are
modelled with exactly that freedom: after every call the tree may be any tree with the same entries in the same order, and the table
any table with the same entries in the buckets of their hashes.  What the library brings is `<`, `==` and `std::hash` of its types.
Iterators, node handles, hints, allocation and the standard's exceptions are not modelled.
-/

namespace Wite.Keys

/-- A call on a map: insert an entry if there is none under that key, find the entry under a key, erase the entry under a key.
(What a user of the types in core/uuid.hpp:49-152, core/id.hpp:28-46, core/index.hpp:24-107 and geometry/point.hpp:27-94 does.) -/
inductive Call (κ ν : Type) where
  | insert (k : κ) (v : ν)
  | find (k : κ)
  | erase (k : κ)

/-- What such a call returns: whether it has inserted or erased, or the entry found. -/
inductive Reply (κ ν : Type) where
  | done (changed : Bool)
  | found (e : Option (κ × ν))
deriving DecidableEq, Repr

/-! ## `std::map` -/

/-- The search tree of a `std::map`.  (Colours and balance are left out: every shape is allowed.  Its `<` is that of the key, e.g.
core/uuid.hpp:88.) -/
inductive STree (κ ν : Type) where
  | leaf
  | node (l : STree κ ν) (k : κ) (v : ν) (r : STree κ ν)

namespace STree

variable {κ ν : Type}

/-- The entries in the order of iteration.  (`std::map` with the `<` of e.g. core/uuid.hpp:88.) -/
def entries : STree κ ν → List (κ × ν)
  | leaf => []
  | node l k v r => l.entries ++ (k, v) :: r.entries

/-- `lower_bound`: down the tree, to the right of keys less than `k`, remembering the last key that was not.  (`std::map` with the
`<` of e.g. core/uuid.hpp:88.) -/
def lowerBound (less : κ → κ → Bool) (k : κ) : STree κ ν → Option (κ × ν) → Option (κ × ν)
  | leaf, best => best
  | node l x v r, best => if less x k then r.lowerBound less k best else l.lowerBound less k (some (x, v))

/-- `find`: the lower bound, unless `k` is less than it.  (`std::map` with the `<` of e.g. core/uuid.hpp:88.) -/
def find (less : κ → κ → Bool) (k : κ) (t : STree κ ν) : Option (κ × ν) :=
  match t.lowerBound less k none with
  | none => none
  | some e => if less k e.1 then none else some e

/-- `insert`: down the tree, to the left of keys that `k` is less than, remembering the last key that it was not; a new node at the
bottom, unless the key remembered is not less than `k`: then nothing.  (`std::map` with the `<` of e.g. core/uuid.hpp:88.) -/
def insert (less : κ → κ → Bool) (k : κ) (v : ν) : STree κ ν → Option κ → Option (STree κ ν)
  | leaf, none => some (node leaf k v leaf)
  | leaf, some p => if less p k then some (node leaf k v leaf) else none
  | node l x w r, p =>
    if less k x then (l.insert less k v p).map (fun l' => node l' x w r)
    else (r.insert less k v (some x)).map (fun r' => node l x w r')

end STree

/-- One call on a map with the given tree, what it returns and the tree afterwards: any tree with the entries in the right order.
Erasing removes the entry `find` finds; the entries before and after it stay.  (`std::map` with the `<` of e.g. core/uuid.hpp:88.) -/
inductive MapStep {κ ν : Type} (less : κ → κ → Bool) : STree κ ν → Call κ ν → Reply κ ν → STree κ ν → Prop where
  | inserted {t t' t'' k v} : t.insert less k v none = some t' → t''.entries = t'.entries →
      MapStep less t (.insert k v) (.done true) t''
  | present {t k v} : t.insert less k v none = none → MapStep less t (.insert k v) (.done false) t
  | find {t k} : MapStep less t (.find k) (.found (t.find less k)) t
  | erased {t t' k e l r} : t.find less k = some e → t.entries = l ++ e :: r → t'.entries = l ++ r →
      MapStep less t (.erase k) (.done true) t'
  | absent {t k} : t.find less k = none → MapStep less t (.erase k) (.done false) t

/-! ## `std::unordered_map` -/

/-- The buckets of a `std::unordered_map`.  (The hash is that of the key, e.g. core/uuid.hpp:258-264.) -/
abbrev Table (κ ν : Type) := List (List (κ × ν))

namespace Table

variable {κ ν : Type}

/-- The bucket of a key: its hash modulo the number of buckets.  (`std::unordered_map` with e.g. core/uuid.hpp:258-264.) -/
def bucket (hash : κ → Nat) (t : Table κ ν) (k : κ) : List (κ × ν) := (t[hash k % t.length]?).elim [] (fun b => b)

/-- `find`: the first entry in the bucket of the key whose key is `==` to it.  (`std::unordered_map` with e.g.
core/uuid.hpp:258-264.) -/
def find (hash : κ → Nat) (eq : κ → κ → Bool) (t : Table κ ν) (k : κ) : Option (κ × ν) :=
  (t.bucket hash k).find? (fun e => eq k e.1)

/-- A table: at least one bucket, and every entry in the bucket of its hash.  (`std::unordered_map` with e.g.
core/uuid.hpp:258-264.) -/
def Placed (hash : κ → Nat) (t : Table κ ν) : Prop :=
  0 < t.length ∧ ∀ (i : Nat) b, t[i]? = some b → ∀ e ∈ b, hash e.1 % t.length = i

end Table

/-- One call on an unordered map, what it returns and the table afterwards: any table with the right entries, every one in the bucket of
its hash; so every call may rehash.  (`std::unordered_map` with e.g. core/uuid.hpp:258-264.) -/
inductive HashStep {κ ν : Type} (hash : κ → Nat) (eq : κ → κ → Bool) : Table κ ν → Call κ ν → Reply κ ν → Table κ ν → Prop where
  | inserted {t t' k v} : t.find hash eq k = none → t'.Placed hash → t'.flatten.Perm ((k, v) :: t.flatten) →
      HashStep hash eq t (.insert k v) (.done true) t'
  | present {t k v e} : t.find hash eq k = some e → HashStep hash eq t (.insert k v) (.done false) t
  | find {t k} : HashStep hash eq t (.find k) (.found (t.find hash eq k)) t
  | erased {t t' k e} : t.find hash eq k = some e → t'.Placed hash → t.flatten.Perm (e :: t'.flatten) →
      HashStep hash eq t (.erase k) (.done true) t'
  | absent {t k} : t.find hash eq k = none → HashStep hash eq t (.erase k) (.done false) t

/-- A sequence of calls and what they return, with any choice where the standard leaves one.  (Calls on a container of keys such as
core/uuid.hpp:49-152.) -/
inductive Runs {σ κ ν : Type} (step : σ → Call κ ν → Reply κ ν → σ → Prop) : σ → List (Call κ ν) → List (Reply κ ν) → σ → Prop where
  | nil {s} : Runs step s [] [] s
  | cons {s s' s'' c r cs rs} : step s c r s' → Runs step s' cs rs s'' → Runs step s (c :: cs) (r :: rs) s''

/-! ## What the library's types bring -/

/-- `std::less<uuid>`: `operator<=>` of the bytes (core/uuid.hpp:88, core/uuid/basic_uuid.hpp:60). -/
def uuidLess (a b : List Nat) : Bool := Uuid.compare a b == .lt

/-- `==` of UUIDs, which comes with the defaulted `operator<=>` (core/uuid.hpp:88, core/uuid/basic_uuid.hpp:60): all bytes. -/
def uuidEq (a b : List Nat) : Bool := a == b

/-- `std::less<index<T>>` (core/index.hpp:38). -/
def indexLess (i j : Nat) : Bool := Index.threeWay i j == .lt

/-- `std::less<id<Obj, T>>` where `<=>` of `T` is `cmp` (core/id.hpp:40). -/
def idLess {α : Type} (cmp : α → α → Ordering) (x y : Id α) : Bool := Id.lt cmp x y

/-- `std::less<point<T, N>>` on points all of whose coordinates have been set (geometry/point.hpp:53); `cmp` is `<=>` of the coordinates. -/
def pointLess {α : Type} (cmp : α → α → Option Ordering) (n : Nat) (p q : {xs : List α // xs.length = n}) : Bool :=
  Geometry.Point.lt cmp (Geometry.Point.ofArray p.1) (Geometry.Point.ofArray q.1) == .ok true

/-- The types of the library one might want as keys, those with a type parameter over that parameter; `plain` is any other type, with
or without `<=>`, `<`, `==` and `std::hash`.  (The types derived from these add no operators: maths/value_range.hpp:143-157,
geometry/point.hpp:96-110.) -/
inductive KeyType where
  | plain (threeWay less equal hash : Bool)
  /-- core/uuid.hpp:49-152 -/
  | uuid
  /-- core/uuid/basic_uuid.hpp:53-63 -/
  | basicUuid
  /-- core/id.hpp:28-46 -/
  | ident (value : KeyType)
  /-- core/index.hpp:24-107 -/
  | index
  /-- geometry/point.hpp:27-94; the coordinates are numbers (38). -/
  | point
  /-- maths/value_range.hpp:51-139 -/
  | range (value : KeyType)
  /-- collections/static_vector.hpp:44-197 -/
  | vector (value : KeyType)
  /-- string/fragment_string.hpp:38-549 -/
  | fragmentString
deriving DecidableEq, Repr

namespace KeyType

/-- `a <=> b` compiles: UUIDs, ids, indices and points declare it (core/uuid.hpp:88, core/uuid/basic_uuid.hpp:60, core/id.hpp:40,
core/index.hpp:38, geometry/point.hpp:53), ranges, vectors and fragment strings do not (maths/value_range.hpp:64-67 and
collections/static_vector.hpp:165-173 are `==` and `!=`).  That of ids is defaulted with a deduced type, so it is deleted unless the
value has `<=>`; having `<` and `==` is not enough. -/
def hasThreeWay : KeyType → Bool
  | plain w _ _ _ => w
  | uuid | basicUuid | index | point => true
  | ident t => t.hasThreeWay
  | range _ | vector _ | fragmentString => false

/-- `a < b` compiles: of the library's types those with `<=>` (core/uuid.hpp:88, core/uuid/basic_uuid.hpp:60, core/id.hpp:40,
core/index.hpp:38, geometry/point.hpp:53). -/
def hasLess : KeyType → Bool
  | plain w l _ _ => w || l
  | t => t.hasThreeWay

/-- `a == b` compiles: that which comes with a defaulted `operator<=>`, also where that is deleted (core/uuid.hpp:88,
core/uuid/basic_uuid.hpp:60, core/id.hpp:40, core/index.hpp:38, geometry/point.hpp:53), or one declared (maths/value_range.hpp:64-66,
collections/static_vector.hpp:165-171); fragment strings declare none. -/
def hasEqual : KeyType → Bool
  | plain _ _ e _ => e
  | uuid | basicUuid | index | point => true
  | ident t | range t | vector t => t.hasEqual
  | fragmentString => false

/-- `std::hash` has a specialization: the library has one for each class of UUIDs (core/uuid.hpp:258-264, core/uuid/uuid_hash.hpp:16-22)
and no other. -/
def hasHash : KeyType → Bool
  | plain _ _ _ h => h
  | uuid | basicUuid => true
  | ident _ | index | point | range _ | vector _ | fragmentString => false

/-- A `std::map` or `std::set` with this key compiles (for e.g. core/uuid.hpp:88): it needs `<`. -/
def inMap (t : KeyType) : Bool := t.hasLess

/-- A `std::unordered_map` or `std::unordered_set` with this key compiles (for e.g. core/uuid.hpp:258-264): it needs `std::hash` and
`==`. -/
def inUnordered (t : KeyType) : Bool := t.hasHash && t.hasEqual

end KeyType

end Wite.Keys
