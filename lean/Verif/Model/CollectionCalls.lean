/-!
# Model of which overload of `insert`, `try_insert` and `erase` a call of `wite/collections/identifiable_item_collection.hpp` finds

Each of the three functions has an overload for one item (or id), one for a range and one for any number of arguments.
Which one a call finds is decided by overload resolution from a few facts about the types of the arguments, and
whether the call compiles then also by the body of that overload.

A type is described by these facts: how it converts to the item type (for `erase`: the id type), whether it has `id()`
(for `erase`: whether it is a `wite::id`), and, if it is a forward range, whether its nested type `value_type` is
the item type (id type) and what its elements are.

Simplifications:
* An item type that can be copied can be moved, too.
* A conversion by a constructor or conversion function works for the argument at hand, and there is only one.
* `std::ranges::for_each` and `transform` ask only for what the lambda is called with: elements of the range.
* Braced lists and explicitly given template arguments are not modelled.
-/

namespace Wite.CollectionCalls

/-- How an expression converts to the item type or the id type. -/
inductive Conv where
  /-- not at all -/
  | impossible
  /-- it has that type -/
  | same
  /-- by a conversion of the language: from a derived class, between numbers -/
  | builtin
  /-- by a constructor or a conversion function -/
  | user
  deriving DecidableEq, Repr

/-- A type, as seen by the collection. -/
inductive ArgTy where
  /-- not a forward range; `tagged`: has `id()` (identifiable_item_collection.hpp:28-29), for `erase`: is a `wite::id`
  (core/id.hpp:51-52) -/
  | plain (conv : Conv) (tagged : Bool)
  /-- a forward range; `owns`: its `value_type` is the item type (identifiable_item_collection.hpp:90-91), for `erase`: the id
  type (identifiable_item_collection.hpp:146-147); `elemConst`: its elements are const -/
  | range (conv : Conv) (tagged : Bool) (owns elemConst : Bool) (elem : ArgTy)
  deriving DecidableEq, Repr

/-- How the type converts to the parameter of the overload for one (identifiable_item_collection.hpp:82). -/
def ArgTy.conv : ArgTy → Conv
  | .plain c _ => c
  | .range c _ _ _ _ => c

/-- Whether the constraint of the overload for several is satisfied (identifiable_item_collection.hpp:96 and 159). -/
def ArgTy.tagged : ArgTy → Bool
  | .plain _ t => t
  | .range _ t _ _ _ => t

/-- Whether the constraints of the overload for a range are satisfied (identifiable_item_collection.hpp:90-91). -/
def ArgTy.owns : ArgTy → Bool
  | .plain _ _ => false
  | .range _ _ o _ _ => o

/-- An argument. -/
structure CallArg where
  ty : ArgTy
  isConst : Bool
  lvalue : Bool
  deriving DecidableEq, Repr

/-- What the item type can do. -/
inductive Copying where
  /-- it can be copied and moved -/
  | copyable
  /-- it can only be moved -/
  | moveOnly
  /-- neither -/
  | immovable
  deriving DecidableEq, Repr

/-- The functions. -/
inductive CollFn where
  | insert
  | tryInsert
  | erase
  deriving DecidableEq, Repr

/-- The overloads of each of them. -/
inductive Form where
  /-- for one item or id (identifiable_item_collection.hpp:82, 101 and 133), not a template -/
  | one
  /-- for a range (identifiable_item_collection.hpp:90-92, 108-110 and 146-148) -/
  | range
  /-- for any number of items or ids (identifiable_item_collection.hpp:96-97, 122-123 and 159-160) -/
  | pack
  deriving DecidableEq, Repr

/-- What a call returns. -/
inductive RetTy where
  | void
  | bool
  /-- `std::vector<bool>` -/
  | vec
  /-- `std::array<bool, n>` -/
  | arr (n : Nat)
  deriving DecidableEq, Repr

/-- How an item gets into the collection. -/
inductive How where
  /-- the argument is copied -/
  | copied
  /-- the argument is moved, or it is a temporary that is built in place -/
  | moved
  /-- the argument is converted -/
  | converted
  /-- the argument is only looked at -/
  | seen
  deriving DecidableEq, Repr

/-- What happens with the arguments of a call. -/
inductive Placing where
  /-- the argument is the item or id -/
  | single (h : How)
  /-- the same function is called with every element, which is treated like this -/
  | each (p : Placing)
  /-- the arguments are the items or ids -/
  | several (hs : List How)
  deriving DecidableEq, Repr

/-- What the compiler makes of a call. -/
inductive CallVerdict where
  /-- no overload can be called -/
  | noMatch
  /-- an overload is chosen (or there is no best one), and the call does not compile -/
  | error
  /-- the call compiles -/
  | ok (r : RetTy) (p : Placing)
  deriving DecidableEq, Repr

/-! ### Overload resolution -/

/-- An overload that can be called with one argument: how good the conversion of the argument is, and, for references
to the same type, how good the binding. -/
structure Cand where
  form : Form
  rank : Nat
  binding : Nat
  deriving DecidableEq, Repr

/-- The rank of a conversion: none is needed, one of the language, one of the user. -/
def Conv.rank : Conv → Nat
  | .impossible => 3
  | .same => 0
  | .builtin => 1
  | .user => 2

/-- Of two overloads that are equally good otherwise, one that is not a template comes before a template, and a template
with a single parameter before one with a pack. -/
def Form.general : Form → Nat
  | .one => 0
  | .range => 1
  | .pack => 2

/-- Whether an overload is better than another. -/
def Cand.better (x y : Cand) : Bool :=
  x.rank < y.rank || (x.rank == y.rank &&
    (x.binding < y.binding || (x.binding == y.binding && x.form.general < y.form.general)))

/-- How well the parameter of an overload binds to the argument, if it is a reference to the type of the argument.
`insert` and `try_insert` take one item by value (identifiable_item_collection.hpp:82 and 101), which is not compared.  `erase`
takes one id, and each of several, by reference to const (identifiable_item_collection.hpp:133 and 160) but a range by
forwarding reference (identifiable_item_collection.hpp:148): that one fits better unless the argument is a const variable. -/
def binding (f : CollFn) (a : CallArg) : Form → Nat
  | .range => if f = .erase ∧ ¬ (a.isConst ∧ a.lvalue) then 0 else 1
  | _ => 1

/-- The overloads that can be called with one argument: for one (identifiable_item_collection.hpp:82, 101 and 133) if it
converts, for a range (identifiable_item_collection.hpp:90-92, 108-110 and 146-148) and for several
(identifiable_item_collection.hpp:96-97, 122-123 and 159-160) if the constraints hold. -/
def candidates (f : CollFn) (a : CallArg) : List Cand :=
  (if a.ty.conv = .impossible then [] else [⟨.one, a.ty.conv.rank, binding f a .one⟩]) ++
  ((if a.ty.owns then [⟨.range, 0, binding f a .range⟩] else []) ++
   (if a.ty.tagged then [⟨.pack, 0, binding f a .pack⟩] else []))

/-- The one that is better than all others. -/
def best (cs : List Cand) : Option Form :=
  (cs.find? fun x => cs.all fun y => x == y || x.better y).map Cand.form

/-! ### The bodies -/

/-- Make an item, a parameter by value, from an argument (identifiable_item_collection.hpp:82, 98, 101 and 128) and move it into
`std::make_unique` (identifiable_item_collection.hpp:87 and 102); `none` if that does not compile. -/
def itemFrom (k : Copying) (c : Conv) (isConst lvalue : Bool) : Option How :=
  match k, c with
  | .immovable, _ => none
  | _, .impossible => none
  | _, .user => some .converted
  | .copyable, _ => if isConst || lvalue then some .copied else some .moved
  | .moveOnly, _ => if isConst || lvalue then none else some .moved

/-- Use an argument as an item, or as an id, which `erase` takes by reference (identifiable_item_collection.hpp:133 and 164). -/
def use (f : CollFn) (k : Copying) (a : CallArg) : Option How :=
  match f with
  | .erase =>
    match a.ty.conv with
    | .impossible => none
    | .user => some .converted
    | .builtin => some .converted
    | .same => some .seen
  | _ => itemFrom k a.ty.conv a.isConst a.lvalue

/-- The result of the overload for one (identifiable_item_collection.hpp:82, 101 and 133). -/
def oneRet : CollFn → RetTy
  | .insert => .void
  | _ => .bool

/-- The result of the overload for a range (identifiable_item_collection.hpp:92, 110 and 148). -/
def rangeRet : CollFn → RetTy
  | .insert => .void
  | _ => .vec

/-- The result of the overload for `n` arguments (identifiable_item_collection.hpp:97, 123 and 160). -/
def packRet (n : Nat) : CollFn → RetTy
  | .insert => .void
  | _ => .arr n

/-- What is called with the elements of a range (identifiable_item_collection.hpp:93, 117 and 154): `insert` calls `try_insert`. -/
def elementFn : CollFn → CollFn
  | .insert => .tryInsert
  | f => f

/-- The body of the overload for one (identifiable_item_collection.hpp:82-88, 101-106 and 133-144). -/
def bodyOne (f : CollFn) (k : Copying) (a : CallArg) : CallVerdict :=
  match use f k a with
  | none => .error
  | some h => .ok (oneRet f) (.single h)

/-- The body of the overload for several (identifiable_item_collection.hpp:96-99, 122-131 and 159-167): a lambda is called with
each argument; its parameter has the item type or the id type, so that the call in it finds the overload for one. -/
def bodyPack (f : CollFn) (k : Copying) (as : List CallArg) : CallVerdict :=
  match as.mapM (use f k) with
  | none => .error
  | some hs => .ok (packRet as.length f) (.several hs)

/-- The body of the overload for a range (identifiable_item_collection.hpp:90-94, 108-120 and 146-157); `inner` is the call with
an element.  The results of `try_insert` and `erase` are put into a `std::vector<bool>`. -/
def bodyRange (f : CollFn) (inner : CallVerdict) : CallVerdict :=
  match inner with
  | .ok r p => if f = .insert ∨ r = .bool then .ok (rangeRet f) (.each p) else .error
  | _ => .error

/-! ### Calls -/

/-- The call with one argument; `inner` is the call with an element if it is a range. -/
def callWith (f : CollFn) (k : Copying) (a : CallArg) (inner : CallVerdict) : CallVerdict :=
  match candidates f a with
  | [] => .noMatch
  | cs =>
    match best cs with
    | none => .error
    | some .one => bodyOne f k a
    | some .range => bodyRange f inner
    | some .pack => bodyPack f k [a]

/-- A call with one argument (identifiable_item_collection.hpp:82-167).  An element of a range is a variable in the lambda
(identifiable_item_collection.hpp:93, 117 and 154), whatever the range. -/
def callOne (f : CollFn) (k : Copying) (t : ArgTy) (isConst lvalue : Bool) : CallVerdict :=
  match t with
  | .plain c g => callWith f k ⟨.plain c g, isConst, lvalue⟩ .noMatch
  | .range c g o ec e => callWith f k ⟨.range c g o ec e, isConst, lvalue⟩ (callOne (elementFn f) k e ec true)

/-- A call (identifiable_item_collection.hpp:82-167): with any number of arguments other than one, only the overload for several
can be called. -/
def call (f : CollFn) (k : Copying) : List CallArg → CallVerdict
  | [a] => callOne f k a.ty a.isConst a.lvalue
  | as => if as.all fun a => a.ty.tagged then bodyPack f k as else .noMatch

/-- The constructor from an initialiser list (identifiable_item_collection.hpp:57): `insert` of a variable that is a range of
const items. -/
def listCtor (k : Copying) (item : ArgTy) : CallVerdict :=
  callOne .insert k (.range .impossible false true true item) false true

end Wite.CollectionCalls
