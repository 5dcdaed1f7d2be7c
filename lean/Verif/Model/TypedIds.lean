import Verif.Model.Index

/-!
# Programs with ids and indices of several kinds of objects

Which expressions with `id<Obj_T, Id_T>` (core/id.hpp:28-46) and `index<Obj_T>` (core/index.hpp:24-107) compile, and what programs made of
them do.  At run time an id is only its value and an index only a number: nothing but the types says which kind of object it belongs to.

An id's kind is the pair of `Obj_T` and `Id_T`, an index's is `Obj_T`; kinds are numbered.  Simplifications: the values of all ids are of one
type `K` with a comparison; numbers given to an index are literals or variables of the type of its offsets; objects have their values from
the start (C192 is about those that do not); a program is run in a debug build for at most a given number of steps.
-/

namespace Wite.TypedIds

/-- The types of variables and expressions: ids and indices of a kind, values of ids, offsets, `bool`. -/
inductive TTy where
  | id (kind : Nat)
  | index (kind : Nat)
  | raw
  | num
  | bool
  deriving DecidableEq

/-- The comparison operators. -/
inductive CmpOp where
  | eq | ne | lt | le | gt | ge
  deriving DecidableEq

/-- Expressions without side effects; `make τ e` is an explicit construction `τ{e}`, `conv τ e` a conversion without one (an argument
given for a parameter of type `τ`, a returned expression), `value e` is `e.value()` or `*e`. -/
inductive TExpr (K : Type) where
  | var (x : Nat)
  | rawLit (k : K)
  | numLit (n : Int)
  | boolLit (b : Bool)
  | make (τ : TTy) (e : TExpr K)
  | conv (τ : TTy) (e : TExpr K)
  | value (e : TExpr K)
  | cmp (op : CmpOp) (a b : TExpr K)
  | add (a b : TExpr K)
  | sub (a b : TExpr K)
  | not (a : TExpr K)
  | and (a b : TExpr K)

/-- Statements; `postInc x y` is `x = y++`, `preInc x` is `++x`. -/
inductive TStmt (K : Type) where
  | skip
  | assign (x : Nat) (e : TExpr K)
  | addAssign (x : Nat) (e : TExpr K)
  | subAssign (x : Nat) (e : TExpr K)
  | preInc (x : Nat)
  | preDec (x : Nat)
  | postInc (x y : Nat)
  | postDec (x y : Nat)
  | seq (p q : TStmt K)
  | ite (c : TExpr K) (p q : TStmt K)
  | while (c : TExpr K) (p : TStmt K)

variable {K : Type}

/-- The type of an expression, `none` if it does not compile.  Ids: an `explicit` constructor from the value, copies, the defaulted comparisons with
the same type, `value` and `*` (core/id.hpp:36-43).  Indices: an `explicit` constructor, copies, comparisons with the same type, `+` and `-` with
an offset, `value` and `*` (core/index.hpp:34-38, 90-103). -/
def typeOf (Γ : Nat → TTy) : TExpr K → Option TTy
  | .var x => some (Γ x)
  | .rawLit _ => some .raw
  | .numLit n => if -(2 ^ 63) < n ∧ n < 2 ^ 63 then some .num else none
  | .boolLit _ => some .bool
  | .make τ e => (typeOf Γ e).bind fun σ =>
    match τ, σ with
    | .id _, .raw => some τ
    | .index _, .num => some τ
    | _, _ => if τ = σ then some τ else none
  | .conv τ e => (typeOf Γ e).bind fun σ => if τ = σ then some τ else none
  | .value e => (typeOf Γ e).bind fun σ =>
    match σ with
    | .id _ => some .raw
    | .index _ => some .num
    | _ => none
  | .cmp _ a b => (typeOf Γ a).bind fun σ => (typeOf Γ b).bind fun τ => if σ = τ then some .bool else none
  | .add a b => (typeOf Γ a).bind fun σ => (typeOf Γ b).bind fun τ =>
    match σ, τ with
    | .index k, .num => some (.index k)
    | _, _ => none
  | .sub a b => (typeOf Γ a).bind fun σ => (typeOf Γ b).bind fun τ =>
    match σ, τ with
    | .index k, .num => some (.index k)
    | _, _ => none
  | .not a => (typeOf Γ a).bind fun σ => if σ = .bool then some .bool else none
  | .and a b => (typeOf Γ a).bind fun σ => (typeOf Γ b).bind fun τ => if σ = .bool ∧ τ = .bool then some .bool else none

/-- Whether the type is that of an index. -/
def TTy.isIndex : TTy → Bool
  | .index _ => true
  | _ => false

/-- Whether a statement compiles: assignments of the same type (core/id.hpp:38, core/index.hpp:36), `+=`, `-=`, `++` and `--` of indices
(core/index.hpp:40-88). -/
def compiles (Γ : Nat → TTy) : TStmt K → Bool
  | .skip => true
  | .assign x e => typeOf Γ e = some (Γ x)
  | .addAssign x e => (Γ x).isIndex && typeOf Γ e = some .num
  | .subAssign x e => (Γ x).isIndex && typeOf Γ e = some .num
  | .preInc x => (Γ x).isIndex
  | .preDec x => (Γ x).isIndex
  | .postInc x y => (Γ y).isIndex && Γ x = Γ y
  | .postDec x y => (Γ y).isIndex && Γ x = Γ y
  | .seq p q => compiles Γ p && compiles Γ q
  | .ite c p q => typeOf Γ c = some .bool && compiles Γ p && compiles Γ q
  | .while c p => typeOf Γ c = some .bool && compiles Γ p

/-! ## What programs do -/

/-- What a variable holds; ids and indices do not hold their kind (core/id.hpp:45, core/index.hpp:106). -/
inductive TVal (K : Type) where
  | id (k : K)
  | index (i : Nat)
  | raw (k : K)
  | num (n : Int)
  | bool (b : Bool)

/-- The comparison operators by `<=>` and `==`. -/
def decideOp (op : CmpOp) (o : Ordering) (e : Bool) : Bool :=
  match op with
  | .eq => e
  | .ne => !e
  | .lt => o == .lt
  | .le => o != .gt
  | .gt => o == .gt
  | .ge => o != .lt

/-- A comparison (core/id.hpp:40, core/index.hpp:38), of what the objects hold. -/
def compareVals (cmp : K → K → Ordering) (eq : K → K → Bool) (op : CmpOp) : TVal K → TVal K → Outcome Bool
  | .id a, .id b => .ok (decideOp op (Id.threeWay cmp ⟨a⟩ ⟨b⟩) (Id.equal eq ⟨a⟩ ⟨b⟩))
  | .index i, .index j => .ok (decideOp op (Index.threeWay i j) (Index.equal i j))
  | .raw a, .raw b => .ok (decideOp op (cmp a b) (eq a b))
  | .num m, .num n => .ok (decideOp op (if m < n then .lt else if m = n then .eq else .gt) (m == n))
  | .bool a, .bool b => .ok (decideOp op (if a = b then .eq else if b then .lt else .gt) (a == b))
  | _, _ => .ub

/-- The value of an expression in a debug build (core/id.hpp:36-43, core/index.hpp:34-38, 90-103). -/
def eval (cmp : K → K → Ordering) (eq : K → K → Bool) (ρ : Nat → TVal K) : TExpr K → Outcome (TVal K)
  | .var x => .ok (ρ x)
  | .rawLit k => .ok (.raw k)
  | .numLit n => .ok (.num n)
  | .boolLit b => .ok (.bool b)
  | .make τ e => do
    let v ← eval cmp eq ρ e
    match τ, v with
    | .id _, .raw k => pure (.id (Id.make k).id)
    | .index _, .num n => pure (.index (Index.toUnsigned n))
    | _, v => pure v
  | .conv _ e => eval cmp eq ρ e
  | .value e => do
    let v ← eval cmp eq ρ e
    match v with
    | .id k => pure (.raw (Id.value ⟨k⟩))
    | .index i => pure (.num (Index.value i))
    | _ => .ub
  | .cmp op a b => do
    let v ← eval cmp eq ρ a
    let w ← eval cmp eq ρ b
    let r ← compareVals cmp eq op v w
    pure (.bool r)
  | .add a b => do
    let v ← eval cmp eq ρ a
    let w ← eval cmp eq ρ b
    match v, w with
    | .index i, .num n => do
      let j ← Index.add .debug i n
      pure (.index j)
    | _, _ => .ub
  | .sub a b => do
    let v ← eval cmp eq ρ a
    let w ← eval cmp eq ρ b
    match v, w with
    | .index i, .num n => do
      let j ← Index.sub .debug i n
      pure (.index j)
    | _, _ => .ub
  | .not a => do
    let v ← eval cmp eq ρ a
    match v with
    | .bool b => pure (.bool (!b))
    | _ => .ub
  | .and a b => do
    let v ← eval cmp eq ρ a
    let w ← eval cmp eq ρ b
    match v, w with
    | .bool c, .bool d => pure (.bool (c && d))
    | _, _ => .ub

/-- The variables after an assignment. -/
def update (ρ : Nat → TVal K) (x : Nat) (v : TVal K) : Nat → TVal K := fun y => if y = x then v else ρ y

/-- An operation on the index that a variable holds. -/
def onIndex (ρ : Nat → TVal K) (x : Nat) (f : Nat → Outcome Nat) : Outcome (Nat → TVal K) :=
  match ρ x with
  | .index i => do
    let j ← f i
    pure (update ρ x (.index j))
  | _ => .ub

/-- An operation on the index that a variable holds which returns the old one. -/
def onIndexPost (ρ : Nat → TVal K) (x y : Nat) (f : Nat → Outcome (Nat × Nat)) : Outcome (Nat → TVal K) :=
  match ρ y with
  | .index i => do
    let r ← f i
    pure (update (update ρ y (.index r.1)) x (.index r.2))
  | _ => .ub

/-- Running a program for at most `fuel` nested steps in a debug build (core/index.hpp:40-100); `diverge` if that is not enough. -/
def exec (cmp : K → K → Ordering) (eq : K → K → Bool) : Nat → TStmt K → (Nat → TVal K) → Outcome (Nat → TVal K)
  | 0, _, _ => .diverge
  | _ + 1, .skip, ρ => .ok ρ
  | _ + 1, .assign x e, ρ => do
    let v ← eval cmp eq ρ e
    pure (update ρ x v)
  | _ + 1, .addAssign x e, ρ => do
    let v ← eval cmp eq ρ e
    match v with
    | .num n => onIndex ρ x fun i => Index.addAssign .debug i n
    | _ => .ub
  | _ + 1, .subAssign x e, ρ => do
    let v ← eval cmp eq ρ e
    match v with
    | .num n => onIndex ρ x fun i => Index.subAssign .debug i n
    | _ => .ub
  | _ + 1, .preInc x, ρ => onIndex ρ x (Index.inc .debug)
  | _ + 1, .preDec x, ρ => onIndex ρ x (Index.dec .debug)
  | _ + 1, .postInc x y, ρ => onIndexPost ρ x y (Index.incPost .debug)
  | _ + 1, .postDec x y, ρ => onIndexPost ρ x y (Index.decPost .debug)
  | n + 1, .seq p q, ρ => do
    let ρ' ← exec cmp eq n p ρ
    exec cmp eq n q ρ'
  | n + 1, .ite c p q, ρ => do
    let v ← eval cmp eq ρ c
    match v with
    | .bool true => exec cmp eq n p ρ
    | .bool false => exec cmp eq n q ρ
    | _ => .ub
  | n + 1, .while c p, ρ => do
    let v ← eval cmp eq ρ c
    match v with
    | .bool true => do
      let ρ' ← exec cmp eq n p ρ
      exec cmp eq n (.while c p) ρ'
    | .bool false => .ok ρ
    | _ => .ub

end Wite.TypedIds
