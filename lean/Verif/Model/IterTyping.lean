/-!
# Which expressions with the library's iterators compile

The operators that `wite/collections/dereferencing_iterator.hpp` and the iterator of `wite/string/fragment_string.hpp` declare, and the
type of an expression made with them: lookup of a member in the class and, if the class declares none of that name, in its base
([class.member.lookup]); an argument fits a parameter of its own class, of the base of its class, or a number a number
([over.match.viable]); `<`, `>`, `<=` and `>=` by `<=>`, `!=` by `==` where no `!=` fits ([over.match.oper]); a function that is declared
and has a body that does not compile is an error where it is called ([temp.inst]).
Simplifications: variables are not `const`; an element is a type of its own without conversions, and an assignment to it is the only use of
it; numbers are `difference_type`, to which `bool` converts.
-/

namespace Wite.IterTyping

/-- The iterator classes: `static_vector::const_iterator` and `iterator` (static_vector.hpp:61-62),
`identifiable_item_collection::const_iterator` and `iterator` (identifiable_item_collection.hpp:49-50), and `fragment_string::iterator`
(fragment_string.hpp:45). -/
inductive IterCls where
  | vecConst | vecIter | collConst | collIter | frag
  deriving DecidableEq

/-- The base class: dereferencing_iterator.hpp:166. -/
def IterCls.base : IterCls → Option IterCls
  | .vecIter => some .vecConst
  | .collIter => some .collConst
  | _ => none

/-- The type of an expression: an iterator (an lvalue or a temporary), a number, an element (that can be assigned to or not), a pointer to
such, the result of `<=>`, `bool` or `void`. -/
inductive ETy where
  | it (c : IterCls) (lvalue : Bool)
  | num
  | elem (mutable : Bool)
  | ptr (mutable : Bool)
  | order
  | bool
  | void
  deriving DecidableEq

/-- The member operators. -/
inductive Mem where
  | deref | arrow | preInc | postInc | preDec | postDec | addAssign | subAssign | plus | minus | subscript | eq | ne | spaceship
  deriving DecidableEq

/-- A parameter: none, a number, or `const` reference to a class. -/
inductive ParTy where
  | none
  | num
  | cls (c : IterCls)
  deriving DecidableEq

/-- A declaration: name, parameter, result. -/
structure MemDecl where
  name : Mem
  par : ParTy
  res : ETy
  deriving DecidableEq

/-- What `dereferencing_const_iterator` declares: dereferencing_iterator.hpp:57-140. -/
def constDecls (c : IterCls) : List MemDecl :=
  [⟨.deref, .none, .elem false⟩, ⟨.arrow, .none, .ptr false⟩,
   ⟨.preInc, .none, .it c true⟩, ⟨.postInc, .none, .it c false⟩, ⟨.preDec, .none, .it c true⟩, ⟨.postDec, .none, .it c false⟩,
   ⟨.addAssign, .num, .it c true⟩, ⟨.subAssign, .num, .it c true⟩, ⟨.plus, .num, .it c false⟩, ⟨.minus, .num, .it c false⟩,
   ⟨.minus, .cls c, .num⟩, ⟨.subscript, .num, .elem false⟩, ⟨.eq, .cls c, .bool⟩, ⟨.ne, .cls c, .bool⟩, ⟨.spaceship, .cls c, .order⟩]

/-- What `dereferencing_iterator` declares itself, without the comparisons: dereferencing_iterator.hpp:193-254. -/
def iterDecls (c : IterCls) : List MemDecl :=
  [⟨.deref, .none, .elem true⟩, ⟨.arrow, .none, .ptr true⟩,
   ⟨.preInc, .none, .it c true⟩, ⟨.postInc, .none, .it c false⟩, ⟨.preDec, .none, .it c true⟩, ⟨.postDec, .none, .it c false⟩,
   ⟨.addAssign, .num, .it c true⟩, ⟨.subAssign, .num, .it c true⟩, ⟨.plus, .num, .it c false⟩, ⟨.minus, .num, .it c false⟩,
   ⟨.minus, .cls c, .num⟩, ⟨.subscript, .num, .elem true⟩]

/-- What `basic_fragment_string::iterator` declares: fragment_string.hpp:76-167. -/
def fragDecls : List MemDecl :=
  [⟨.spaceship, .cls .frag, .order⟩, ⟨.eq, .cls .frag, .bool⟩, ⟨.deref, .none, .elem false⟩,
   ⟨.preInc, .none, .it .frag true⟩, ⟨.preDec, .none, .it .frag true⟩,
   ⟨.addAssign, .num, .it .frag true⟩, ⟨.subAssign, .num, .it .frag true⟩,
   ⟨.plus, .num, .it .frag false⟩, ⟨.minus, .num, .it .frag false⟩, ⟨.minus, .cls .frag, .num⟩]

/-- The declarations of a class: dereferencing_iterator.hpp:30-161 and 163-259, fragment_string.hpp:45-238. -/
def decls : IterCls → List MemDecl
  | .vecConst => constDecls .vecConst
  | .vecIter => iterDecls .vecIter
  | .collConst => constDecls .collConst
  | .collIter => iterDecls .collIter
  | .frag => fragDecls

/-- The members that lookup of a name in a class finds: a declaration in the class hides those of the base
(dereferencing_iterator.hpp:166, 248). -/
def found (c : IterCls) (m : Mem) : List MemDecl :=
  match (decls c).filter (fun d => d.name = m), c.base with
  | [], some b => (decls b).filter (fun d => d.name = m)
  | ds, _ => ds

/-- Whether the body compiles: `operator[]` takes the `value()` of a `raw_value_type` (dereferencing_iterator.hpp:124-128, 252-254), which is
a pointer for collections (identifiable_item_collection.hpp:40). -/
def bodyCompiles (c : IterCls) (m : Mem) : Bool :=
  match c, m with
  | .collConst, .subscript => false
  | .collIter, .subscript => false
  | _, _ => true

/-- Whether an argument of the type can be given for the parameter: dereferencing_iterator.hpp:166 (an `iterator` is a
`const_iterator`). -/
def fitsPar : Option ETy → ParTy → Bool
  | none, .none => true
  | some .num, .num => true
  | some .bool, .num => true
  | some (.it c _), .cls c' => c = c' || c.base = some c'
  | _, _ => false

/-- The call of a member: dereferencing_iterator.hpp:57-140, 193-254; fragment_string.hpp:76-167. No two declarations of one name fit the
same argument. -/
def member (c : IterCls) (m : Mem) (arg : Option ETy) : Option ETy :=
  match (found c m).find? (fun d => fitsPar arg d.par) with
  | some d => if bodyCompiles c m then some d.res else none
  | none => none

/-- Whether an iterator can be assigned to and made without arguments: dereferencing_iterator.hpp:55, 191
(`WITE_DEFAULT_CONSTRUCTORS`); the iterator of a fragment string has a `const` member and a constructor with arguments
(fragment_string.hpp:50, 70-74). -/
def regular (c : IterCls) : Bool := c ≠ .frag

/-- Whether an expression of the type can initialise an object of the class, or be assigned to one that can be assigned to:
dereferencing_iterator.hpp:55, 166, 191. -/
def initialises (c : IterCls) : ETy → Bool
  | .it c' _ => c' = c || c'.base = some c
  | _ => false

/-- The unary operators. -/
inductive UnOp where
  | deref | arrow | preInc | postInc | preDec | postDec | neg
  deriving DecidableEq

/-- The binary operators and calls. `swap` is the unqualified call that finds the `friend` of the class, `stdSwap` is `std::swap`. -/
inductive BinOp where
  | plus | minus | addAssign | subAssign | subscript | eq | ne | lt | le | gt | ge | spaceship | assign | swap | stdSwap
  deriving DecidableEq

/-- Expressions: variables, numbers, temporaries `C()` and `C(e)`, unary and binary operators, assignment to an element. -/
inductive IExpr where
  | var (c : IterCls)
  | num
  | dflt (c : IterCls)
  | make (c : IterCls) (e : IExpr)
  | un (op : UnOp) (e : IExpr)
  | bin (op : BinOp) (a b : IExpr)
  | put (e : IExpr)
  deriving DecidableEq

/-- The member that a unary operator calls: dereferencing_iterator.hpp:57-84, fragment_string.hpp:92-132. -/
def UnOp.mem : UnOp → Option Mem
  | .deref => some .deref
  | .arrow => some .arrow
  | .preInc => some .preInc
  | .postInc => some .postInc
  | .preDec => some .preDec
  | .postDec => some .postDec
  | .neg => none

/-- The type of a unary operator's result: dereferencing_iterator.hpp:57-84, 193-216; fragment_string.hpp:92-132. -/
def unTy (op : UnOp) : ETy → Option ETy
  | .it c _ => op.mem.bind fun m => member c m none
  | .num => if op = .neg then some .num else none
  | _ => none

/-- `==` and `<=>` with the operands in either order ([over.match.oper]): dereferencing_iterator.hpp:130-140, fragment_string.hpp:76-90. -/
def eitherWay (m : Mem) (a b : ETy) : Option ETy :=
  match a, b with
  | .it c l, .it c' l' => (member c m (some (.it c' l'))).or (member c' m (some (.it c l)))
  | _, _ => none

/-- `swap(a, b)`: for iterators of the containers the `friend` is chosen, and `b.ptr` in its body is no member
(dereferencing_iterator.hpp:142-151, 256-258); for those of a fragment string `std::swap`, which needs assignment
(fragment_string.hpp:50). -/
def swapTy (a b : ETy) : Option ETy :=
  match a, b with
  | .it .frag true, .it .frag true => if regular .frag then some .void else none
  | _, _ => none

/-- `std::swap(a, b)`: dereferencing_iterator.hpp:55, 191; fragment_string.hpp:50. -/
def stdSwapTy (a b : ETy) : Option ETy :=
  match a, b with
  | .it c true, .it c' true => if c = c' ∧ regular c then some .void else none
  | _, _ => none

/-- A member given both operands, or nothing where the left one is no iterator: no operator is declared outside of the classes
(dereferencing_iterator.hpp:30-259, fragment_string.hpp:45-238). -/
def ofLeft (m : Mem) (a b : ETy) : Option ETy :=
  match a with
  | .it c _ => member c m (some b)
  | _ => none

/-- Numbers and `bool`s among themselves. -/
def numbers : ETy → ETy → Bool
  | .num, .num => true
  | .num, .bool => true
  | .bool, .num => true
  | .bool, .bool => true
  | _, _ => false

/-- The type of a binary operator's result: dereferencing_iterator.hpp:86-151, 218-258; fragment_string.hpp:76-167. -/
def binTy (op : BinOp) (a b : ETy) : Option ETy :=
  match op with
  | .plus => if numbers a b then some .num else ofLeft .plus a b
  | .minus => if numbers a b then some .num else ofLeft .minus a b
  | .addAssign => ofLeft .addAssign a b
  | .subAssign => ofLeft .subAssign a b
  | .subscript => ofLeft .subscript a b
  | .eq => if numbers a b then some .bool else eitherWay .eq a b
  | .ne => if numbers a b then some .bool else (ofLeft .ne a b).or (eitherWay .eq a b)
  | .lt => if numbers a b then some .bool else (eitherWay .spaceship a b).map fun _ => .bool
  | .le => if numbers a b then some .bool else (eitherWay .spaceship a b).map fun _ => .bool
  | .gt => if numbers a b then some .bool else (eitherWay .spaceship a b).map fun _ => .bool
  | .ge => if numbers a b then some .bool else (eitherWay .spaceship a b).map fun _ => .bool
  | .spaceship => if a = b ∧ (a = .num ∨ a = .bool) then some .order else eitherWay .spaceship a b
  | .assign =>
    match a with
    | .it c _ => if regular c && initialises c b then some (.it c true) else none
    | _ => none
  | .swap => swapTy a b
  | .stdSwap => stdSwapTy a b

/-- The type of an expression, `none` if it does not compile: dereferencing_iterator.hpp:30-259, fragment_string.hpp:45-238. -/
def typeOf : IExpr → Option ETy
  | .var c => some (.it c true)
  | .num => some .num
  | .dflt c => if regular c then some (.it c false) else none
  | .make c e => (typeOf e).bind fun t => if initialises c t then some (.it c false) else none
  | .un op e => (typeOf e).bind (unTy op)
  | .bin op a b => (typeOf a).bind fun s => (typeOf b).bind fun t => binTy op s t
  | .put e => (typeOf e).bind fun t => if t = .elem true then some (.elem true) else none

end Wite.IterTyping
