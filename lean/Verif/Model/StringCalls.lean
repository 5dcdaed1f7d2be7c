import Verif.Model.Split

/-!
# Model of which calls of the string functions compile

The functions of `wite/string/trim.hpp`, `strip.hpp`, `split.hpp` and `join.hpp` are templates.  Whether a call
compiles is decided by template argument deduction, by the nested types the signature names and by the body.
This file models those decisions for the kinds of argument a user has: characters, C strings, character arrays,
`std::basic_string`, `std::basic_string_view`, `nullptr`, containers and initialiser lists, and types that have
nothing to do with text; as variables and as temporaries, const or not.

Not modelled: arguments that are braced lists, class types that convert to a string or a view, pointers to
something other than characters, and explicitly given template arguments other than `Result_T`.
-/

namespace Wite.StringCalls

/-- The character types of C++20. -/
inductive CharTy where
  | char | wchar | char8 | char16 | char32
  deriving DecidableEq, Repr

/-- The type of an expression, without references and top-level `const`. -/
inductive Ty where
  /-- a character -/
  | chr (c : CharTy)
  /-- `std::basic_string<C>` -/
  | str (c : CharTy)
  /-- `std::basic_string_view<C>` -/
  | view (c : CharTy)
  /-- `C*` or `const C*` -/
  | ptr (c : CharTy)
  /-- an array of `n` characters, such as a string literal -/
  | arr (c : CharTy) (n : Nat)
  /-- the type of `nullptr` -/
  | null
  /-- a container with `value_type`, `size`, `push_back`, `begin`, `end`, `rbegin` and `rend`: vector, list, deque -/
  | vec (t : Ty)
  /-- `std::initializer_list<T>`, which has `value_type`, `size`, `begin` and `end` only -/
  | ilist (t : Ty)
  /-- a type that has no nested `value_type` and converts to none of the types above -/
  | other
  deriving DecidableEq, Repr

/-- An argument: its type, whether it is `const`, and whether it is an lvalue (a variable, or a string literal). -/
structure Arg where
  ty : Ty
  isConst : Bool
  lvalue : Bool
  deriving DecidableEq, Repr

/-- What the compiler makes of a call. -/
inductive Verdict (ρ : Type) where
  /-- no overload can be called: deduction failed or a nested type of the signature does not exist -/
  | noMatch
  /-- an overload is chosen, and compiling its body or its default argument fails -/
  | error
  /-- the call compiles -/
  | ok (r : ρ)
  deriving DecidableEq, Repr

/-- The type a template parameter is deduced as. -/
inductive Deduced where
  | value (t : Ty)
  | lref (t : Ty)
  deriving DecidableEq, Repr

/-- The type deduced for `String_T` from the parameter `String_T&&` (string/trim.hpp:42, string/trim.hpp:56 and
string/strip.hpp:26): an lvalue of type `T` gives `T&`, anything else `T`.  `const` stays part of the deduced type; it
changes nothing below and is left out. -/
def forwarding (a : Arg) : Deduced :=
  if a.lvalue then .lref a.ty else .value a.ty

/-- The nested type `T::value_type`, if `T` has one.  The string functions name it in their return types
(string/trim.hpp:42, string/split.hpp:75 and string/join.hpp:43). -/
def Ty.valueType : Ty → Option Ty
  | .str c => some (.chr c)
  | .view c => some (.chr c)
  | .vec t => some t
  | .ilist t => some t
  | _ => none

/-- `typename String_T::value_type` for a deduced parameter (string/trim.hpp:42): a reference has no nested types. -/
def Deduced.valueType : Deduced → Option Ty
  | .value t => t.valueType
  | .lref _ => none

/-- The characters `detail::is_not_whitespace` and `space_character` are made for (string/trim.hpp:26-36,
string/split.hpp:48-56 and string/join.hpp:29-37). -/
def CharTy.classified : CharTy → Bool
  | .char => true
  | .wchar => true
  | _ => false

/-- `const Char_T*` deduced from an argument (string/trim.hpp:49): pointers to characters and arrays of them; `nullptr`
gives nothing to deduce from. -/
def pointee : Ty → Option CharTy
  | .ptr c => some c
  | .arr c _ => some c
  | _ => none

/-- Overload resolution between the two overloads of a function; `both` says what happens when both can be called. -/
def choose (first second both : Verdict ρ) : Verdict ρ :=
  match first, second with
  | .noMatch, v => v
  | v, .noMatch => v
  | _, _ => both

/-- The forwarding overload of `trim_left` (string/trim.hpp:41-44). -/
def trimLeftFwd (a : Arg) : Verdict Ty :=
  match (forwarding a).valueType with
  | none => .noMatch
  | some (.chr c) => if c.classified then .ok (.str c) else .error
  | some _ => .error

/-- The pointer overload of `trim_left` (string/trim.hpp:48-51): it calls `trim_left` with a temporary view. -/
def trimLeftPtr (a : Arg) : Verdict Ty :=
  match pointee a.ty with
  | none => .noMatch
  | some c => trimLeftFwd ⟨.view c, false, false⟩

/-- A call `trim_left(a)` (string/trim.hpp:41-51). -/
def trimLeft (a : Arg) : Verdict Ty := choose (trimLeftFwd a) (trimLeftPtr a) .error

/-- Whether a type has `rbegin` and `rend`, which `trim_right` calls (string/trim.hpp:57). -/
def Ty.reversible : Ty → Bool
  | .str _ => true
  | .view _ => true
  | .vec _ => true
  | _ => false

/-- The forwarding overload of `trim_right` (string/trim.hpp:55-58). -/
def trimRightFwd (a : Arg) : Verdict Ty :=
  match (forwarding a).valueType with
  | none => .noMatch
  | some (.chr c) => if c.classified && a.ty.reversible then .ok (.str c) else .error
  | some _ => .error

/-- The pointer overload of `trim_right` (string/trim.hpp:62-65). -/
def trimRightPtr (a : Arg) : Verdict Ty :=
  match pointee a.ty with
  | none => .noMatch
  | some c => trimRightFwd ⟨.view c, false, false⟩

/-- A call `trim_right(a)` (string/trim.hpp:55-65). -/
def trimRight (a : Arg) : Verdict Ty := choose (trimRightFwd a) (trimRightPtr a) .error

/-- What a call inside the body of a function template means for the function: a call that does not compile is an
error in the body (string/strip.hpp:27). -/
def inBody : Verdict Ty → Verdict Ty
  | .noMatch => .error
  | v => v

/-- `trim_left(trim_right(a))` in the body of `strip` (string/strip.hpp:27 and string/strip.hpp:34): the argument of
`trim_left` is the string `trim_right` returns, a temporary. -/
def stripBody (a : Arg) : Verdict Ty :=
  match inBody (trimRight a) with
  | .ok t => inBody (trimLeft ⟨t, false, false⟩)
  | v => v

/-- The forwarding overload of `strip` (string/strip.hpp:25-28): `std::forward` keeps the value category. -/
def stripFwd (a : Arg) : Verdict Ty :=
  match (forwarding a).valueType with
  | none => .noMatch
  | some _ => stripBody a

/-- The pointer overload of `strip` (string/strip.hpp:32-35). -/
def stripPtr (a : Arg) : Verdict Ty :=
  match pointee a.ty with
  | none => .noMatch
  | some c => stripBody ⟨.view c, false, false⟩

/-- A call `strip(a)` (string/strip.hpp:25-35). -/
def strip (a : Arg) : Verdict Ty := choose (stripFwd a) (stripPtr a) .error

/-! ## `join` -/

/-- Whether a value of the element type converts implicitly to `std::basic_string<C>`, which `return
*strings.begin();` needs (string/join.hpp:51-52): the conversion from a view is explicit. -/
def returnsAsString : Ty → Bool
  | .str _ => true
  | _ => false

/-- Whether the container has `size`, `begin` and `end` (string/join.hpp:48-59). -/
def Ty.sized : Ty → Bool
  | .str _ => true
  | .view _ => true
  | .vec _ => true
  | .ilist _ => true
  | _ => false

/-- A call `join(strings)` (`delim = none`) or `join(strings, delimiter)` (string/join.hpp:42-70).  The parameter is
`const Range_T&`, so lvalues and temporaries are alike.  The delimiter's type is not deduced: every character type
converts.  The default delimiter exists for `char` and `wchar_t` only. -/
def join (a : Arg) (delim : Option CharTy) : Verdict Ty :=
  match a.ty.valueType with
  | none => .noMatch
  | some t =>
    match t.valueType with
    | none => .noMatch
    | some (.chr c) =>
      if a.ty.sized && returnsAsString t && (delim.isSome || c.classified) then .ok (.str c) else .error
    | some _ => .error

/-! ## `split` and `split_to` -/

/-- The versions of the language the library can be compiled as. -/
inductive Std where
  | cpp17 | cpp20 | cpp23
  deriving DecidableEq, Repr

/-- Whether a token of this type can be made from two iterators, as `first_token` does
(string/split.hpp:66): views have that constructor since C++20. -/
def makesToken (std : Std) : Ty → Bool
  | .str _ => true
  | .view _ => std != .cpp17
  | .vec _ => true
  | _ => false

/-- Whether `split_to` can append to its result (string/split.hpp:84). -/
def appendable : Ty → Bool
  | .vec _ => true
  | _ => false

/-- The character type of the text, `typename Result_T::value_type::value_type` (string/split.hpp:75-76). -/
def charOf (result : Ty) : Option Ty :=
  match result.valueType with
  | none => none
  | some t => t.valueType

/-- Whether the body of `split_to` compiles for this result type (string/split.hpp:78-94). -/
def bodyCompiles (std : Std) (result : Ty) : Bool :=
  match result.valueType with
  | none => false
  | some t => appendable result && makesToken std t

/-- Implicit conversion of an argument to `std::basic_string_view<C>` (string/split.hpp:75): `none` if there is none,
`some false` if it is deleted, as from `nullptr` since C++23. -/
def toView (std : Std) (c : CharTy) : Ty → Option Bool
  | .str d => if d = c then some true else none
  | .view d => if d = c then some true else none
  | .ptr d => if d = c then some true else none
  | .arr d _ => if d = c then some true else none
  | .null => some (std != .cpp23)
  | _ => none

/-- The overload of `split_to` that runs. -/
inductive Overload where
  | viewOverload | pointerOverload
  deriving DecidableEq, Repr

/-- The overload of `split_to` for views (string/split.hpp:73-95).  Neither the text nor the delimiter is deduced. -/
def splitToView (std : Std) (result : Ty) (a : Arg) (delim : Option CharTy) : Verdict Overload :=
  match charOf result with
  | some (.chr c) =>
    match toView std c a.ty with
    | none => .noMatch
    | some usable =>
      if usable && bodyCompiles std result && (delim.isSome || c.classified) then .ok .viewOverload else .error
  | _ => .noMatch

/-- The overload of `split_to` for pointers (string/split.hpp:99-113).  `Char_T` is deduced from the pointer and from
the delimiter, and both must give the same type; the body calls the overload for views. -/
def splitToPointer (std : Std) (result : Ty) (a : Arg) (delim : Option CharTy) : Verdict Overload :=
  match pointee a.ty with
  | none => .noMatch
  | some c =>
    if delim = none ∨ delim = some c then
      if delim.isSome || c.classified then
        match splitToView std result ⟨.view c, false, false⟩ (some c) with
        | .ok _ => .ok .pointerOverload
        | _ => .error
      else .error
    else .noMatch

/-- A call `split_to<Result_T>(a)` (`delim = none`) or `split_to<Result_T>(a, delimiter, ...)`
(string/split.hpp:73-113).  When both overloads can be called the one for pointers is the better match: it needs no
user-defined conversion. -/
def splitTo (std : Std) (result : Ty) (a : Arg) (delim : Option CharTy) : Verdict Overload :=
  choose (splitToView std result a delim) (splitToPointer std result a delim) (splitToPointer std result a delim)

/-- The overload of `split` for views (string/split.hpp:117-122): `Char_T` is deduced from
`basic_string_view<Char_T>`, which matches views only, and from the delimiter. -/
def splitView (std : Std) (a : Arg) (delim : Option CharTy) : Verdict Ty :=
  match a.ty with
  | .view c =>
    if delim = none ∨ delim = some c then
      if delim.isSome || c.classified then
        match splitTo std (.vec (.str c)) ⟨.view c, false, true⟩ (some c) with
        | .ok _ => .ok (.vec (.str c))
        | _ => .error
      else .error
    else .noMatch
  | _ => .noMatch

/-- The overload of `split` for pointers (string/split.hpp:126-139): it takes the text and nothing else. -/
def splitPtr (std : Std) (a : Arg) (delim : Option CharTy) : Verdict Ty :=
  match pointee a.ty, delim with
  | some c, none =>
    match splitView std ⟨.view c, false, false⟩ none with
    | .ok t => .ok t
    | _ => .error
  | _, _ => .noMatch

/-- A call `split(a)` (`delim = none`) or `split(a, delimiter, ...)` (string/split.hpp:117-139). -/
def split (std : Std) (a : Arg) (delim : Option CharTy) : Verdict Ty :=
  choose (splitView std a delim) (splitPtr std a delim) .error

/-- Running a call of `split_to` with a pointer as the text: the overload for pointers tests for null
(string/split.hpp:108-112); the overload for views makes a view of the pointer first, which a null pointer must not
be used for (string/split.hpp:73-77). -/
def runSplitTo (o : Overload) (p : Option (List Nat)) (delim : Nat) (b : Split.Behaviour) : Outcome (List (List Nat)) :=
  match o with
  | .pointerOverload => Split.splitToPtr p delim b
  | .viewOverload =>
    match p with
    | none => .ub
    | some m => do
      let s ← Split.viewOfPtr m
      pure (Split.splitTo s delim b)

end Wite.StringCalls
