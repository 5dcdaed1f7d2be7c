import Verif.Model.Config

/-!
# Which operator `os << x` finds

The operators that insert the library's types into streams are function templates in the global namespace (core/io.hpp:20-48,
geometry/io.hpp:14-38, maths/io.hpp:14-51, string/fragment_string.hpp:601-617), while the types are in `wite` and namespaces in it.  An expression
`os << x` finds an operator in two ways: by unqualified lookup, which ends at the innermost enclosing namespace that declares any
`operator<<`, and by argument-dependent lookup in the namespaces associated with the types of `os` and `x`.  In the body of a template the
former sees only what was declared before the template, the latter everything declared before the end of the translation unit.

Simplifications: one character type per stream, and texts and fragment strings of that type; all insertions come after all includes and
declarations; no `using` declarations and directives, and no block-scope declarations; what the program declares in the global namespace for its own classes there is
declared in one place; points hold numbers (geometry/point.hpp:39).
-/

namespace Wite.OutputLookup

open Wite.Config

/-- Namespaces; `user n` are those of the program. -/
inductive Space where
  | global | std | wite | geometry | maths
  | user (n : Nat)
  deriving DecidableEq, Repr

/-- Types of things inserted: numbers, the standard library's strings, classes of the program with an operator of their own in
their namespace (`none` is the global one), classes of the program without one that satisfy `uuid_like` (core/uuid/basic_uuid.hpp:31-49),
`uuid` (core/uuid.hpp:49), `index<Obj>` (core/index.hpp:24), `id<Obj, Val>` (core/id.hpp:28), `point<N, number>` (geometry/point.hpp:27-29),
`value_range<Val, …>` (maths/value_range.hpp:51-52), `basic_fragment_string` (string/fragment_string.hpp:38-39). -/
inductive OutTy where
  | number
  | text
  | cls (place : Option Nat)
  | uuidLike (place : Option Nat)
  | uuid
  | index (obj : OutTy)
  | id (obj val : OutTy)
  | point
  | range (val : OutTy)
  | frag
  deriving DecidableEq, Repr

/-- The namespace of a class of the program. -/
def classSpace : Option Nat → Space
  | none => .global
  | some n => .user n

/-- The associated namespaces of a type: that of the class or class template, and those of the template's type arguments. -/
def assoc : OutTy → List Space
  | .number => []
  | .text => [.std]
  | .cls p => [classSpace p]
  | .uuidLike p => [classSpace p]
  | .uuid => [.wite]
  | .index o => .wite :: assoc o
  | .id o v => .wite :: (assoc o ++ assoc v)
  | .point => [.geometry]
  | .range v => .maths :: assoc v
  | .frag => [.wite]

/-- The operators declared in the global namespace: those of the library (core/io.hpp:20-32, 36-40 and 44-48, geometry/io.hpp:14-25, maths/io.hpp:14-32,
string/fragment_string.hpp:601-608) and those of the program for its classes there. -/
inductive Decl where
  | uuid | index | id | point | range | frag | classes
  deriving DecidableEq, Repr

/-- What a header declares after its includes (core/io.hpp:10-48, geometry/io.hpp:10-14, maths/io.hpp:10-14, string/fragment_string.hpp:601). -/
def headerOps : Header → List Decl
  | .coreIo => [.uuid, .index, .id]
  | .geometryIo => [.point]
  | .mathsIo => [.range]
  | .fragmentString => [.frag]
  | _ => []

/-- The headers in the order in which their own text comes, after including this one as well; every header has `#pragma once`
(core/io.hpp:8).  `depth` is more than the depth of the include graph. -/
def expandHeader (cfg : Macros) : Nat → List Header → Header → List Header
  | 0, out, _ => out
  | depth + 1, out, h => if h ∈ out then out else (includes cfg h).foldl (expandHeader cfg depth) out ++ [h]

/-- What a translation unit consists of before the insertions: `#include` lines and the operators for the program's classes in the global
namespace. -/
inductive Item where
  | header (h : Header)
  | classOps
  deriving DecidableEq, Repr

/-- The operators in the global namespace in the order of declaration (the includes of core/io.hpp:10-14 and the other headers); `done` are
the headers so far. -/
def declared (cfg : Macros) : List Header → List Item → List Decl
  | _, [] => []
  | done, .classOps :: rest => .classes :: declared cfg done rest
  | done, .header h :: rest =>
    ((expandHeader cfg 20 done h).drop done.length).flatMap headerOps ++ declared cfg (expandHeader cfg 20 done h) rest

/-- What unqualified lookup in the body of an operator sees of the global namespace: everything up to the operator itself
(core/io.hpp:45-46, maths/io.hpp:15-23). -/
def upTo (decls : List Decl) (d : Decl) : List Decl := decls.takeWhile (fun x => decide (x ≠ d)) ++ [d]

/-- Whether an expression finds an operator declared in the global namespace: it is visible and no enclosing namespace hides it, or the global namespace is
associated with the type (core/io.hpp:20-48 declare them there). -/
def finds (decls : List Decl) (hides : Bool) (visible : List Decl) (t : OutTy) (d : Decl) : Bool :=
  (!hides && decide (d ∈ visible)) || (decide (Space.global ∈ assoc t) && decide (d ∈ decls))

/-- Whether `os << x` compiles for `x` of the type; `wide` streams have no operator for ids and indices.  The bodies insert the text of a UUID (core/io.hpp:21-24,
29-32), the value of an index or id (core/io.hpp:37-40, 45-48), the numbers of a point (geometry/io.hpp:15-25), the bounds of a range
(maths/io.hpp:15-32) and views (string/fragment_string.hpp:602-608). -/
def insertable (wide : Bool) (decls : List Decl) (hides : Bool) (visible : List Decl) : OutTy → Bool
  | .number => true
  | .text => true
  | .cls (some _) => true
  | .cls none => finds decls hides visible (.cls none) .classes
  | .uuidLike p => finds decls hides visible (.uuidLike p) .uuid
  | .uuid => finds decls hides visible .uuid .uuid
  | .index o => !wide && finds decls hides visible (.index o) .index
  | .id o v => !wide && finds decls hides visible (.id o v) .id && insertable wide decls false (upTo decls .id) v
  | .point => finds decls hides visible .point .point
  | .range v => finds decls hides visible (.range v) .range && insertable wide decls false (upTo decls .range) v
  | .frag => finds decls hides visible .frag .frag

/-- Whether an enclosing namespace declares an `operator<<`, where `own` says so for the namespaces of the program: the standard library does, the
library's namespaces do not (core/io.hpp:20-48 and the other operators are outside of them). -/
def declares (own : Nat → Bool) : Space → Bool
  | .std => true
  | .user n => own n
  | _ => false

/-- Whether `os << x` compiles in code enclosed in these namespaces (core/io.hpp:20-48). -/
def inserts (wide : Bool) (decls : List Decl) (own : Nat → Bool) (enclosing : List Space) (t : OutTy) : Bool :=
  insertable wide decls (enclosing.any (declares own)) decls t

end Wite.OutputLookup
