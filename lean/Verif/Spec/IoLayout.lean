import Mathlib.Data.List.Forall2
import Verif.Model.IoLayout
import Verif.Spec.Io

/-!
# What nested data looks like in a buffer
-/

namespace Wite.Spec.IoLayout

open Wite.Io Wite.Layouts

/-- The digits of a number in base 256, as many as its type has bytes, in the order of its encoding. -/
def digits (host : Endian) (t : Ty) (n : Nat) : List Nat :=
  match t.enc, host with
  | .littleEndian, _ => leBytes t.size n
  | .bigEndian, _ => beBytes t.size n
  | .native, .little => leBytes t.size n
  | .native, .big => beBytes t.size n

/-- The bytes of data of a shape. -/
def bytes (host : Endian) : (l : Layout) → l.Data → List Nat
  | .nothing, _ => []
  | .numbers ts, ns => (List.zipWith (digits host) ts ns).flatten
  | .both a b, (x, y) => bytes host a x ++ bytes host b y
  | .many t a, xs => digits host t (List.length xs) ++ (List.map (bytes host a) xs).flatten
  | .either t a _, .inl x => digits host t 0 ++ bytes host a x
  | .either t _ b, .inr y => digits host t 1 ++ bytes host b y

/-- The numbers fit into their types, and so do the numbers of elements. -/
def Fits : (l : Layout) → l.Data → Prop
  | .nothing, _ => True
  | .numbers ts, ns => List.Forall₂ (fun t n => n < 256 ^ t.size) ts ns
  | .both a b, (x, y) => Fits a x ∧ Fits b y
  | .many t a, xs => List.length xs < 256 ^ t.size ∧ ∀ x, List.Mem x xs → Fits a x
  | .either _ a _, .inl x => Fits a x
  | .either _ _ b, .inr y => Fits b y

/-- Every call is for some number, numbers have at least one byte, and there are not more bytes than memory in one call. -/
def Sensible : Layout → Prop
  | .nothing => True
  | .numbers ts => ts ≠ [] ∧ (∀ t ∈ ts, 0 < t.size) ∧ totalTySize ts < 2 ^ 63
  | .both a b => Sensible a ∧ Sensible b
  | .many t a => 0 < t.size ∧ t.size < 2 ^ 63 ∧ Sensible a
  | .either t a b => 0 < t.size ∧ t.size < 2 ^ 63 ∧ Sensible a ∧ Sensible b

/-- Every number is in one of the endian wrappers. -/
def Portable : Layout → Prop
  | .nothing => True
  | .numbers ts => ∀ t ∈ ts, t.enc ≠ .native
  | .both a b => Portable a ∧ Portable b
  | .many t a => t.enc ≠ .native ∧ Portable a
  | .either t a b => t.enc ≠ .native ∧ Portable a ∧ Portable b

end Wite.Spec.IoLayout
