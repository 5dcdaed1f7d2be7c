import Verif.Model.IoView
import Verif.Model.Uuid

/-!
# Nested data written and read through the views

The programs of a user who serialises data of any shape made of numbers, pairs, sequences and alternatives through a
`byte_write_buffer_view` and reads it back through a `byte_read_buffer_view`.  All bytes go through the members of the views
(io/byte_write_buffer_view.hpp, io/byte_read_buffer_view.hpp) as they are modelled in `Model/IoView.lean`; the rest of the
programs is the user's.

Simplified: numbers are unsigned integers (any other object of a trivially copyable type is the number its bytes make); the
user's containers do not run out of memory (that is the business of `Model/IoRecords.lean`).
-/

namespace Wite.Layouts

open Wite.Io Wite.Uuid

/-- The shape of data (README.md:640-660). -/
inductive Layout where
  /-- no bytes at all, for the empty alternative of an optional thing -/
  | nothing
  /-- several numbers, each of a width and in an encoding, in one call -/
  | numbers (ts : List Ty)
  /-- one thing and another -/
  | both (a b : Layout)
  /-- a sequence behind the number of its elements -/
  | many (t : Ty) (a : Layout)
  /-- one of two things behind the number 0 or 1 -/
  | either (t : Ty) (a b : Layout)
  deriving DecidableEq, Repr

/-- Data of a shape (README.md:640-660). -/
def Layout.Data : Layout → Type
  | .nothing => Unit
  | .numbers _ => List Nat
  | .both a b => a.Data × b.Data
  | .many _ a => List a.Data
  | .either _ a b => a.Data ⊕ b.Data

/-- `Ti{ni}` for each of several types and numbers, as arguments of `write` (io/byte_write_buffer_view.hpp:74-75). -/
def arguments (host : Endian) (ts : List Ty) (ns : List Nat) : List WVal :=
  List.zipWith (fun t n => .single t.enc (objectOf host t.size n)) ts ns

/-- Something for one element after another; the user's loop around `write` (io/byte_write_buffer_view.hpp:74-80). -/
def putEach {α : Type} (f : α → St WriteView Unit) : List α → St WriteView Unit
  | [] => pure ()
  | x :: xs => do
    f x
    putEach f xs

/-- The writing program, with `writer.write(T1{n1}, T2{n2}, ...)` (io/byte_write_buffer_view.hpp:74-80). -/
def put (host : Endian) : (l : Layout) → l.Data → St WriteView Unit
  | .nothing, _ => pure ()
  | .numbers ts, ns => do
    let _ ← WriteView.write host (arguments host ts ns)
    pure ()
  | .both a b, (x, y) => do
    put host a x
    put host b y
  | .many t a, xs => do
    let _ ← WriteView.write host (arguments host [t] [List.length xs])
    putEach (put host a) xs
  | .either t a _, .inl x => do
    let _ ← WriteView.write host (arguments host [t] [0])
    put host a x
  | .either t _ b, .inr y => do
    let _ ← WriteView.write host (arguments host [t] [1])
    put host b y

/-- The exception of the user's program for a number that says neither 0 nor 1. -/
def unknownTag : Exc := .user 0

/-- So many times the same; the user's loop around `read` (io/byte_read_buffer_view.hpp:77-83). -/
def getTimes {α : Type} (f : St ReadView α) : Nat → St ReadView (List α)
  | 0 => pure []
  | n + 1 => do
    let x ← f
    let xs ← getTimes f n
    pure (x :: xs)

/-- `reader.read<T>()` of one number (io/byte_read_buffer_view.hpp:77-83). -/
def getNumber (host : Endian) (t : Ty) : St ReadView Nat := do
  match ← ReadView.read host [t] with
  | [o] => pure (numberOf host o)
  | _ => St.ub

/-- The reading program, with `reader.read<T1, T2, ...>()` (io/byte_read_buffer_view.hpp:77-83). -/
def get (host : Endian) : (l : Layout) → St ReadView l.Data
  | .nothing => pure ()
  | .numbers ts => do
    let os ← ReadView.read host ts
    pure (os.map (numberOf host))
  | .both a b => do
    let x ← get host a
    let y ← get host b
    pure (x, y)
  | .many t a => do
    let n ← getNumber host t
    getTimes (get host a) n
  | .either t a b => do
    let n ← getNumber host t
    if n = 0 then do
      let x ← get host a
      pure (.inl x)
    else if n = 1 then do
      let y ← get host b
      pure (.inr y)
    else St.throw unknownTag

/-! ### The same with the functions that do not throw -/

/-- `result` and an early return: go on with the value or return the error (core/result.hpp:44-50). -/
def andThen {σ ε α β : Type} (x : St σ (Result α ε)) (f : α → St σ (Result β ε)) : St σ (Result β ε) := do
  match ← x with
  | .value a => f a
  | .error e => pure (.error e)

/-- The loop around `try_write`, up to the first error (io/byte_write_buffer_view.hpp:92-100). -/
def tryPutEach {α : Type} (f : α → St WriteView (Result Unit WriteError)) : List α → St WriteView (Result Unit WriteError)
  | [] => pure (.value ())
  | x :: xs => andThen (f x) fun _ => tryPutEach f xs

/-- `writer.try_write(T1{n1}, ...)`, without the number of bytes (io/byte_write_buffer_view.hpp:92-100). -/
def tryPutNumbers (host : Endian) (ts : List Ty) (ns : List Nat) : St WriteView (Result Unit WriteError) :=
  andThen (WriteView.tryWrite host (arguments host ts ns)) fun _ => pure (.value ())

/-- The writing program with `try_write`, up to the first error (io/byte_write_buffer_view.hpp:92-100). -/
def tryPut (host : Endian) : (l : Layout) → l.Data → St WriteView (Result Unit WriteError)
  | .nothing, _ => pure (.value ())
  | .numbers ts, ns => tryPutNumbers host ts ns
  | .both a b, (x, y) => andThen (tryPut host a x) fun _ => tryPut host b y
  | .many t a, xs => andThen (tryPutNumbers host [t] [List.length xs]) fun _ => tryPutEach (tryPut host a) xs
  | .either t a _, .inl x => andThen (tryPutNumbers host [t] [0]) fun _ => tryPut host a x
  | .either t _ b, .inr y => andThen (tryPutNumbers host [t] [1]) fun _ => tryPut host b y

/-- What the reading program with `try_read` fails with: the error of the library, or a number that says neither 0 nor 1
(io/types.hpp:57). -/
inductive Failure where
  | library (e : ReadError)
  | unknown
  deriving DecidableEq, Repr

/-- The values of several results, or the first error (core/result.hpp:44-50). -/
def allValues : List (Result Obj ReadError) → Result (List Obj) Failure
  | [] => .value []
  | .error e :: _ => .error (.library e)
  | .value o :: rs =>
    match allValues rs with
    | .value os => .value (o :: os)
    | .error e => .error e

/-- `reader.try_read<T1, T2, ...>()` (io/byte_read_buffer_view.hpp:103-111): the values if there are all of them. -/
def tryGetNumbers (host : Endian) (ts : List Ty) : St ReadView (Result (List Nat) Failure) := do
  let rs ← ReadView.tryRead host ts
  match allValues rs with
  | .value os => pure (.value (os.map (numberOf host)))
  | .error e => pure (.error e)

/-- The loop around `try_read`, up to the first error (io/byte_read_buffer_view.hpp:103-111). -/
def tryGetTimes {α : Type} (f : St ReadView (Result α Failure)) : Nat → St ReadView (Result (List α) Failure)
  | 0 => pure (.value [])
  | n + 1 => andThen f fun x => andThen (tryGetTimes f n) fun xs => pure (.value (x :: xs))

/-- The reading program with `try_read`, up to the first error (io/byte_read_buffer_view.hpp:103-111). -/
def tryGet (host : Endian) : (l : Layout) → St ReadView (Result l.Data Failure)
  | .nothing => pure (.value ())
  | .numbers ts => tryGetNumbers host ts
  | .both a b => andThen (tryGet host a) fun x => andThen (tryGet host b) fun y => pure (.value (x, y))
  | .many t a => andThen (tryGetNumbers host [t]) fun ns =>
      match ns with
      | [n] => tryGetTimes (tryGet host a) n
      | _ => St.ub
  | .either t a b => andThen (tryGetNumbers host [t]) fun ns =>
      match ns with
      | [0] => andThen (tryGet host a) fun x => pure (.value (.inl x))
      | [1] => andThen (tryGet host b) fun y => pure (.value (.inr y))
      | [_] => pure (.error .unknown)
      | _ => St.ub

end Wite.Layouts
