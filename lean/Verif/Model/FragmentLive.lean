import Verif.Model.FragmentString

/-!
# Fragment strings and the memory they point to

File: string/fragment_string.hpp.  `Model/FragmentString.lean` keeps the characters of every fragment in the string
itself.  The code keeps pointers and lengths, and the characters stay where they were: here they are in buffers that can
be written to and freed while the string lives.  A pointer is a buffer and an offset.  Reading a buffer that is gone, or
outside of one, is undefined behaviour.

Iterators move without looking at characters, so their arithmetic is that of `Model/FragmentString.lean` on the lengths
alone.  Not repeated here: `compare`, `starts_with`, `ends_with`, the searches and reverse iteration.
-/

namespace Wite.FragLive

variable {C : Type}

/-- Memory: the buffers there are, by number. -/
abbrev Mem (C : Type) := Nat → Option (List C)

/-- A `const Char_T*` that is not null: a buffer and an offset. -/
abbrev Ptr := Nat × Nat

/-- Something the rest of the program does to memory. -/
inductive Act (C : Type) where
  /-- `p[i] = c`; nothing happens outside of a buffer, where it would be undefined -/
  | store (buf i : Nat) (c : C)
  /-- the buffer is freed, or the string that owned it goes out of scope -/
  | free (buf : Nat)
  /-- new memory; a number in use is left alone -/
  | alloc (buf : Nat) (chars : List C)

/-- What memory is like afterwards. -/
def Act.run : Act C → Mem C → Mem C
  | .store buf i c, mem => fun n => if n = buf then (mem buf).map (fun s => s.set i c) else mem n
  | .free buf, mem => fun n => if n = buf then none else mem n
  | .alloc buf chars, mem => fun n => if n = buf then (match mem buf with
    | none => some chars
    | some s => some s) else mem n

/-- Several, one after another. -/
def runAll : List (Act C) → Mem C → Mem C
  | [], mem => mem
  | a :: as, mem => runAll as (a.run mem)

/-- `p[k]`. -/
def load (mem : Mem C) (p : Ptr) (k : Nat) : Outcome C :=
  match mem p.1 with
  | none => .ub
  | some s => match s[p.2 + k]? with
    | none => .ub
    | some c => .ok c

section
variable [DecidableEq C] [Zero C]

/-- The characters up to a zero, which has to come before the memory ends. -/
def scan : List C → Outcome (List C)
  | [] => .ub
  | c :: cs => if c = 0 then .ok [] else do
    let rest ← scan cs
    pure (c :: rest)

/-- The C string at a pointer (`std::char_traits::length` and the characters before that). -/
def cstrAt (mem : Mem C) (p : Ptr) : Outcome (List C) :=
  match mem p.1 with
  | none => .ub
  | some s => scan (s.drop p.2)

end

/-- A `std::basic_string_view` of the array `_fragments` (string/fragment_string.hpp:40-43, 548): `data()`, null in a
default-constructed one, and `length()`. -/
structure Frag where
  ptr : Option Ptr
  len : Nat
  deriving DecidableEq, Repr

/-- `_fragments` (string/fragment_string.hpp:43, 548). -/
abbrev FragStr := List Frag

/-- `basic_fragment_string(pointer str)` (string/fragment_string.hpp:253): the length is found here, once.  A null pointer
is undefined. -/
def ofPtr [DecidableEq C] [Zero C] (mem : Mem C) : Option Ptr → Outcome FragStr
  | none => .ub
  | some p => do
    let s ← cstrAt mem p
    pure [⟨some p, s.length⟩]

/-- `basic_fragment_string(left, right)` (string/fragment_string.hpp:258-263) as used by the `operator+`s at 558-579. -/
def concat (l r : FragStr) : FragStr := l ++ r

/-- `length()` (string/fragment_string.hpp:276-279), which looks at no character. -/
def length : FragStr → Nat
  | [] => 0
  | f :: fs => f.len + length fs

/-- `to_str()` (string/fragment_string.hpp:265-272): `str += fragment.data()` appends the C string at `data()`, whatever
the length of the fragment. -/
def toStr [DecidableEq C] [Zero C] (mem : Mem C) : FragStr → Outcome (List C)
  | [] => .ok []
  | f :: fs => match f.ptr with
    | none => .ub
    | some p => do
      let s ← cstrAt mem p
      let rest ← toStr mem fs
      pure (s ++ rest)

/-- `n` characters from offset `k` of a view on. -/
def chars (mem : Mem C) (p : Option Ptr) : (n k : Nat) → Outcome (List C)
  | 0, _ => .ok []
  | n + 1, k => match p with
    | none => .ub
    | some q => do
      let c ← load mem q k
      let cs ← chars mem p n (k + 1)
      pure (c :: cs)

/-- `operator<<` (string/fragment_string.hpp:601-617): every view is inserted with its length. -/
def print (mem : Mem C) (fill : C) : Nat → FragStr → Outcome (List C)
  | _, [] => .ok []
  | width, f :: fs => do
    let s ← chars mem f.ptr f.len 0
    let rest ← print mem fill 0 fs
    pure (Str.insertView fill width s ++ rest)

/-- The string as its iterators see it (string/fragment_string.hpp:48-58): how long the fragments are. -/
def shape (fs : FragStr) : Str.FragStr Unit := fs.map (fun f => some (List.replicate f.len ()))

/-- `operator*` of the iterator (string/fragment_string.hpp:92-98). -/
def deref (mem : Mem C) (b : Build) (fs : FragStr) (it : Str.It) : Outcome C :=
  match fs[it.frag]? with
  | none => .ub
  | some f => do
    debugAssert b (decide (it.cur < f.len)) "fragment_string: dereference iterator out-of-range"
    match f.ptr with
    | none => .ub
    | some p => load mem p it.cur

/-- The iterators of a fragment string (string/fragment_string.hpp:45-238). -/
def fwd (mem : Mem C) (b : Build) (fs : FragStr) : Str.Iter Str.It C where
  deref := deref mem b fs
  next := Str.incr b (shape fs)
  plus := Str.plus b (shape fs)
  diff := Str.diff (shape fs)
  eq := Str.It.eq

/-- `operator[]` (string/fragment_string.hpp:308). -/
def index (mem : Mem C) (b : Build) (fs : FragStr) (pos : Nat) : Outcome C := noexcept do
  let first ← Str.begin' (shape fs)
  let it ← Str.plus b (shape fs) first (Str.toDiff pos)
  deref mem b fs it

/-- `at(pos)` (string/fragment_string.hpp:300-306). -/
def at' (mem : Mem C) (b : Build) (fs : FragStr) (pos : Nat) : Outcome C :=
  if length fs ≤ pos then .throw (.outOfRange "Error: accessing fragment_string beyond end of string")
  else index mem b fs pos

/-- `substr(pos, count)` (string/fragment_string.hpp:404-415). -/
def substr (mem : Mem C) (b : Build) (fs : FragStr) (pos count : Nat) : Outcome (List C) :=
  if length fs ≤ pos then .throw (.outOfRange "fragment_string: substring start out of range")
  else do
    let first ← Str.begin' (shape fs)
    let stop ← (if count = Str.npos ∨ length fs ≤ (pos + count) % 2 ^ 64 then Str.end' (shape fs)
      else Str.plus b (shape fs) first (Str.toDiff ((pos + count) % 2 ^ 64)))
    let start ← Str.plus b (shape fs) first (Str.toDiff pos)
    Str.readRange (fwd mem b fs) start stop

/-- `copy(dest, count, pos)` (string/fragment_string.hpp:417-429), where `dest` is not part of the texts. -/
def copy (mem : Mem C) (b : Build) (fs : FragStr) (count pos : Nat) : Outcome (Nat × List C) :=
  if length fs ≤ pos then .throw (.outOfRange "fragment_string: copy start out of range")
  else do
    let n := min count (length fs - pos)
    let first ← Str.begin' (shape fs)
    let start ← Str.plus b (shape fs) first (Str.toDiff pos)
    let cs ← Str.copyN (fwd mem b fs) n start
    pure (n, cs)

/-- `for (auto it = s.begin(); it != s.end(); ++it) out.push_back(*it);` (string/fragment_string.hpp:285-294). -/
def forEach (mem : Mem C) (b : Build) (fs : FragStr) : Outcome (List C) := do
  let first ← Str.begin' (shape fs)
  let last ← Str.end' (shape fs)
  Str.readLoop (fwd mem b fs) (length fs + 1) first last

end Wite.FragLive
