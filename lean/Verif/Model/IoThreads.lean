import Verif.Model.Io

/-!
# io/byte_buffer_read.hpp and io/byte_buffer_write.hpp in several threads

`Io.lean` has calls that happen at once.  Here they are programs that access one byte of the buffer after another, and any number of threads
run such programs on one buffer.  A schedule says which thread makes its next access; the accesses are recorded, because two threads that
access one byte, one of them storing, make the program's behaviour undefined (a data race), whatever order they come in.

Simplified: the buffer is one of one-byte elements and is not resized while the threads run; the values written and the objects read into
belong to the threads; the order of the accesses within a call is that of ascending addresses.  `write_at`, `read_at`, `try_write_at` and
`try_read_at` only.
-/

namespace Wite.Io.Threads

/-- A program that accesses bytes of the buffer one at a time (as `std::copy_n` of io/byte_buffer_read.hpp:49 and
io/byte_buffer_write.hpp:40, 47 does) and ends with an outcome. -/
inductive Prog (α : Type) where
  | ret (o : Outcome α)
  | load (i : Nat) (k : Nat → Prog α)
  | store (i b : Nat) (k : Prog α)

namespace Prog

/-- One program after another; an exception ends both. -/
protected def bind {α β : Type} : Prog α → (α → Prog β) → Prog β
  | .ret o, f =>
    match o with
    | .ok a => f a
    | .throw e => .ret (.throw e)
    | .ub => .ret .ub
    | .terminate => .ret .terminate
    | .diverge => .ret .diverge
  | .load i k, f => .load i fun b => (k b).bind f
  | .store i b k, f => .store i b (k.bind f)

instance : Monad Prog where
  pure a := .ret (.ok a)
  bind := Prog.bind

/-- The program alone, on a buffer. -/
def run {α : Type} : Prog α → List Nat → Outcome α × List Nat
  | .ret o, m => (o, m)
  | .load i k, m =>
    match m[i]? with
    | some b => (k b).run m
    | none => (.ub, m)
  | .store i b k, m => if i < m.length then k.run (m.set i b) else (.ub, m)

/-- Catch what the program throws, and go on. -/
def attempt {α : Type} : Prog α → Prog (Outcome α)
  | .ret o => .ret (.ok o)
  | .load i k => .load i fun b => (k b).attempt
  | .store i b k => .store i b k.attempt

end Prog

/-- Load `k` bytes from `i` on. -/
def loads : (k i : Nat) → Prog (List Nat)
  | 0, _ => pure []
  | k + 1, i => .load i fun b => (loads k (i + 1)).bind fun bs => pure (b :: bs)

/-- Store bytes from `i` on. -/
def stores : (bs : List Nat) → (i : Nat) → Prog PUnit
  | [], _ => pure ⟨⟩
  | b :: bs, i => .store i b (stores bs (i + 1))

/-- `std::copy_n` from a buffer of `n` bytes (io/byte_buffer_read.hpp:44, 49). -/
def readMem (n pos k : Nat) : Prog (List Nat) := if pos + k ≤ n then loads k pos else .ret .ub

/-- `std::copy_n` into a buffer of `n` bytes (io/byte_buffer_write.hpp:40, 47). -/
def writeMem (n pos : Nat) (bs : List Nat) : Prog PUnit := if pos + bs.length ≤ n then stores bs pos else .ret .ub

/-- `_recursive_read` (io/byte_buffer_read.hpp:58-70) of the bytes from `off` on. -/
def recursiveRead (host : Endian) (n : Nat) : List Ty → (off : Nat) → Prog (List Obj)
  | [], _ => pure []
  | t :: ts, off => do
    let bs ← readMem n off t.size
    let vs ← recursiveRead host n ts (off + t.size)
    pure (bytesOf host t.enc bs :: vs)

/-- `read_at` (io/byte_buffer_read.hpp:110-121). -/
def readAt (host : Endian) (n : Nat) (ts : List Ty) (pos : Nat) : Prog (List Obj) :=
  if (pos + byteCountTys ts) % sizeMod < pos then .ret (.throw (.invalidArgument "Buffer read position exceeds allowed value"))
  else if pos > n then .ret (.throw (.outOfRange "Insufficient buffer space for read"))
  else if byteCountTys ts > n - pos then .ret (.throw (.outOfRange "Insufficient buffer space for read"))
  else recursiveRead host n ts pos

/-- `try_read_at` (io/byte_buffer_read.hpp:189-201, 205-217). -/
def tryReadAt (host : Endian) (n : Nat) (t : Ty) (pos : Nat) : Prog (Result Obj ReadError) :=
  if (pos + t.size) % sizeMod < pos then pure (.error .invalidPositionOffset)
  else if pos ≥ n then pure (.error .insufficientBuffer)
  else if n - pos < t.size then pure (.error .insufficientBuffer)
  else do
    let bs ← readMem n pos t.size
    pure (.value (bytesOf host t.enc bs))

/-- `_write_single_value`, `_write_single_encoded_value` (io/byte_buffer_write.hpp:37-42, 44-49). -/
def writeSingle (host : Endian) (n : Nat) (enc : Enc) (o : Obj) (pos : Nat) : Prog Nat := do
  writeMem n pos (bytesOf host enc o)
  pure o.length

/-- `_write_single_range_value` (io/byte_buffer_write.hpp:51-68). -/
def writeRangeLoop (host : Endian) (n : Nat) : List Obj → (written pos : Nat) → Prog Nat
  | [], written, _ => pure written
  | o :: os, written, pos => do
    let w ← writeSingle host n .native o pos
    writeRangeLoop host n os (written + w) (pos + o.length)

/-- `unchecked_write` (io/byte_buffer_write.hpp:74-94). -/
def uncheckedWrite (host : Endian) (n pos : Nat) : WVal → Prog Nat
  | .single enc o => writeSingle host n enc o pos
  | .range _ elems => writeRangeLoop host n elems 0 pos

/-- `_recursive_unsafe_write` (io/byte_buffer_write.hpp:100-109, 111-115). -/
def recursiveUnsafeWrite (host : Endian) (n : Nat) : (pos : Nat) → List WVal → Prog Nat
  | _, [] => pure 0
  | pos, v :: vs => do
    let out ← uncheckedWrite host n pos v
    let rest ← recursiveUnsafeWrite host n (pos + valueSize v) vs
    pure ((out + rest) % sizeMod)

/-- `write_at` (io/byte_buffer_write.hpp:281-294). -/
def writeAt (host : Endian) (n pos : Nat) (vs : List WVal) : Prog Nat :=
  if (pos + byteCountVals vs) % sizeMod < pos then .ret (.throw (.invalidArgument "Buffer read position exceeds allowed value"))
  else if (pos + byteCountVals vs) % sizeMod > n then .ret (.throw (.outOfRange "Insufficient buffer space for write"))
  else do
    let k ← recursiveUnsafeWrite host n pos vs
    pure ((pos + k) % sizeMod)

/-- `try_write_at` (io/byte_buffer_write.hpp:193-210). -/
def tryWriteAt (host : Endian) (n pos : Nat) (v : WVal) : Prog (Result Nat WriteError) :=
  if (pos + valueSize v) % sizeMod < pos then pure (.error .invalidPositionOffset)
  else if pos ≥ n then pure (.error .insufficientBuffer)
  else if n - pos < valueSize v then pure (.error .insufficientBuffer)
  else do
    let k ← uncheckedWrite host n pos v
    pure (.value ((pos + k) % sizeMod))

/-- What a call returns. -/
inductive Res where
  | position (n : Nat)
  | values (os : List Obj)
  | written (r : Result Nat WriteError)
  | value (r : Result Obj ReadError)

/-- A call on the shared buffer (io/byte_buffer_read.hpp:110-121, 189-217, io/byte_buffer_write.hpp:193-210, 281-294). -/
inductive Call where
  | writeAt (pos : Nat) (vs : List WVal)
  | readAt (pos : Nat) (ts : List Ty)
  | tryWriteAt (pos : Nat) (v : WVal)
  | tryReadAt (pos : Nat) (t : Ty)

/-- The accesses that a call makes (io/byte_buffer_read.hpp:110-121, 189-217, io/byte_buffer_write.hpp:193-210, 281-294). -/
def Call.prog (host : Endian) (n : Nat) : Call → Prog Res
  | .writeAt pos vs => (Threads.writeAt host n pos vs).bind fun k => pure (.position k)
  | .readAt pos ts => (Threads.readAt host n ts pos).bind fun os => pure (.values os)
  | .tryWriteAt pos v => (Threads.tryWriteAt host n pos v).bind fun r => pure (.written r)
  | .tryReadAt pos t => (Threads.tryReadAt host n t pos).bind fun r => pure (.value r)

/-- A call as `Io.lean` has it (io/byte_buffer_read.hpp:110-121, 189-217, io/byte_buffer_write.hpp:193-210, 281-294). -/
def Call.alone (host : Endian) : Call → St (List Nat) Res
  | .writeAt pos vs => do
    let k ← Io.writeAt host pos vs
    pure (.position k)
  | .readAt pos ts => do
    let buf ← St.get
    let os ← St.lift (Io.readAt host ts pos buf)
    pure (.values os)
  | .tryWriteAt pos v => do
    let r ← Io.tryWriteAt host pos v
    pure (.written r)
  | .tryReadAt pos t => do
    let buf ← St.get
    let r ← St.lift (Io.tryReadAt host t pos buf)
    pure (.value r)

/-- A thread that makes one call after the other and remembers what came of each. -/
def calls (host : Endian) (n : Nat) : List Call → Prog (List (Outcome Res))
  | [] => pure []
  | c :: cs => (c.prog host n).attempt.bind fun r => (calls host n cs).bind fun rs => pure (r :: rs)

/-- The buffer, what each thread still has to do, and the accesses so far, last first: which thread, whether it stored, and which byte. -/
structure World where
  mem : List Nat
  thread : Nat → Prog (List (Outcome Res))
  log : List (Nat × Bool × Nat)

/-- Thread `t` makes its next access to the buffer. -/
def World.step (w : World) (t : Nat) : World :=
  let next (p : Prog (List (Outcome Res))) : Nat → Prog (List (Outcome Res)) := fun u => if u = t then p else w.thread u
  match w.thread t with
  | .ret _ => w
  | .load i k =>
    match w.mem[i]? with
    | some b => { w with thread := next (k b), log := (t, false, i) :: w.log }
    | none => { w with thread := next (.ret .ub) }
  | .store i b k =>
    if i < w.mem.length then ⟨w.mem.set i b, next k, (t, true, i) :: w.log⟩ else { w with thread := next (.ret .ub) }

/-- The threads run, their accesses in the order of the schedule. -/
def World.run (w : World) (schedule : List Nat) : World := schedule.foldl World.step w

end Wite.Io.Threads
