import Verif.Model.State
import Verif.Model.Split
import Verif.Model.Join
import Verif.Model.Trim

/-!
# Model of the string functions when memory runs out

Files: string/split.hpp, string/join.hpp, string/trim.hpp, string/strip.hpp.

`plan n` says whether the `n`-th allocation fails, by throwing `std::bad_alloc`; the state is the number of allocations
made so far.  A string allocates when it is longer than what the standard library keeps inside the string object, a
vector when it has no room for another element.  Freeing memory is not modelled.  The container `split_to` makes is a
`std::vector` of strings or of views.
-/

namespace Wite.StringMem

variable {α : Type} [DecidableEq α]

/-- What depends on the standard library: the longest text a string holds without allocating, and the capacity a full
vector grows to. -/
structure Lib where
  sso : Nat
  grow : Nat → Nat

/-- What the pieces are: `std::basic_string` or `std::basic_string_view`. -/
inductive Piece where
  | string
  | view
  deriving DecidableEq, Repr

/-- One allocation. -/
def alloc (plan : Nat → Bool) : St Nat Unit := fun n => (if plan n then .throw .badAlloc else .ok (), n + 1)

/-- The body of a `noexcept` function. -/
def nox {β : Type} (x : St Nat β) : St Nat β := fun n => (noexcept (x.run n).1, (x.run n).2)

/-- Construct a string from a pair of iterators over `text`. -/
def makeString (plan : Nat → Bool) (lib : Lib) (text : List α) : St Nat (List α) := do
  if lib.sso < text.length then do
    alloc plan
    pure text
  else pure text

/-- A vector under construction. -/
structure Vec (α : Type) where
  items : List (List α)
  capacity : Nat
  deriving DecidableEq, Repr

/-- `push_back` of a piece that is moved in: strings move without allocating, also when the vector grows. -/
def pushBack (plan : Nat → Bool) (lib : Lib) (v : Vec α) (piece : List α) : St Nat (Vec α) := do
  if v.items.length = v.capacity then do
    alloc plan
    pure ⟨v.items ++ [piece], lib.grow v.capacity⟩
  else pure ⟨v.items ++ [piece], v.capacity⟩

/-- `detail::split::first_token` (string/split.hpp:58-67), `noexcept`, which constructs the piece. -/
def firstToken (plan : Nat → Bool) (lib : Lib) (kind : Piece) (s : List α) (delim : α) (b : Split.Behaviour) :
    St Nat (List α × List α × Bool) := nox do
  let r := Split.firstToken s delim b
  match kind with
  | .string => do
    let token ← makeString plan lib r.1
    pure (token, r.2.1, r.2.2)
  | .view => pure r

/-- The `while (true)` loop of `split_to` (string/split.hpp:78-94).  The remainder and whether a split was performed
are those of the pure model, whose measure makes the loop end. -/
def splitLoop (plan : Nat → Bool) (lib : Lib) (kind : Piece) (s : List α) (delim : α) (b : Split.Behaviour)
    (out : Vec α) : St Nat (Vec α) := do
  let (token, _, _) ← firstToken plan lib kind s delim b
  let out' ← if b = .keepEmpty ∨ (b = .dropEmpty ∧ token ≠ []) then pushBack plan lib out token else pure out
  if _h : (Split.firstToken s delim b).2.2 = true then
    splitLoop plan lib kind (Split.firstToken s delim b).2.1 delim b out'
  else pure out'
termination_by s.length
decreasing_by exact Split.firstToken_shorter s delim b _h

/-- `split_to` (string/split.hpp:73-95), `noexcept`, and with strings as pieces `split` (117-122), which moves the
result out. -/
def splitTo (plan : Nat → Bool) (lib : Lib) (kind : Piece) (s : List α) (delim : α) (b : Split.Behaviour) :
    St Nat (List (List α)) := nox do
  let v ← splitLoop plan lib kind s delim b ⟨[], 0⟩
  pure v.items

/-- `trim_left` (string/trim.hpp:41-44). -/
def trimLeft (plan : Nat → Bool) (lib : Lib) (isspace : α → Outcome Bool) (s : List α) : St Nat (List α) := do
  let rest ← St.lift (Trim.findNotSpace isspace s)
  makeString plan lib rest

/-- `trim_right` (string/trim.hpp:55-58). -/
def trimRight (plan : Nat → Bool) (lib : Lib) (isspace : α → Outcome Bool) (s : List α) : St Nat (List α) := do
  let rest ← St.lift (Trim.findNotSpace isspace s.reverse)
  makeString plan lib rest.reverse

/-- `strip` (string/strip.hpp:25-28): the string `trim_right` makes is copied by `trim_left`. -/
def strip (plan : Nat → Bool) (lib : Lib) (isspace : α → Outcome Bool) (s : List α) : St Nat (List α) := do
  let r ← trimRight plan lib isspace s
  trimLeft plan lib isspace r

/-- `join` (string/join.hpp:42-70): one string is copied; of several the result is allocated before anything is
copied into it. -/
def join (plan : Nat → Bool) (lib : Lib) (zero : α) (strings : List (List α)) (delim : α) : St Nat (List α) :=
  match strings with
  | [] => pure []
  | [s] => makeString plan lib s
  | s :: ss => do
    let buf ← makeString plan lib (List.replicate (Join.joinSize (s :: ss)) zero)
    let st ← St.lift (Join.copyInto (buf, 0) s)
    let st' ← St.lift (Join.appendAll delim st ss)
    pure st'.1

end Wite.StringMem
