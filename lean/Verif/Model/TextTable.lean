import Verif.Model.Join
import Verif.Model.Trim

/-!
# Tables of text: string/join.hpp, string/split.hpp and string/strip.hpp together

A program that keeps a list of texts, a table, a list of tables and so on in one text: `join` puts the parts of each level together with the
delimiter of that level, `split` takes them apart again, and `strip` may be applied to what is found in the innermost parts.

Simplified: the programs are the obvious nested loops; memory does not run out (`StringMem.lean` has that).
-/

namespace Wite.TextTable

open Wite Wite.Split

/-- A text, or a list of tables of one level less: one level for each delimiter. -/
abbrev Table (α : Type) : List α → Type
  | [] => List α
  | _ :: ds => List (Table α ds)

/-- A loop that does something with each of the parts. -/
def each {β γ : Type} (f : β → Outcome γ) : List β → Outcome (List γ)
  | [] => .ok []
  | x :: xs => do
    let y ← f x
    let ys ← each f xs
    pure (y :: ys)

/-- Write the parts, then `join` them (string/join.hpp:42-70). -/
def writeTable {α : Type} (zero : α) : (ds : List α) → Table α ds → Outcome (List α)
  | [], s => .ok s
  | d :: ds, rows => do
    let texts ← each (writeTable zero ds) rows
    Join.join zero texts d

variable {α : Type} [DecidableEq α]

/-- `split` the text (string/split.hpp:117-122), then read the parts. -/
def readTable (b : Behaviour) (cell : List α → Outcome (List α)) : (ds : List α) → List α → Outcome (Table α ds)
  | [], s => cell s
  | d :: ds, s => each (readTable b cell ds) (split s d b)

/-- Texts are taken as they are. -/
def plain (s : List α) : Outcome (List α) := .ok s

/-- Texts are stripped (string/strip.hpp:25-28), with whitespace as `p` says. -/
def stripped (p : α → Bool) (s : List α) : Outcome (List α) := Trim.strip (fun c => .ok (p c)) s

end Wite.TextTable
