import Verif.Model.IoStdio

/-!
# Vocabulary for the claims about files (C135-C140)

No counterpart in `/repo`: conditions on the environment and small client programs.
-/

namespace Wite.Io.Stdio

/-- No handle has been given out twice: handles from `next` on are not open. -/
def Sys.Fresh (s : Sys) : Prop := ∀ i, s.next ≤ i → s.opened i = none

/-- The same handles are open in both states. -/
def SameHandles (s s' : Sys) : Prop := s'.opened = s.opened ∧ s'.used = s.used

/-- If the call returns or throws, the same handles are open afterwards. -/
def KeepsHandles {α : Type} (call : St Sys α) (s : Sys) : Prop :=
  ((∃ a, (call.run s).1 = .ok a) ∨ ∃ e, (call.run s).1 = .throw e) → SameHandles s (call.run s).2

/-- `fopen` succeeds for this file now. -/
def CanOpen (env : Env) (mode : Mode) (path : Path) (s : Sys) : Prop :=
  s.used < env.maxOpen ∧ env.may mode path = true ∧ (mode = .read → (s.fs path).isSome = true)

/-- There is memory for all strings made from paths. -/
def Env.StringsOk (env : Env) : Prop := ∀ k, env.pathFails k = false

/-- A file whose size `ftell` can say. -/
def Env.Sizable (env : Env) (path : Path) (content : List Nat) : Prop :=
  env.seekable path = true ∧ content.length ≤ env.longMax ∧ content.length < 2 ^ 63

/-- The range has as many bytes as its elements need. -/
def Range.Ok (r : Range) : Prop := 0 < r.width ∧ r.data.length = r.elems * r.width

/-- A client that reads pieces of the given sizes, one after another, each into a fresh buffer of
bytes, and joins them. -/
def readPieces (env : Env) (id : Nat) : List Nat → St Sys (List Nat)
  | [] => pure []
  | n :: ns => do
    let r ← unsafeRead env id ⟨n, 1, List.replicate n 0⟩
    let rest ← readPieces env id ns
    pure (r.data ++ rest)

/-- A client that writes buffers of bytes one after another. -/
def writePieces (env : Env) (id : Nat) : List (List Nat) → St Sys Unit
  | [] => pure ()
  | b :: bs => do
    let _ ← unsafeWrite env id b.length ⟨b.length, 1, b⟩
    writePieces env id bs

end Wite.Io.Stdio
