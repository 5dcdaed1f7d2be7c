import Verif.Lemmas.CollectionMove

/-!
# Property C130: moving an `identifiable_item_collection`
-/

namespace Wite.Props

open Wite Wite.Collections Wite.Spec.CollectionMove

variable {n : Nat} {ι α : Type} [DecidableEq ι]

/-- Memory never runs out. -/
private abbrev plenty : Site → Nat → Bool := fun _ _ => true

private theorem keepsIds {idOf : α → ι} {ops : List (Colls.Op n ι α)} (h : KeepsIds idOf ops) :
    ∀ op ∈ ops, op.keepsIds idOf := by
  intro op hop
  cases op with
  | move i j => trivial
  | call i op =>
    cases op <;> try trivial
    exact h i _ _ hop

/-- The state after a program on `n` empty collections, if no call had undefined behaviour. -/
private abbrev after (b : Build) (idOf : α → ι) (ops : List (Colls.Op n ι α)) : Option (Colls n ι α) :=
  St.history (Colls.step b plenty idOf) ops Colls.empty

/-! ## C130 -/

/-- C130: at every moment of every program, every collection shows the list of the same calls, where a move gives the target
the list of the source and empties the source; a call on one collection does not show in another. -/
theorem c130_lists (b : Build) (idOf : α → ι) (ops : List (Colls.Op n ι α)) (h : KeepsIds idOf ops) :
    Agrees b plenty idOf ops Colls.empty fun _ => [] :=
  Colls.agrees (fun _ _ => rfl) b ops (Colls.inv_empty idOf) (keepsIds h)

/-- C130: every live object is in exactly one collection or owned by the caller. -/
theorem c130_ownership (b : Build) (idOf : α → ι) (ops : List (Colls.Op n ι α)) (h : KeepsIds idOf ops) :
    ∃ w, after b idOf ops = some w ∧
      (∀ a, w.heap a ≠ none ↔ (∃ i, a ∈ (w.colls i).ordered) ∨ a ∈ w.outside) ∧
      (∀ i j a, a ∈ (w.colls i).ordered → a ∈ (w.colls j).ordered → i = j) ∧
      (∀ i a, a ∈ (w.colls i).ordered → a ∉ w.outside) ∧
      ∀ i, (w.colls i).ordered.Nodup ∧ (w.colls i).items.map Prod.snd = (w.colls i).ordered := by
  obtain ⟨w, es, h1, h2⟩ := Colls.reachable_inv (fun _ _ => rfl) b ops (Colls.inv_empty idOf) (keepsIds h)
  refine ⟨w, h1, h2.live, fun i j a hi hj => ?_, h2.disj, fun i => ⟨h2.nodup i, h2.snds i⟩⟩
  by_contra hij
  exact h2.apart i j a hij hi hj

/-- C130: a move neither copies nor moves an item: the target holds the objects of the source at their addresses, so
references to them stay valid; the former items of the target are destroyed and nothing else. -/
theorem c130_addresses (b : Build) (idOf : α → ι) (ops : List (Colls.Op n ι α)) (h : KeepsIds idOf ops) (w : Colls n ι α)
    (hw : after b idOf ops = some w) (i j : Fin n) (hij : i ≠ j) :
    let w' := ((Colls.move i j).run w).2
    ((Colls.move i j).run w).1 = .ok () ∧
    w'.colls i = w.colls j ∧ w'.colls j = ⟨[], []⟩ ∧ (∀ k, k ≠ i → k ≠ j → w'.colls k = w.colls k) ∧ w'.outside = w.outside ∧
    (∀ a, a ∈ (w.colls i).ordered → w'.heap a = none) ∧ (∀ a, a ∉ (w.colls i).ordered → w'.heap a = w.heap a) := by
  obtain ⟨w0, es, h1, h2⟩ := Colls.reachable_inv (fun _ _ => rfl) b ops (Colls.inv_empty idOf) (keepsIds h)
  have := hw.symm.trans h1
  cases this
  rw [Colls.move_run h2 i j]
  refine ⟨rfl, ?_, ?_, ?_, rfl, ?_, ?_⟩
  · simp [Colls.moved, hij]
  · simp [Colls.moved]
  · intro k hi hj; simp [Colls.moved, hi, hj]
  · intro a ha; simp [Colls.moved, ha]
  · intro a ha; simp [Colls.moved, ha]

example : (after (n := 2) .debug Prod.fst [.call 0 (.insert (1, 'a')), .call 1 (.emplace (2, 'b')), .call 1 (.insert (1, 'c')),
      .move 0 1, .call 0 (.modify 2 fun x => (x.1, 'z')), .call 1 (.insert (1, 'd'))]).map
      (fun w => ((w.view 0).iterate, (w.view 1).iterate, w.heap 0)) =
    some (.ok [(2, 'z'), (1, 'c')], .ok [(1, 'd')], none) := by decide +kernel

/-- A collection moved to itself is empty. -/
example : (after (n := 1) .debug Prod.fst [.call 0 (.insert (1, 'a')), .move 0 0]).map
      (fun w => ((w.view 0).iterate, w.heap 0)) = some (.ok [], none) := by decide +kernel

end Wite.Props
