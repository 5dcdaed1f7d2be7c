import Verif.Lemmas.Io
import Verif.Model.IoAlloc
import Mathlib.Tactic.ByContra

/-!
# Lemmas about writing and reading ranges when memory runs out
-/

namespace Wite.IoAlloc

open Wite.Io Wite.Spec

/-- How many of the arguments allocate when they are copied. -/
def heapCount (vs : List AVal) : Nat := (vs.filter AVal.heap).length

/-- How many allocations counting the bytes of the arguments takes: all of them are copied,
then all but the first, and so on. -/
def countCopies : List AVal → Nat
  | [] => 0
  | v :: vs => heapCount (v :: vs) + countCopies vs

theorem heapCount_nil : heapCount [] = 0 := rfl

theorem heapCount_cons (v : AVal) (vs : List AVal) :
    heapCount (v :: vs) = (if v.heap then 1 else 0) + heapCount vs := by
  rw [heapCount, heapCount, List.filter_cons]
  split <;> simp <;> omega

theorem copyArg_ok {plan : Nat → Bool} {v : AVal} {b : List Nat} {c : Nat}
    (h : v.heap = true → plan c = false) :
    (copyArg plan v).run ⟨b, c⟩ = (.ok (), ⟨b, c + if v.heap then 1 else 0⟩) := by
  by_cases hv : v.heap = true
  · simp [copyArg, St.run, hv, h hv]
  · simp [copyArg, St.run, hv]

theorem copyArg_throw {plan : Nat → Bool} {v : AVal} {b : List Nat} {c : Nat}
    (hv : v.heap = true) (h : plan c = true) :
    (copyArg plan v).run ⟨b, c⟩ = (.throw .badAlloc, ⟨b, c + 1⟩) := by
  simp [copyArg, St.run, hv, h]

theorem copyArgs_ok {plan : Nat → Bool} : ∀ {vs : List AVal} {b : List Nat} {c : Nat},
    (∀ i < heapCount vs, plan (c + i) = false) →
      (copyArgs plan vs).run ⟨b, c⟩ = (.ok (), ⟨b, c + heapCount vs⟩)
  | [], b, c, _ => rfl
  | v :: vs, b, c, h => by
    rw [heapCount_cons] at h ⊢
    rw [copyArgs, St.run_bind_ok (copyArg_ok (fun hv => by
      have := h 0 (by rw [if_pos hv]; omega)
      simpa using this)),
      copyArgs_ok (fun i hi => by
        have := h ((if v.heap then 1 else 0) + i) (by omega)
        rwa [← Nat.add_assoc] at this), Nat.add_assoc]

theorem copyArgs_throw {plan : Nat → Bool} : ∀ {vs : List AVal} {b : List Nat} {c : Nat},
    (∃ i < heapCount vs, plan (c + i) = true) →
      ∃ c', (copyArgs plan vs).run ⟨b, c⟩ = (.throw .badAlloc, ⟨b, c'⟩)
  | [], _, _, h => by
    obtain ⟨i, hi, _⟩ := h
    exact absurd hi (by simp [heapCount])
  | v :: vs, b, c, h => by
    obtain ⟨i, hi, hp⟩ := h
    rw [heapCount_cons] at hi
    by_cases hf : v.heap = true ∧ plan c = true
    · exact ⟨c + 1, by rw [copyArgs, St.run_bind_throw (copyArg_throw hf.1 hf.2)]⟩
    · have h1 : v.heap = true → plan c = false := fun hv => by
        cases hpc : plan c with
        | true => exact absurd ⟨hv, hpc⟩ hf
        | false => rfl
      rw [copyArgs, St.run_bind_ok (copyArg_ok h1)]
      refine copyArgs_throw ⟨i - (if v.heap then 1 else 0), ?_, ?_⟩
      · by_cases hv : v.heap = true
        · rw [if_pos hv] at hi ⊢
          have : i ≠ 0 := by
            rintro rfl
            rw [Nat.add_zero, h1 hv] at hp
            exact absurd hp (by simp)
          omega
        · rw [if_neg hv] at hi ⊢
          omega
      · by_cases hv : v.heap = true
        · rw [if_pos hv]
          have : i ≠ 0 := by
            rintro rfl
            rw [Nat.add_zero, h1 hv] at hp
            exact absurd hp (by simp)
          rw [show c + 1 + (i - 1) = c + i by omega]
          exact hp
        · rw [if_neg hv]
          simpa using hp

theorem nox_ok {α : Type} {x : St Mem α} {m m' : Mem} {a : α} (h : x.run m = (.ok a, m')) :
    (nox x).run m = (.ok a, m') := by
  show (noexcept (x.run m).1, (x.run m).2) = _
  rw [h]; rfl

theorem nox_throw {α : Type} {x : St Mem α} {m m' : Mem} {e : Exc} (h : x.run m = (.throw e, m')) :
    (nox x).run m = (.terminate, m') := by
  show (noexcept (x.run m).1, (x.run m).2) = _
  rw [h]; rfl

theorem nox_terminate {α : Type} {x : St Mem α} {m m' : Mem} (h : x.run m = (.terminate, m')) :
    (nox x).run m = (.terminate, m') := by
  show (noexcept (x.run m).1, (x.run m).2) = _
  rw [h]; rfl

theorem run_bind_terminate {α β : Type} {x : St Mem α} {f : α → St Mem β} {m m' : Mem}
    (h : x.run m = (.terminate, m')) : (x >>= f).run m = (.terminate, m') := by
  rw [St.run_bind, h]

theorem byteCountBody_ok {plan : Nat → Bool} : ∀ {vs : List AVal} {b : List Nat} {c : Nat},
    totalSize (vs.map AVal.val) < 2 ^ 64 →
    (∀ i < countCopies vs.tail, plan (c + i) = false) →
      (byteCountBody plan vs).run ⟨b, c⟩
        = (.ok (totalSize (vs.map AVal.val)), ⟨b, c + countCopies vs.tail⟩)
  | [], b, c, _, _ => by simp [byteCountBody, totalSize, countCopies]
  | [v], b, c, hT, _ => by
    rw [List.map_cons, totalSize_cons] at hT
    rw [byteCountBody, if_pos (by simp)]
    simp [valueSize_eq (show sizeOfVal v.val < 2 ^ 64 by omega), totalSize, countCopies]
  | v :: w :: vs, b, c, hT, h => by
    rw [List.map_cons, totalSize_cons] at hT
    simp only [List.tail_cons] at h ⊢
    rw [countCopies] at h
    rw [byteCountBody, if_neg (by simp),
      St.run_bind_ok (copyArgs_ok (fun i hi => h i (by omega))),
      St.run_bind_ok (nox_ok (byteCountBody_ok (by omega) (fun i hi => by
        have := h (heapCount (w :: vs) + i) (by simp only [List.tail_cons] at hi; omega)
        rwa [← Nat.add_assoc] at this)))]
    rw [St.run_pure, List.map_cons (a := v), totalSize_cons v.val, valueSize_eq (by omega),
      Nat.mod_eq_of_lt (by rw [sizeMod]; omega), countCopies]
    simp only [List.tail_cons, Nat.add_assoc]

theorem byteCountBody_stop {plan : Nat → Bool} : ∀ {vs : List AVal} {b : List Nat} {c : Nat},
    (∃ i < countCopies vs.tail, plan (c + i) = true) →
      ∃ c', (byteCountBody plan vs).run ⟨b, c⟩ = (.throw .badAlloc, ⟨b, c'⟩) ∨
        (byteCountBody plan vs).run ⟨b, c⟩ = (.terminate, ⟨b, c'⟩)
  | [], _, _, h => by
    obtain ⟨i, hi, _⟩ := h
    exact absurd hi (by simp [countCopies])
  | [v], _, _, h => by
    obtain ⟨i, hi, _⟩ := h
    exact absurd hi (by simp [countCopies])
  | v :: w :: vs, b, c, h => by
    obtain ⟨i, hi, hp⟩ := h
    simp only [List.tail_cons, countCopies] at hi
    rw [byteCountBody, if_neg (by simp)]
    by_cases hf : ∃ i < heapCount (w :: vs), plan (c + i) = true
    · obtain ⟨c', hc⟩ := copyArgs_throw (b := b) hf
      exact ⟨c', Or.inl (St.run_bind_throw hc)⟩
    · have hok : ∀ i < heapCount (w :: vs), plan (c + i) = false := by
        intro j hj
        cases hpj : plan (c + j) with
        | true => exact absurd ⟨j, hj, hpj⟩ hf
        | false => rfl
      rw [St.run_bind_ok (copyArgs_ok hok)]
      have hge : heapCount (w :: vs) ≤ i := by
        by_contra hlt
        rw [hok i (by omega)] at hp
        exact absurd hp (by simp)
      obtain ⟨c', hc⟩ := byteCountBody_stop (vs := w :: vs) (b := b) (c := c + heapCount (w :: vs))
        ⟨i - heapCount (w :: vs), by simp only [List.tail_cons]; omega, by
          rw [show c + heapCount (w :: vs) + (i - heapCount (w :: vs)) = c + i by omega]; exact hp⟩
      refine ⟨c', Or.inr ?_⟩
      rcases hc with hc | hc
      · exact run_bind_terminate (nox_throw hc)
      · exact run_bind_terminate (nox_terminate hc)

theorem countCopies_eq (vs : List AVal) : countCopies vs = heapCount vs + countCopies vs.tail := by
  cases vs with
  | nil => rfl
  | cons v vs => rfl

theorem byteCount_ok {plan : Nat → Bool} {vs : List AVal} {b : List Nat} {c : Nat}
    (hT : totalSize (vs.map AVal.val) < 2 ^ 64)
    (h : ∀ i < countCopies vs, plan (c + i) = false) :
    (byteCount plan vs).run ⟨b, c⟩
      = (.ok (totalSize (vs.map AVal.val)), ⟨b, c + countCopies vs⟩) := by
  rw [countCopies_eq] at h ⊢
  rw [byteCount, St.run_bind_ok (copyArgs_ok (fun i hi => h i (by omega))),
    nox_ok (byteCountBody_ok hT (fun i hi => by
      have := h (heapCount vs + i) (by omega)
      rwa [← Nat.add_assoc] at this)), Nat.add_assoc]

theorem byteCount_throw {plan : Nat → Bool} {vs : List AVal} {b : List Nat} {c : Nat}
    (h : ∃ i < heapCount vs, plan (c + i) = true) :
    ∃ c', (byteCount plan vs).run ⟨b, c⟩ = (.throw .badAlloc, ⟨b, c'⟩) := by
  obtain ⟨c', hc⟩ := copyArgs_throw (b := b) h
  exact ⟨c', by rw [byteCount, St.run_bind_throw hc]⟩

theorem byteCount_terminate {plan : Nat → Bool} {vs : List AVal} {b : List Nat} {c : Nat}
    (hok : ∀ i < heapCount vs, plan (c + i) = false)
    (h : ∃ i < countCopies vs, plan (c + i) = true) :
    ∃ c', (byteCount plan vs).run ⟨b, c⟩ = (.terminate, ⟨b, c'⟩) := by
  obtain ⟨i, hi, hp⟩ := h
  rw [countCopies_eq] at hi
  have hge : heapCount vs ≤ i := by
    by_contra hlt
    rw [hok i (by omega)] at hp
    exact absurd hp (by simp)
  obtain ⟨c', hc⟩ := byteCountBody_stop (plan := plan) (vs := vs) (b := b) (c := c + heapCount vs)
    ⟨i - heapCount vs, by omega, by
      rw [show c + heapCount vs + (i - heapCount vs) = c + i by omega]; exact hp⟩
  refine ⟨c', ?_⟩
  rw [byteCount, St.run_bind_ok (copyArgs_ok hok)]
  rcases hc with hc | hc
  · exact nox_throw hc
  · exact nox_terminate hc

theorem countCopies_one (v : AVal) : countCopies [v] = heapCount [v] := rfl

theorem onBuf_ok {α : Type} {x : St (List Nat) α} {b b' : List Nat} {a : α} {c : Nat}
    (h : x.run b = (.ok a, b')) : (onBuf x).run ⟨b, c⟩ = (.ok a, ⟨b', c⟩) := by
  show ((x.run b).1, (⟨(x.run b).2, c⟩ : Mem)) = _
  rw [h]

/-- Allocations of the loop: every argument but the last is counted once more. -/
theorem unsafe_ok {plan : Nat → Bool} {host : Endian} : ∀ {vs : List AVal} {pos : Nat}
    {b : List Nat} {c : Nat}, (∀ v ∈ vs, GoodVal v.val) → totalSize (vs.map AVal.val) < 2 ^ 64 →
    pos + totalSize (vs.map AVal.val) ≤ b.length →
    (∀ i < heapCount vs.dropLast, plan (c + i) = false) →
      (recursiveUnsafeWrite plan host pos vs).run ⟨b, c⟩
        = (.ok (totalSize (vs.map AVal.val)),
          ⟨overwrite b pos (encodeAll host (vs.map AVal.val)), c + heapCount vs.dropLast⟩)
  | [], pos, b, c, _, _, _, _ => by
    simp [recursiveUnsafeWrite, totalSize, encodeAll, overwrite_nil, heapCount]
  | [v], pos, b, c, hg, hT, hl, _ => by
    simp only [List.map_cons, List.map_nil, totalSize_cons] at hT hl
    rw [recursiveUnsafeWrite, St.run_bind_ok (onBuf_ok (uncheckedWrite_ok (hg v (by simp)) (by omega)))]
    simp [totalSize, encodeAll, heapCount]
  | v :: w :: vs, pos, b, c, hg, hT, hl, h => by
    rw [List.map_cons, totalSize_cons] at hT hl
    have hg1 := hg v (by simp)
    have hgs : ∀ x ∈ w :: vs, GoodVal x.val := fun x hx => hg x (List.mem_cons_of_mem _ hx)
    have hlen := encodeVal_length (host := host) hg1
    have hla := encodeAll_length (host := host) (vs := (w :: vs).map AVal.val) (by
      intro x hx
      obtain ⟨y, hy, rfl⟩ := List.mem_map.1 hx
      exact hgs y hy)
    rw [List.dropLast_cons_of_ne_nil (by simp), heapCount_cons] at h ⊢
    have hone : totalSize ([v].map AVal.val) = sizeOfVal v.val := by simp [totalSize]
    rw [recursiveUnsafeWrite, St.run_bind_ok (onBuf_ok (uncheckedWrite_ok hg1 (by omega))),
      if_neg (by simp),
      St.run_bind_ok (byteCount_ok (by rw [hone]; omega) (fun i hi => by
        rw [countCopies_one, heapCount_cons, heapCount_nil] at hi
        exact h i (by omega))), hone,
      St.run_bind_ok (unsafe_ok hgs (by omega) (by rw [overwrite_length (by omega)]; omega)
        (fun i hi => by
          have := h ((if v.heap then 1 else 0) + i) (by omega)
          rw [countCopies_one, heapCount_cons, heapCount_nil]
          rwa [← Nat.add_assoc] at this))]
    rw [St.run_pure, ← hlen, overwrite_append (by omega), List.map_cons (a := v), totalSize_cons v.val, encodeAll_cons host v.val,
      hlen, Nat.mod_eq_of_lt (by rw [sizeMod]; omega), countCopies_one, heapCount_cons, heapCount_nil]
    simp only [Nat.add_zero, Nat.add_assoc]

/-- The copy of `v` fails after `v` has been written. -/
theorem unsafe_torn {plan : Nat → Bool} {host : Endian} : ∀ {pre : List AVal} {v : AVal}
    {ws : List AVal} {pos : Nat} {b : List Nat} {c : Nat},
    (∀ x ∈ pre ++ [v], GoodVal x.val) → totalSize ((pre ++ [v]).map AVal.val) < 2 ^ 64 →
    pos + totalSize ((pre ++ [v]).map AVal.val) ≤ b.length → ws ≠ [] → v.heap = true →
    (∀ i < heapCount pre, plan (c + i) = false) → plan (c + heapCount pre) = true →
      (recursiveUnsafeWrite plan host pos (pre ++ v :: ws)).run ⟨b, c⟩
        = (.throw .badAlloc,
          ⟨overwrite b pos (encodeAll host ((pre ++ [v]).map AVal.val)), c + heapCount pre + 1⟩)
  | [], v, ws, pos, b, c, hg, hT, hl, hws, hv, _, hp => by
    simp only [List.nil_append, List.map_cons, List.map_nil, totalSize_cons] at hT hl hg
    rw [heapCount_nil, Nat.add_zero] at hp
    have : (byteCount plan [v]).run ⟨overwrite b pos (encodeVal host v.val), c⟩
        = (.throw .badAlloc, ⟨overwrite b pos (encodeVal host v.val), c + 1⟩) := by
      rw [byteCount, St.run_bind_throw]
      rw [copyArgs, St.run_bind_throw (copyArg_throw hv hp)]
    rw [List.nil_append, recursiveUnsafeWrite,
      St.run_bind_ok (onBuf_ok (uncheckedWrite_ok (hg v (by simp)) (by omega))),
      if_neg (by simpa using hws), St.run_bind_throw this]
    simp [encodeAll, heapCount]
  | u :: pre, v, ws, pos, b, c, hg, hT, hl, hws, hv, h, hp => by
    rw [List.cons_append, List.map_cons, totalSize_cons] at hT hl
    rw [List.cons_append] at hg
    rw [heapCount_cons] at h hp ⊢
    have hg1 := hg u (by simp)
    have hgs : ∀ x ∈ pre ++ [v], GoodVal x.val := fun x hx => hg x (List.mem_cons_of_mem _ hx)
    have hlen := encodeVal_length (host := host) hg1
    have hla := encodeAll_length (host := host) (vs := (pre ++ [v]).map AVal.val) (by
      intro x hx
      obtain ⟨y, hy, rfl⟩ := List.mem_map.1 hx
      exact hgs y hy)
    have hone : totalSize ([u].map AVal.val) = sizeOfVal u.val := by simp [totalSize]
    rw [List.cons_append, recursiveUnsafeWrite,
      St.run_bind_ok (onBuf_ok (uncheckedWrite_ok hg1 (by omega))), if_neg (by simp),
      St.run_bind_ok (byteCount_ok (by rw [hone]; omega) (fun i hi => by
        rw [countCopies_one, heapCount_cons, heapCount_nil] at hi
        exact h i (by omega))), hone,
      St.run_bind_throw (unsafe_torn hgs (by omega) (by rw [overwrite_length (by omega)]; omega) hws hv
        (fun i hi => by
          have := h ((if u.heap then 1 else 0) + i) (by omega)
          rw [countCopies_one, heapCount_cons, heapCount_nil]
          rwa [← Nat.add_assoc] at this)
        (by
          rw [countCopies_one, heapCount_cons, heapCount_nil]
          rwa [← Nat.add_assoc] at hp))]
    rw [← hlen, overwrite_append (by omega), List.cons_append, List.map_cons, encodeAll_cons,
      countCopies_one, heapCount_cons, heapCount_nil]
    simp only [Nat.add_zero, Nat.add_assoc]

end Wite.IoAlloc
