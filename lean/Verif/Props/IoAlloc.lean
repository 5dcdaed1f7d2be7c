import Verif.Lemmas.IoAlloc

/-!
# Property C134: running out of memory while writing or reading ranges

`heapCount` is the number of arguments whose copy allocates, `countCopies` the number of
allocations made to count the bytes of the arguments (`Verif/Lemmas/IoAlloc.lean`).  `plan n`
says whether the `n`-th allocation fails, `c` is the number of allocations made before the
call.
-/

namespace Wite.Props

open Wite.Io Wite.Spec Wite.IoAlloc

/-- The arguments without the note about allocation. -/
private abbrev vals (vs : List AVal) : List WVal := vs.map AVal.val

private theorem good_vals {vs : List AVal} (h : ∀ v ∈ vs, GoodVal v.val) : ∀ v ∈ vals vs, GoodVal v := by
  intro x hx
  obtain ⟨y, hy, rfl⟩ := List.mem_map.1 hx
  exact h y hy

/-- C134 when no allocation of the call fails: `write` and `write_at` do what they do when
there is no lack of memory (C31, C33). -/
theorem c134_as_usual_partial (plan : Nat → Bool) (host : Endian) (vs : List AVal) (pos : Nat)
    (buf : List Nat) (c : Nat) (hg : ∀ v ∈ vs, GoodVal v.val)
    (hT : totalSize (vs.map AVal.val) < 2 ^ 64) (hp : pos < 2 ^ 64)
    (hplan : ∀ i < countCopies vs + heapCount vs.dropLast, plan (c + i) = false) :
    (((IoAlloc.write plan host vs).run ⟨buf, c⟩).1 = ((Io.write host (vs.map AVal.val)).run buf).1 ∧
      ((IoAlloc.write plan host vs).run ⟨buf, c⟩).2.buf
        = ((Io.write host (vs.map AVal.val)).run buf).2) ∧
    (((IoAlloc.writeAt plan host pos vs).run ⟨buf, c⟩).1
        = ((Io.writeAt host pos (vs.map AVal.val)).run buf).1 ∧
      ((IoAlloc.writeAt plan host pos vs).run ⟨buf, c⟩).2.buf
        = ((Io.writeAt host pos (vs.map AVal.val)).run buf).2) := by
  have hb : (byteCount plan vs).run ⟨buf, c⟩
      = (.ok (totalSize (vs.map AVal.val)), ⟨buf, c + countCopies vs⟩) :=
    byteCount_ok hT (fun i hi => hplan i (by omega))
  have hu : ∀ p, p + totalSize (vs.map AVal.val) ≤ buf.length →
      (IoAlloc.recursiveUnsafeWrite plan host p vs).run ⟨buf, c + countCopies vs⟩
        = (.ok (totalSize (vs.map AVal.val)), ⟨overwrite buf p (encodeAll host (vs.map AVal.val)),
            c + countCopies vs + heapCount vs.dropLast⟩) := fun p hl =>
    unsafe_ok hg hT hl (fun i hi => by
      have := hplan (countCopies vs + i) (by omega)
      rwa [← Nat.add_assoc] at this)
  constructor
  · rw [IoAlloc.write, St.run_bind_ok hb, St.run_bind_ok (St.run_get _), write_eq (good_vals hg) hT,
      St.run_ite]
    by_cases h : buf.length < totalSize (vs.map AVal.val)
    · rw [if_pos h, if_pos h]; exact ⟨rfl, rfl⟩
    · rw [if_neg h, if_neg h, hu 0 (by omega)]; exact ⟨rfl, rfl⟩
  · rw [IoAlloc.writeAt, St.run_bind_ok hb, St.run_bind_ok (St.run_get _),
      writeAt_eq (good_vals hg) hp hT]
    simp only [wrap_lt hp hT, St.run_ite]
    by_cases h : 2 ^ 64 ≤ pos + totalSize (vs.map AVal.val)
    · rw [if_pos h, if_pos h]; exact ⟨rfl, rfl⟩
    · rw [if_neg h, if_neg h, Nat.mod_eq_of_lt (by rw [sizeMod]; omega)]
      by_cases h2 : buf.length < pos + totalSize (vs.map AVal.val)
      · rw [if_pos h2, if_pos h2]; exact ⟨rfl, rfl⟩
      · rw [if_neg h2, if_neg h2, St.run_bind_ok (hu pos (by omega)), St.run_pure,
          Nat.mod_eq_of_lt (by rw [sizeMod]; omega)]
        exact ⟨rfl, rfl⟩

/-- C134 when one of the first copies fails, those made for the call of `byte_count` in `write`
or `write_at` itself: `std::bad_alloc` reaches the caller and the buffer is as it was. -/
theorem c134_refused_partial (plan : Nat → Bool) (host : Endian) (vs : List AVal) (pos : Nat)
    (buf : List Nat) (c : Nat) (h : ∃ i < heapCount vs, plan (c + i) = true) :
    (∃ c', (IoAlloc.write plan host vs).run ⟨buf, c⟩ = (.throw .badAlloc, ⟨buf, c'⟩)) ∧
    (∃ c', (IoAlloc.writeAt plan host pos vs).run ⟨buf, c⟩ = (.throw .badAlloc, ⟨buf, c'⟩)) := by
  obtain ⟨c', hc⟩ := byteCount_throw (b := buf) h
  exact ⟨⟨c', by rw [IoAlloc.write, St.run_bind_throw hc]⟩,
    ⟨c', by rw [IoAlloc.writeAt, St.run_bind_throw hc]⟩⟩

/-- C134 for `write` and `write_at` of a single value, whatever fails: `std::bad_alloc` with
the buffer as it was, or what happens when there is no lack of memory. -/
theorem c134_one_partial (plan : Nat → Bool) (host : Endian) (v : AVal) (pos : Nat) (buf : List Nat)
    (c : Nat) (hg : GoodVal v.val) (hT : sizeOfVal v.val < 2 ^ 64) (hp : pos < 2 ^ 64) :
    ((∃ c', (IoAlloc.write plan host [v]).run ⟨buf, c⟩ = (.throw .badAlloc, ⟨buf, c'⟩)) ∨
      (∃ c', (IoAlloc.write plan host [v]).run ⟨buf, c⟩
        = (((Io.write host [v.val]).run buf).1, ⟨((Io.write host [v.val]).run buf).2, c'⟩))) ∧
    ((∃ c', (IoAlloc.writeAt plan host pos [v]).run ⟨buf, c⟩ = (.throw .badAlloc, ⟨buf, c'⟩)) ∨
      (∃ c', (IoAlloc.writeAt plan host pos [v]).run ⟨buf, c⟩
        = (((Io.writeAt host pos [v.val]).run buf).1,
          ⟨((Io.writeAt host pos [v.val]).run buf).2, c'⟩))) := by
  by_cases h : ∃ i < heapCount [v], plan (c + i) = true
  · have := c134_refused_partial plan host [v] pos buf c h
    exact ⟨Or.inl this.1, Or.inl this.2⟩
  · have hok : ∀ i < countCopies [v] + heapCount [v].dropLast, plan (c + i) = false := by
      intro i hi
      cases hpi : plan (c + i) with
      | true => exact absurd ⟨i, by simpa [countCopies, heapCount] using hi, hpi⟩ h
      | false => rfl
    obtain ⟨⟨h1, h2⟩, h3, h4⟩ := c134_as_usual_partial plan host [v] pos buf c (by simpa using hg)
      (by simpa [totalSize] using hT) hp hok
    simp only [List.map_cons, List.map_nil] at h1 h2 h3 h4
    refine ⟨Or.inr ⟨((IoAlloc.write plan host [v]).run ⟨buf, c⟩).2.count, ?_⟩,
      Or.inr ⟨((IoAlloc.writeAt plan host pos [v]).run ⟨buf, c⟩).2.count, ?_⟩⟩
    · rw [← h1, ← h2]
    · rw [← h3, ← h4]

/-- C134 is false: when one of the later copies made to count the bytes fails, a copy that
`byte_count`, a `noexcept` function, makes itself, the program ends. -/
theorem c134_refuted_terminate (plan : Nat → Bool) (host : Endian) (vs : List AVal) (pos : Nat)
    (buf : List Nat) (c : Nat) (hok : ∀ i < heapCount vs, plan (c + i) = false)
    (h : ∃ i < countCopies vs, plan (c + i) = true) :
    ((IoAlloc.write plan host vs).run ⟨buf, c⟩).1 = .terminate ∧
    ((IoAlloc.writeAt plan host pos vs).run ⟨buf, c⟩).1 = .terminate := by
  obtain ⟨c', hc⟩ := byteCount_terminate (b := buf) hok h
  constructor
  · rw [IoAlloc.write, run_bind_terminate hc]
  · rw [IoAlloc.writeAt, run_bind_terminate hc]

/-- C134 is false: when the copy made after a value has been written fails, the exception
reaches the caller with that value and all values before it in the buffer.  `pre`, `v` and
`ws` are arbitrary, as long as `ws` is not empty and copying `v` allocates. -/
theorem c134_refuted_torn (plan : Nat → Bool) (host : Endian) (pre : List AVal) (v : AVal)
    (ws : List AVal) (buf : List Nat) (c : Nat)
    (hg : ∀ x ∈ pre ++ v :: ws, GoodVal x.val)
    (hT : totalSize ((pre ++ v :: ws).map AVal.val) ≤ buf.length) (hlen : buf.length < 2 ^ 64)
    (hws : ws ≠ []) (hv : v.heap = true)
    (hok : ∀ i < countCopies (pre ++ v :: ws) + heapCount pre, plan (c + i) = false)
    (hfail : plan (c + (countCopies (pre ++ v :: ws) + heapCount pre)) = true) :
    ∃ c', (IoAlloc.write plan host (pre ++ v :: ws)).run ⟨buf, c⟩
      = (.throw .badAlloc,
        ⟨overwrite buf 0 (encodeAll host ((pre ++ [v]).map AVal.val)), c'⟩) := by
  have hsub : totalSize ((pre ++ [v]).map AVal.val) ≤ totalSize ((pre ++ v :: ws).map AVal.val) := by
    simp only [totalSize, List.map_append, List.map_cons, List.map_nil, List.sum_append, List.sum_cons,
      List.sum_nil]
    omega
  have hg' : ∀ x ∈ pre ++ [v], GoodVal x.val := by
    intro x hx
    refine hg x ?_
    simp only [List.mem_append, List.mem_cons, List.not_mem_nil, or_false] at hx ⊢
    rcases hx with h | h
    · exact Or.inl h
    · exact Or.inr (Or.inl h)
  rw [IoAlloc.write,
    St.run_bind_ok (byteCount_ok (by omega) (fun i hi => hok i (by omega))),
    St.run_bind_ok (St.run_get _), St.run_ite, if_neg (by simp only; omega),
    unsafe_torn hg' (by omega) (by omega) hws hv (fun i hi => by
      have := hok (countCopies (pre ++ v :: ws) + i) (by omega)
      rwa [← Nat.add_assoc] at this) (by rwa [← Nat.add_assoc] at hfail)]
  exact ⟨_, rfl⟩

/-! ## `try_write` -/

/-- What a step does: the same as without lack of memory, or it stops because an allocation
failed. -/
private def Same {α : Type} (plan : Nat → Bool) (c : Nat) (heap : Prop)
    (r : Outcome α × Mem) (io : Outcome α × List Nat) : Prop :=
  (r.1 = io.1 ∧ r.2.buf = io.2 ∧ c ≤ r.2.count) ∨
  (heap ∧ (∃ n, c ≤ n ∧ plan n = true) ∧ (r.1 = .throw .badAlloc ∨ r.1 = .terminate))

private theorem copyArgs_same (plan : Nat → Bool) (vs : List AVal) (b : List Nat) (c : Nat) :
    (∃ c', c ≤ c' ∧ (copyArgs plan vs).run ⟨b, c⟩ = (.ok (), ⟨b, c'⟩)) ∨
    ((∃ v ∈ vs, v.heap = true) ∧ (∃ n, c ≤ n ∧ plan n = true) ∧
      ∃ c', (copyArgs plan vs).run ⟨b, c⟩ = (.throw .badAlloc, ⟨b, c'⟩)) := by
  by_cases h : ∃ i < heapCount vs, plan (c + i) = true
  · right
    obtain ⟨c', hc⟩ := copyArgs_throw (b := b) h
    obtain ⟨i, hi, hp⟩ := h
    refine ⟨?_, ⟨c + i, by omega, hp⟩, c', hc⟩
    have hpos : 0 < (vs.filter AVal.heap).length := by
      have : 0 < heapCount vs := by omega
      exact this
    obtain ⟨v, hv⟩ := List.exists_mem_of_length_pos hpos
    exact ⟨v, (List.mem_filter.1 hv).1, (List.mem_filter.1 hv).2⟩
  · left
    refine ⟨c + heapCount vs, by omega, copyArgs_ok fun i hi => ?_⟩
    cases hpi : plan (c + i) with
    | true => exact absurd ⟨i, hi, hpi⟩ h
    | false => rfl

private theorem byteCount_one (plan : Nat → Bool) (v : AVal) (b : List Nat) (c : Nat) :
    (∃ c', c ≤ c' ∧ (byteCount plan [v]).run ⟨b, c⟩ = (.ok (valueSize v.val), ⟨b, c'⟩)) ∨
    (v.heap = true ∧ (∃ n, c ≤ n ∧ plan n = true) ∧
      ∃ c', (byteCount plan [v]).run ⟨b, c⟩ = (.throw .badAlloc, ⟨b, c'⟩)) := by
  rcases copyArgs_same plan [v] b c with ⟨c', hle, h⟩ | ⟨⟨w, hw, hh⟩, hn, c', h⟩
  · left
    refine ⟨c', hle, ?_⟩
    rw [byteCount, St.run_bind_ok h]
    refine nox_ok ?_
    rw [byteCountBody, if_pos (by simp), St.run_pure]
  · right
    rw [List.mem_singleton] at hw
    exact ⟨by rw [← hw]; exact hh, hn, c', by rw [byteCount, St.run_bind_throw h]⟩

private theorem same_nox {α : Type} {plan : Nat → Bool} {c : Nat} {heap : Prop} {x : St Mem α} {m : Mem}
    {io : Outcome α × List Nat} (hio : ∀ e, io.1 ≠ .throw e) (h : Same plan c heap (x.run m) io) :
    Same plan c heap ((nox x).run m) io := by
  have hr : (nox x).run m = (noexcept (x.run m).1, (x.run m).2) := rfl
  rw [hr]
  rcases h with ⟨h1, h2, h3⟩ | ⟨h1, h2, h3⟩
  · left
    refine ⟨?_, h2, h3⟩
    show noexcept (x.run m).1 = io.1
    rw [h1]
    rcases hi : io.1 with a | e | _ | _ | _
    · rfl
    · exact absurd hi (hio e)
    · rfl
    · rfl
    · rfl
  · right
    refine ⟨h1, h2, Or.inr ?_⟩
    show noexcept (x.run m).1 = _
    rcases h3 with h | h <;> rw [h] <;> rfl

private theorem tryWriteOne_nothrow (host : Endian) (start : Nat) (v : WVal) (b : List Nat)
    (e : Exc) : ((Io.tryWriteOne host start v).run b).1 ≠ .throw e := by
  have hs : ∀ (enc : Enc) (o : Obj) (pos : Nat) (b : List Nat) (e : Exc),
      ((writeSingle host enc o pos).run b).1 ≠ .throw e := by
    intro enc o pos b e
    rw [writeSingle, St.run_bind]
    by_cases h : pos + (bytesOf host enc o).length ≤ b.length
    · simp [writeMem, St.run, h, pure, St.pure]
    · simp [writeMem, St.run, h]
  have hl : ∀ (os : List Obj) (w pos : Nat) (b : List Nat) (e : Exc),
      ((writeRangeLoop host os w pos).run b).1 ≠ .throw e := by
    intro os
    induction os with
    | nil => intro w pos b e; simp [writeRangeLoop]
    | cons o os ih =>
      intro w pos b e
      rw [writeRangeLoop, St.run_bind]
      have := hs .native o pos b
      rcases hr : (writeSingle host .native o pos).run b with ⟨r, b'⟩
      rw [hr] at this
      cases r with
      | ok a => exact ih _ _ _ _
      | throw x => exact absurd rfl (this x)
      | _ => simp
  rw [Io.tryWriteOne, St.run_bind_ok (St.run_get _), St.run_ite]
  split
  · simp
  · rw [St.run_ite]
    split
    · simp
    · rw [St.run_bind]
      have hu : ∀ e, ((uncheckedWrite host start v).run b).1 ≠ .throw e := by
        intro e
        cases v with
        | single enc o => exact hs enc o start b e
        | range n os => exact hl os 0 start b e
      rcases hr : (uncheckedWrite host start v).run b with ⟨r, b'⟩
      rw [hr] at hu
      cases r with
      | ok a => simp
      | throw x => exact absurd rfl (hu x)
      | _ => simp

private theorem tryWriteOne_same (plan : Nat → Bool) (host : Endian) (start : Nat) (v : AVal)
    (b : List Nat) (c : Nat) :
    Same plan c (v.heap = true) ((IoAlloc.tryWriteOne plan host start v).run ⟨b, c⟩)
      ((Io.tryWriteOne host start v.val).run b) := by
  rw [IoAlloc.tryWriteOne]
  refine same_nox (tryWriteOne_nothrow host start v.val b) ?_
  rw [Io.tryWriteOne, St.run_bind_ok (St.run_get _), St.run_bind_ok (St.run_get _), St.run_ite,
    St.run_ite]
  by_cases h : b.length < start
  · rw [if_pos h, if_pos h]
    exact Or.inl ⟨rfl, rfl, Nat.le_refl _⟩
  · rw [if_neg h, if_neg h]
    rcases byteCount_one plan v b c with ⟨c', hle, hc⟩ | ⟨hh, hn, c', hc⟩
    · rw [St.run_bind_ok hc, St.run_ite, St.run_ite]
      by_cases h2 : b.length - start < valueSize v.val
      · rw [if_pos h2, if_pos h2]
        exact Or.inl ⟨rfl, rfl, hle⟩
      · rw [if_neg h2, if_neg h2, St.run_bind, St.run_bind]
        have hr : (onBuf (uncheckedWrite host start v.val)).run ⟨b, c'⟩
            = (((uncheckedWrite host start v.val).run b).1,
              ⟨((uncheckedWrite host start v.val).run b).2, c'⟩) := rfl
        rw [hr]
        rcases (uncheckedWrite host start v.val).run b with ⟨r, b'⟩
        cases r <;> exact Or.inl ⟨rfl, rfl, hle⟩
    · rw [St.run_bind_throw hc]
      exact Or.inr ⟨hh, hn, Or.inl rfl⟩

private theorem recursiveTryWrite_same (plan : Nat → Bool) (host : Endian) :
    ∀ (vs : List AVal) (start : Nat) (b : List Nat) (c : Nat),
      Same plan c (∃ v ∈ vs, v.heap = true)
        ((IoAlloc.recursiveTryWrite plan host start vs).run ⟨b, c⟩)
        ((Io.recursiveTryWrite host start (vs.map AVal.val)).run b)
  | [], start, b, c => Or.inl ⟨rfl, rfl, Nat.le_refl _⟩
  | v :: vs, start, b, c => by
    rw [IoAlloc.recursiveTryWrite, List.map_cons, Io.recursiveTryWrite, St.run_bind, St.run_bind]
    rcases tryWriteOne_same plan host start v b c with ⟨h1, h2, h3⟩ | ⟨h1, h2, h3⟩
    · rcases hr : (IoAlloc.tryWriteOne plan host start v).run ⟨b, c⟩ with ⟨r, ⟨b', c'⟩⟩
      rcases hi : (Io.tryWriteOne host start v.val).run b with ⟨r2, b2⟩
      rw [hr, hi] at h1 h2
      rw [hr] at h3
      simp only at h1 h2 h3
      subst h1 h2
      cases r with
      | ok x =>
        cases x with
        | error e => exact Or.inl ⟨rfl, rfl, h3⟩
        | value n =>
          simp only
          have he : (vs.map AVal.val).isEmpty = vs.isEmpty := by cases vs <;> rfl
          rw [St.run_ite, St.run_ite, he]
          by_cases hemp : vs.isEmpty = true
          · rw [if_pos hemp, if_pos hemp]
            exact Or.inl ⟨rfl, rfl, h3⟩
          · rw [if_neg hemp, if_neg hemp]
            rcases byteCount_one plan v b' c' with ⟨c2, hle2, hc2⟩ | ⟨hh, hn, c2, hc2⟩
            · rw [St.run_bind_ok hc2]
              rcases copyArgs_same plan vs b' c2 with ⟨c3, hle3, hc3⟩ | ⟨hh, hn, c3, hc3⟩
              · rw [St.run_bind_ok hc3, St.run_bind, St.run_bind]
                rcases recursiveTryWrite_same plan host vs (start + valueSize v.val) b' c3 with
                  ⟨k1, k2, k3⟩ | ⟨k1, k2, k3⟩
                · rcases hr4 : (IoAlloc.recursiveTryWrite plan host (start + valueSize v.val) vs).run
                    ⟨b', c3⟩ with ⟨r4, ⟨b4, c4⟩⟩
                  rcases hi4 : (Io.recursiveTryWrite host (start + valueSize v.val)
                    (vs.map AVal.val)).run b' with ⟨r5, b5⟩
                  rw [hr4, hi4] at k1 k2
                  rw [hr4] at k3
                  simp only at k1 k2 k3
                  subst k1 k2
                  cases r4 with
                  | ok x => cases x <;> exact Or.inl ⟨rfl, rfl, by simp only [St.run_pure]; omega⟩
                  | _ => exact Or.inl ⟨rfl, rfl, by simp only; omega⟩
                · right
                  obtain ⟨w, hw, hh⟩ := k1
                  obtain ⟨n, hn, hp⟩ := k2
                  refine ⟨⟨w, List.mem_cons_of_mem _ hw, hh⟩, ⟨n, by omega, hp⟩, ?_⟩
                  rcases hr4 : (IoAlloc.recursiveTryWrite plan host (start + valueSize v.val) vs).run
                    ⟨b', c3⟩ with ⟨r4, m4⟩
                  rw [hr4] at k3
                  simp only at k3
                  rcases k3 with rfl | rfl
                  · exact Or.inl rfl
                  · exact Or.inr rfl
              · rw [St.run_bind_throw hc3]
                obtain ⟨w, hw, hh⟩ := hh
                obtain ⟨n, hn, hp⟩ := hn
                exact Or.inr ⟨⟨w, List.mem_cons_of_mem _ hw, hh⟩, ⟨n, by omega, hp⟩, Or.inl rfl⟩
            · rw [St.run_bind_throw hc2]
              obtain ⟨n, hn, hp⟩ := hn
              exact Or.inr ⟨⟨v, by simp, hh⟩, ⟨n, by omega, hp⟩, Or.inl rfl⟩
      | _ => exact Or.inl ⟨rfl, rfl, h3⟩
    · right
      refine ⟨⟨v, by simp, h1⟩, h2, ?_⟩
      rcases hr : (IoAlloc.tryWriteOne plan host start v).run ⟨b, c⟩ with ⟨r, m⟩
      rw [hr] at h3
      simp only at h3
      rcases h3 with rfl | rfl
      · exact Or.inl rfl
      · exact Or.inr rfl

private theorem recursiveTryWrite_nothrow (host : Endian) : ∀ (vs : List WVal) (start : Nat)
    (b : List Nat) (e : Exc), ((Io.recursiveTryWrite host start vs).run b).1 ≠ .throw e
  | [], start, b, e => by simp [Io.recursiveTryWrite]
  | v :: vs, start, b, e => by
    rw [Io.recursiveTryWrite, St.run_bind]
    have h1 := tryWriteOne_nothrow host start v b
    rcases hr : (Io.tryWriteOne host start v).run b with ⟨r, b'⟩
    rw [hr] at h1
    cases r with
    | ok x =>
      cases x with
      | error e => simp
      | value n =>
        simp only
        rw [St.run_ite]
        split
        · simp
        · rw [St.run_bind]
          have h2 := recursiveTryWrite_nothrow host vs (start + valueSize v) b'
          rcases hr2 : (Io.recursiveTryWrite host (start + valueSize v) vs).run b' with ⟨r2, b2⟩
          rw [hr2] at h2
          cases r2 with
          | ok x => cases x <;> simp
          | throw x => exact absurd rfl (h2 x)
          | _ => simp
    | throw x => exact absurd rfl (h1 x)
    | _ => simp

private theorem io_tryWrite_one (host : Endian) (v : WVal) (b : List Nat) :
    (Io.tryWrite host [v]).run b = (Io.tryWriteOne host 0 v).run b := by
  rw [Io.tryWrite, Io.recursiveTryWrite, St.run_bind]
  rcases (Io.tryWriteOne host 0 v).run b with ⟨r, b'⟩
  cases r with
  | ok x => cases x <;> rfl
  | _ => rfl

/-- C134 for `try_write`, whatever fails: what happens when there is no lack of memory (C37), or
the program ends.  The latter needs an argument whose copy allocates, and a failing
allocation. -/
theorem c134_try_write_partial (plan : Nat → Bool) (host : Endian) (vs : List AVal) (buf : List Nat)
    (c : Nat) :
    (∃ c', (IoAlloc.tryWrite plan host vs).run ⟨buf, c⟩
      = (((Io.tryWrite host (vs.map AVal.val)).run buf).1,
        ⟨((Io.tryWrite host (vs.map AVal.val)).run buf).2, c'⟩)) ∨
    ((∃ v ∈ vs, v.heap = true) ∧ (∃ n, c ≤ n ∧ plan n = true) ∧
      ((IoAlloc.tryWrite plan host vs).run ⟨buf, c⟩).1 = .terminate) := by
  have finish : ∀ {heap : Prop} {x : St Mem (Result Nat WriteError)}
      {io : Outcome (Result Nat WriteError) × List Nat},
      (∀ e, io.1 ≠ .throw e) → Same plan c heap (x.run ⟨buf, c⟩) io →
      (∃ c', (nox x).run ⟨buf, c⟩ = (io.1, ⟨io.2, c'⟩)) ∨
      (heap ∧ (∃ n, c ≤ n ∧ plan n = true) ∧ ((nox x).run ⟨buf, c⟩).1 = .terminate) := by
    intro heap x io hio hs
    have hr : (nox x).run ⟨buf, c⟩ = (noexcept (x.run ⟨buf, c⟩).1, (x.run ⟨buf, c⟩).2) := rfl
    rcases same_nox hio hs with ⟨h1, h2, h3⟩ | ⟨h1, h2, h3⟩
    · exact Or.inl ⟨((nox x).run ⟨buf, c⟩).2.count, by rw [← h1, ← h2]⟩
    · refine Or.inr ⟨h1, h2, ?_⟩
      rcases h3 with h | h
      · rw [hr] at h
        exfalso
        revert h
        cases (x.run ⟨buf, c⟩).1 <;> simp [noexcept]
      · exact h
  match vs with
  | [v] =>
    rw [List.map_cons, List.map_nil, io_tryWrite_one]
    have h := finish (tryWriteOne_nothrow host 0 v.val buf)
      (tryWriteOne_same plan host 0 v buf c)
    have hn : (nox (IoAlloc.tryWriteOne plan host 0 v)).run ⟨buf, c⟩
        = (IoAlloc.tryWriteOne plan host 0 v).run ⟨buf, c⟩ := by
      show (noexcept (noexcept _), _) = (noexcept _, _)
      congr 1
      generalize (St.run _ _).1 = o
      cases o <;> rfl
    rw [hn] at h
    rcases h with h | ⟨h1, h2, h3⟩
    · exact Or.inl h
    · exact Or.inr ⟨⟨v, by simp, h1⟩, h2, h3⟩
  | [] => exact Or.inl ⟨c, rfl⟩
  | v :: w :: vs =>
    refine finish (recursiveTryWrite_nothrow host _ 0 buf) ?_
    rcases copyArgs_same plan (v :: w :: vs) buf c with ⟨c', hle, hc⟩ | ⟨hh, hn, c', hc⟩
    · rw [St.run_bind_ok hc]
      rcases recursiveTryWrite_same plan host (v :: w :: vs) 0 buf c' with ⟨h1, h2, h3⟩ | ⟨h1, ⟨n, hn, hp⟩, h3⟩
      · exact Or.inl ⟨h1, h2, by omega⟩
      · exact Or.inr ⟨h1, ⟨n, by omega, hp⟩, h3⟩
    · rw [St.run_bind_throw hc]
      exact Or.inr ⟨hh, hn, Or.inl rfl⟩

/-- C134 is false for `try_write`, of one value or of several: if the first allocation it makes
fails the program ends, however large the buffer is. -/
theorem c134_refuted_try_write (plan : Nat → Bool) (host : Endian) (vs : List AVal) (buf : List Nat)
    (c : Nat) (hh : ∃ v ∈ vs, v.heap = true) (hp : plan c = true) :
    ((IoAlloc.tryWrite plan host vs).run ⟨buf, c⟩).1 = .terminate := by
  obtain ⟨v, hv, hheap⟩ := hh
  have hpos : ∃ i < heapCount vs, plan (c + i) = true :=
    ⟨0, List.length_pos_of_mem (List.mem_filter.2 ⟨hv, hheap⟩), hp⟩
  match vs, hv, hpos with
  | [w], hv, hpos =>
    rw [List.mem_singleton] at hv
    subst hv
    obtain ⟨c', hc⟩ := byteCount_throw (b := buf) hpos
    show ((IoAlloc.tryWriteOne plan host 0 v).run ⟨buf, c⟩).1 = _
    rw [IoAlloc.tryWriteOne]
    rw [nox_throw (e := .badAlloc) (m' := ⟨buf, c'⟩)]
    rw [St.run_bind_ok (St.run_get _), St.run_ite, if_neg (by simp), St.run_bind_throw hc]
  | w :: x :: vs, hv, hpos =>
    obtain ⟨c', hc⟩ := copyArgs_throw (b := buf) hpos
    show ((nox _).run ⟨buf, c⟩).1 = _
    rw [nox_throw (e := .badAlloc) (m' := ⟨buf, c'⟩)]
    rw [St.run_bind_throw hc]

/-! ## Reading ranges -/

/-- C134 for `read_range`, whatever fails.  The buffer is only read.  A failing first copy of the
range gives `std::bad_alloc` with the range as it was; if the buffer is too short the range is
as it was; a failing copy of an lvalue range for the result gives `std::bad_alloc` with the
range already filled (so the property is false); otherwise the values are returned. -/
theorem c134_refuted_read_range (plan : Nat → Bool) (host : Endian) (t : Ty) (lvalue : Bool)
    (buf : List Nat) (range : List Obj) (c : Nat) (hne : range ≠ []) (hb : ∀ b ∈ buf, IsByte b)
    (hT : range.length * t.size < 2 ^ 64) :
    (IoAlloc.readRange plan host t lvalue buf).run ⟨range, c⟩ =
      if plan c then (.throw .badAlloc, ⟨range, c + 1⟩)
      else if buf.length < range.length * t.size then
        (.throw (.outOfRange "Insufficient buffer space for read"), ⟨range, c + 1⟩)
      else if lvalue then
        if plan (c + 1) then
          (.throw .badAlloc, ⟨decodeSeq host (List.replicate range.length t) buf, c + 2⟩)
        else (.ok (decodeSeq host (List.replicate range.length t) buf),
          ⟨decodeSeq host (List.replicate range.length t) buf, c + 2⟩)
      else (.ok (decodeSeq host (List.replicate range.length t) buf),
        ⟨decodeSeq host (List.replicate range.length t) buf, c + 1⟩) := by
  have hcopy : ∀ (r : List Obj) (k : Nat), r ≠ [] → (copyRange plan).run ⟨r, k⟩
      = (if plan k then .throw .badAlloc else .ok (), ⟨r, k + 1⟩) := by
    intro r k hr
    have : r.isEmpty = false := by cases r <;> simp_all
    simp [copyRange, St.run, this]
  have hdl : ∀ (ts : List Ty) (b : List Nat), (decodeSeq host ts b).length = ts.length := by
    intro ts
    induction ts with
    | nil => intro b; rfl
    | cons t ts ih => intro b; simp [decodeSeq, ih]
  have hd : decodeSeq host (List.replicate range.length t) buf ≠ [] := by
    intro h
    have := hdl (List.replicate range.length t) buf
    rw [h] at this
    simp only [List.length_nil, List.length_replicate] at this
    exact hne (List.length_eq_zero_iff.1 this.symm)
  have e : byteCountRange t range.length = range.length * t.size := by
    rw [byteCountRange]; exact Nat.mod_eq_of_lt (by rw [sizeMod]; omega)
  rw [IoAlloc.readRange]
  by_cases h1 : plan c = true
  · rw [St.run_bind_throw (e := .badAlloc) (s' := ⟨range, c + 1⟩) (by rw [hcopy range c hne, if_pos h1]),
      if_pos h1]
  · rw [St.run_bind_ok (a := ()) (s' := ⟨range, c + 1⟩) (by rw [hcopy range c hne, if_neg h1]),
      if_neg h1, St.run_bind_ok (St.run_get _), St.run_ite, e]
    by_cases h2 : buf.length < range.length * t.size
    · rw [if_pos h2, if_pos h2]; rfl
    · have hg := generateRead_ok (host := host) hb range.length 0 (t := t) (by omega)
      rw [List.drop_zero] at hg
      rw [if_neg h2, if_neg h2, St.run_bind_ok (by rw [hg]; exact St.run_lift _ _),
        St.run_bind_ok (St.run_get _), St.run_bind_ok (St.run_set _ _)]
      cases lvalue with
      | false => rfl
      | true =>
        simp only [if_true]
        by_cases h3 : plan (c + 1) = true
        · rw [St.run_bind_throw (e := .badAlloc) (by rw [hcopy _ _ hd, if_pos h3]), if_pos h3]
        · rw [St.run_bind_ok (a := ()) (by rw [hcopy _ _ hd, if_neg h3]), if_neg h3]
          rfl

/-- C134 is false for `try_read_range`: if the buffer is long enough and the copy of the filled
range for the result fails, the program ends. -/
theorem c134_refuted_try_read_range (plan : Nat → Bool) (host : Endian) (t : Ty) (buf : List Nat)
    (range : List Obj) (c : Nat) (hne : range ≠ []) (hb : ∀ b ∈ buf, IsByte b)
    (hfit : range.length * t.size ≤ buf.length) (hT : range.length * t.size < 2 ^ 64)
    (hp : plan c = true) :
    ((IoAlloc.tryReadRange plan host t buf).run ⟨range, c⟩).1 = .terminate := by
  have hdl : ∀ (ts : List Ty) (b : List Nat), (decodeSeq host ts b).length = ts.length := by
    intro ts
    induction ts with
    | nil => intro b; rfl
    | cons t ts ih => intro b; simp [decodeSeq, ih]
  have hd : (decodeSeq host (List.replicate range.length t) buf).isEmpty = false := by
    have := hdl (List.replicate range.length t) buf
    rw [List.length_replicate] at this
    cases hx : decodeSeq host (List.replicate range.length t) buf with
    | nil =>
      rw [hx] at this
      exact absurd (List.length_eq_zero_iff.1 this.symm) hne
    | cons => rfl
  have hg := generateRead_ok (host := host) hb range.length 0 (t := t) (by omega)
  rw [List.drop_zero] at hg
  show noexcept (St.run (_ >>= _) _).1 = _
  rw [St.run_bind_ok (St.run_get _), St.run_ite, Nat.mod_eq_of_lt (by rw [sizeMod]; omega),
    if_neg (by simp only; omega), St.run_bind_ok (by rw [hg]; exact St.run_lift _ _),
    St.run_bind_ok (St.run_set _ _),
    St.run_bind_throw (e := .badAlloc) (s' := ⟨decodeSeq host (List.replicate range.length t) buf, c + 1⟩)]
  · rfl
  · simp [copyRange, St.run, hd, hp]

/-- C134 for empty ranges: nothing is allocated, so both calls succeed whatever allocations would fail. -/
theorem c134_empty_range_partial (plan : Nat → Bool) (host : Endian) (t : Ty) (lvalue : Bool) (buf : List Nat)
    (c : Nat) :
    (IoAlloc.readRange plan host t lvalue buf).run ⟨[], c⟩ = (.ok [], ⟨[], c⟩) ∧
    (IoAlloc.tryReadRange plan host t buf).run ⟨[], c⟩ = (.ok (.value []), ⟨[], c⟩) := by
  have h0 : byteCountRange t 0 = 0 := by simp [byteCountRange]
  constructor
  · cases lvalue <;>
      simp [IoAlloc.readRange, copyRange, St.run, St.get, St.set, St.lift, generateRead, h0,
        bind, St.bind, pure, St.pure]
  · simp [IoAlloc.tryReadRange, copyRange, St.run, St.get, St.set, St.lift, generateRead,
        bind, St.bind, pure, St.pure, noexcept]

example : (IoAlloc.readRange (fun _ => true) .little ⟨1, .native⟩ true [7]).run ⟨[], 0⟩ = (.ok [], ⟨[], 0⟩) := by
  decide

/-! Two vectors of two bytes; the allocations are the copies of both for `byte_count`, of the
second inside `byte_count`, and of the first behind its write. -/

private def v1 : AVal := ⟨.range 1 [[1], [2]], true⟩
private def v2 : AVal := ⟨.range 1 [[3], [4]], true⟩

example : (IoAlloc.write (fun _ => false) .little [v1, v2]).run ⟨[0, 0, 0, 0, 0], 0⟩
    = (.ok 4, ⟨[1, 2, 3, 4, 0], 4⟩) := by decide
example : (IoAlloc.write (· == 1) .little [v1, v2]).run ⟨[0, 0, 0, 0, 0], 0⟩
    = (.throw .badAlloc, ⟨[0, 0, 0, 0, 0], 2⟩) := by decide
example : ((IoAlloc.write (· == 2) .little [v1, v2]).run ⟨[0, 0, 0, 0, 0], 0⟩).1
    = .terminate := by decide
example : (IoAlloc.write (· == 3) .little [v1, v2]).run ⟨[0, 0, 0, 0, 0], 0⟩
    = (.throw .badAlloc, ⟨[1, 2, 0, 0, 0], 4⟩) := by decide
example : ((IoAlloc.tryWrite (· == 0) .little [v1]).run ⟨[0, 0, 0], 0⟩).1 = .terminate := by decide
example : (IoAlloc.tryWrite (fun _ => false) .little [v1]).run ⟨[0, 0, 0], 0⟩
    = (.ok (.value 2), ⟨[1, 2, 0], 1⟩) := by decide
example : (IoAlloc.readRange (· == 1) .little ⟨1, .native⟩ true [7, 8, 9]).run ⟨[[0], [0]], 0⟩
    = (.throw .badAlloc, ⟨[[7], [8]], 2⟩) := by decide
example : ((IoAlloc.tryReadRange (· == 0) .little ⟨1, .native⟩ [7, 8, 9]).run ⟨[[0], [0]], 0⟩).1
    = .terminate := by decide

end Wite.Props
