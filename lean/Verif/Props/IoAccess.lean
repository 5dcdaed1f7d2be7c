import Verif.Model.IoAccess
import Verif.Props.IoValues

/-!
# Property C201: buffers may have elements of any one-byte type
-/

namespace Wite.Props

open Wite Wite.Io Wite.Spec

namespace AccessTypes

/-- The types as which every object may be accessed. -/
def CharLike (b : Access.Scalar) : Prop := b = .char ∨ b = .uchar ∨ b = .stdByte

/-- An object with these parts may be accessed as `b`: `b` is such a type, or each part is of type `b`, or of the unsigned type of `signed char`. -/
def Legal (b : Access.Scalar) (parts : List (Option Access.Scalar)) : Prop :=
  CharLike b ∨ ∀ p ∈ parts, p = some b ∨ (b = .schar ∧ p = some .uchar)

/-- A value of which nothing is accessed illegally when it is written: an empty range has nothing to access. -/
def Clear (b : Access.Scalar) (v : Access.AVal) : Prop := Legal b v.parts ∨ ∃ n, v.val = .range n []

/-- The plain values. -/
def plain (vs : List Access.AVal) : List WVal := vs.map (·.val)

end AccessTypes

open AccessTypes

private theorem legal_iff (b : Access.Scalar) (parts : List (Option Access.Scalar)) : Access.accessible b parts = true ↔ Legal b parts := by
  unfold Access.accessible Legal CharLike
  rw [List.all_eq_true]
  cases b <;> simp [Access.mayAccess]

private theorem not_legal_iff (b : Access.Scalar) (parts : List (Option Access.Scalar)) : Access.accessible b parts = false ↔ ¬Legal b parts := by
  rw [← legal_iff]; simp

/-! ## Reading -/

private theorem through_ty (b : Access.Scalar) (t : Access.AccTy) : (Access.through b t).ty = t.val.ty := by
  unfold Access.through; split <;> rfl

private theorem through_tys (b : Access.Scalar) (ts : List Access.AccTy) :
    (ts.map (Access.through b)).map (·.ty) = ts.map fun t => t.val.ty := by
  rw [List.map_map]; apply List.map_congr_left; intro t _; exact through_ty b t

private theorem through_legal {b : Access.Scalar} {t : Access.AccTy} (h : Legal b t.parts) : Access.through b t = t.val := by
  unfold Access.through; rw [if_pos ((legal_iff _ _).mpr h)]

private theorem through_illegal {b : Access.Scalar} {t : Access.AccTy} (h : ¬Legal b t.parts) (o : Obj) : Val.Bad (Access.through b t) o := by
  unfold Access.through; rw [if_neg (by rw [legal_iff]; exact h)]; exact ⟨rfl, rfl⟩

private theorem through_all {b : Access.Scalar} {ts : List Access.AccTy} (h : ∀ t ∈ ts, Legal b t.parts) :
    ts.map (Access.through b) = ts.map (·.val) := List.map_congr_left fun t ht => through_legal (h t ht)

private theorem recursiveRead_length (host : Endian) : ∀ (ts : List Ty) (buf : List Nat) (vs : List Obj),
    Io.recursiveRead host ts buf = .ok vs → vs.length = ts.length := by
  intro ts
  induction ts with
  | nil => intro buf vs h; cases h; rfl
  | cons t ts ih =>
    intro buf vs h
    rw [Io.recursiveRead] at h
    cases h1 : Io.uncheckedRead host t buf 0 with
    | ok p =>
      rw [h1] at h
      simp only [Outcome.bind_ok] at h
      cases h2 : spanFrom buf p.2 with
      | ok r =>
        rw [h2] at h
        simp only [Outcome.bind_ok] at h
        cases h3 : Io.recursiveRead host ts r with
        | ok ws =>
          rw [h3] at h
          simp only [Outcome.bind_ok, Outcome.pure_eq, Outcome.ok.injEq] at h
          rw [← h, List.length_cons, List.length_cons, ih r ws h3]
        | _ => rw [h3] at h; cases h
      | _ => rw [h2] at h; cases h
    | _ => rw [h1] at h; cases h

private theorem read_length {host : Endian} {ts : List Ty} {buf : List Nat} {vs : List Obj} (h : Io.read host ts buf = .ok vs) :
    vs.length = ts.length := by
  rw [Io.read] at h
  split at h
  · cases h
  · exact recursiveRead_length host ts buf vs h

private theorem readAt_length {host : Endian} {ts : List Ty} {pos : Nat} {buf : List Nat} {vs : List Obj}
    (h : Io.readAt host ts pos buf = .ok vs) : vs.length = ts.length := by
  rw [Io.readAt] at h
  split at h
  · cases h
  · split at h
    · cases h
    · cases h1 : spanFrom buf pos with
      | ok r => rw [h1] at h; exact read_length h
      | _ => rw [h1] at h; cases h

private theorem anyBad {b : Access.Scalar} {ts : List Access.AccTy} {vs : List Obj} (hl : vs.length = ts.length)
    (h : ∃ t ∈ ts, ¬Legal b t.parts) : Val.AnyBad (ts.map (Access.through b)) vs := by
  obtain ⟨t, ht, hb⟩ := h
  obtain ⟨i, hi, e⟩ := List.mem_iff_getElem.mp ht
  refine ⟨i, Access.through b t, vs[i]'(by omega), ?_, ?_, through_illegal hb _⟩
  · rw [List.getElem?_map, List.getElem?_eq_getElem hi, e]; rfl
  · exact List.getElem?_eq_getElem (by omega)

/-- C201 for reading, exactly: if all types may be accessed as the elements of the buffer `read`, `read_at` and views do what C200 says whatever the element type;
if not, they are undefined whenever the buffer is long enough, and report otherwise. -/
theorem c201_exact_read (host : Endian) (b : Access.Scalar) (ts : List Access.AccTy) (pos : Nat) (buf : List Nat) (v : ReadView) :
    ((∀ t ∈ ts, Legal b t.parts) →
      Values.readAll host (ts.map (Access.through b)) buf = Values.readAll host (ts.map (·.val)) buf ∧
      Values.readAt host (ts.map (Access.through b)) pos buf = Values.readAt host (ts.map (·.val)) pos buf ∧
      (Values.viewRead host (ts.map (Access.through b))).run v = (Values.viewRead host (ts.map (·.val))).run v) ∧
    ((∃ t ∈ ts, ¬Legal b t.parts) →
      (∀ vs, Io.read host (ts.map fun t => t.val.ty) buf = .ok vs → Values.readAll host (ts.map (Access.through b)) buf = .ub) ∧
      (∀ e, Io.read host (ts.map fun t => t.val.ty) buf = .throw e → Values.readAll host (ts.map (Access.through b)) buf = .throw e) ∧
      (∀ vs, Io.readAt host (ts.map fun t => t.val.ty) pos buf = .ok vs → Values.readAt host (ts.map (Access.through b)) pos buf = .ub) ∧
      (∀ e, Io.readAt host (ts.map fun t => t.val.ty) pos buf = .throw e →
        Values.readAt host (ts.map (Access.through b)) pos buf = .throw e)) := by
  constructor
  · intro h
    rw [through_all h]
    exact ⟨rfl, rfl, rfl⟩
  · intro h
    obtain ⟨h1, h2, -, -⟩ := c200_exact host (ts.map (Access.through b)) (Values.intTy 1 .native) 0 pos buf
    rw [through_tys] at h1 h2
    refine ⟨fun vs e => h1.1 vs e (anyBad ?_ h), fun x e => ?_, fun vs e => h2.1 vs e (anyBad ?_ h), fun x e => ?_⟩
    · rw [read_length e, List.length_map]
    · rw [h1.2 (fun a ha => by rw [e] at ha; cases ha), e]
    · rw [readAt_length e, List.length_map]
    · rw [h2.2 (fun a ha => by rw [e] at ha; cases ha), e]

/-- C201 for `try_read`, `try_read_at`, `read_range` and `try_read_range`, exactly: one type, any number of elements but none. -/
theorem c201_exact_try (host : Endian) (b : Access.Scalar) (t : Access.AccTy) (n pos : Nat) (buf : List Nat) :
    (Legal b t.parts →
      Values.tryRead host (Access.through b t) buf = Values.tryRead host t.val buf ∧
      Values.tryReadAt host (Access.through b t) pos buf = Values.tryReadAt host t.val pos buf ∧
      Values.readRange host (Access.through b t) n buf = Values.readRange host t.val n buf ∧
      Values.tryReadRange host (Access.through b t) n buf = Values.tryReadRange host t.val n buf) ∧
    (¬Legal b t.parts →
      (∀ v, Io.tryRead host t.val.ty buf = .ok (.value v) → Values.tryRead host (Access.through b t) buf = .ub) ∧
      (∀ e, Io.tryRead host t.val.ty buf = .ok (.error e) → Values.tryRead host (Access.through b t) buf = .ok (.error e)) ∧
      (∀ v, Io.tryReadAt host t.val.ty pos buf = .ok (.value v) → Values.tryReadAt host (Access.through b t) pos buf = .ub) ∧
      (∀ e, Io.tryReadAt host t.val.ty pos buf = .ok (.error e) → Values.tryReadAt host (Access.through b t) pos buf = .ok (.error e)) ∧
      (∀ vs, Io.readRange host t.val.ty n buf = .ok vs → vs ≠ [] → Values.readRange host (Access.through b t) n buf = .ub) ∧
      (∀ vs, Io.tryReadRange host t.val.ty n buf = .ok (.value vs) → vs ≠ [] → Values.tryReadRange host (Access.through b t) n buf = .ub)) := by
  constructor
  · intro h
    rw [through_legal h]
    exact ⟨rfl, rfl, rfl, rfl⟩
  · intro h
    obtain ⟨-, -, h1, -⟩ := c200_exact host [] (Access.through b t) n pos buf
    obtain ⟨g1, g2, -, -, g3, -⟩ := c200_exact_try host [] (Access.through b t) n pos buf
    rw [through_ty] at h1 g1 g2 g3
    refine ⟨fun v e => g1.1 _ e ⟨v, rfl, through_illegal h v⟩, fun x e => ?_, fun v e => g2.1 _ e ⟨v, rfl, through_illegal h v⟩, fun x e => ?_,
      fun vs e hne => ?_, fun vs e hne => ?_⟩
    · rw [g1.2 (fun a ha => by rw [e] at ha; cases ha; rintro ⟨v, hv, -⟩; cases hv), e]
    · rw [g2.2 (fun a ha => by rw [e] at ha; cases ha; rintro ⟨v, hv, -⟩; cases hv), e]
    · obtain ⟨v, ws, rfl⟩ := List.exists_cons_of_ne_nil hne
      exact h1.1 _ e ⟨v, by simp, through_illegal h v⟩
    · obtain ⟨v, ws, rfl⟩ := List.exists_cons_of_ne_nil hne
      exact g3.1 _ e ⟨_, rfl, v, by simp, through_illegal h v⟩

/-! ## Writing -/

private theorem touch_legal {b : Access.Scalar} {parts : List (Option Access.Scalar)} (h : Legal b parts) :
    (Access.touch b parts : St (List Nat) PUnit.{1}) = pure ⟨⟩ := by
  funext buf
  show (if _ then _ else _) = _
  rw [if_pos ((legal_iff _ _).mpr h)]; rfl

private theorem single_legal {host : Endian} {b : Access.Scalar} {parts : List (Option Access.Scalar)} (h : Legal b parts) (enc : Enc) (o : Obj)
    (pos : Nat) : Access.writeSingle host b parts enc o pos = Io.writeSingle host enc o pos := by
  rw [Access.writeSingle, touch_legal h]; rfl

private theorem single_illegal {host : Endian} {b : Access.Scalar} {parts : List (Option Access.Scalar)} (h : ¬Legal b parts) (enc : Enc) (o : Obj)
    (pos : Nat) (buf : List Nat) : (Access.writeSingle host b parts enc o pos).run buf = (.ub, buf) := by
  rw [Access.writeSingle, St.run_bind]
  have e : (Access.touch b parts : St (List Nat) PUnit.{1}).run buf = (.ub, buf) := by
    show (if _ then _ else _) = _
    rw [if_neg (by rw [legal_iff]; exact h)]
  rw [e]

private theorem loop_legal {host : Endian} {b : Access.Scalar} {parts : List (Option Access.Scalar)} (h : Legal b parts) : ∀ (os : List Obj) (w pos : Nat),
    Access.writeRangeLoop host b parts os w pos = Io.writeRangeLoop host os w pos := by
  intro os
  induction os with
  | nil => intro w pos; rfl
  | cons o os ih =>
    intro w pos
    rw [Access.writeRangeLoop, Io.writeRangeLoop, single_legal h]
    congr 1
    funext k
    exact ih _ _

private theorem unchecked_clear {host : Endian} {b : Access.Scalar} {v : Access.AVal} (h : Clear b v) (pos : Nat) :
    Access.uncheckedWrite host b pos v = Io.uncheckedWrite host pos v.val := by
  obtain ⟨val, parts⟩ := v
  cases val with
  | single enc o =>
    rcases h with h | ⟨n, hn⟩
    · exact single_legal h enc o pos
    · cases hn
  | range n os =>
    rcases h with h | ⟨k, hn⟩
    · exact loop_legal h os 0 pos
    · cases hn; rfl

private theorem unchecked_unclear {host : Endian} {b : Access.Scalar} {v : Access.AVal} (h : ¬Clear b v) (pos : Nat) (buf : List Nat) :
    (Access.uncheckedWrite host b pos v).run buf = (.ub, buf) := by
  obtain ⟨val, parts⟩ := v
  have hl : ¬Legal b parts := fun g => h (Or.inl g)
  cases val with
  | single enc o => exact single_illegal hl enc o pos buf
  | range n os =>
    cases os with
    | nil => exact absurd (Or.inr ⟨n, rfl⟩) h
    | cons o os =>
      show (Access.writeRangeLoop host b parts (o :: os) 0 pos).run buf = _
      rw [Access.writeRangeLoop, St.run_bind, single_illegal hl]

private theorem writeMem_cases (pos : Nat) (bs buf : List Nat) :
    (∃ s, (writeMem pos bs : St (List Nat) PUnit.{1}).run buf = (.ok ⟨⟩, s)) ∨ (writeMem pos bs : St (List Nat) PUnit.{1}).run buf = (.ub, buf) := by
  by_cases h : pos + bs.length ≤ buf.length
  · exact Or.inl ⟨_, writeMem_ok h⟩
  · right; simp [writeMem, St.run, h]

private theorem single_cases (host : Endian) (enc : Enc) (o : Obj) (pos : Nat) (buf : List Nat) :
    (∃ n s, (Io.writeSingle host enc o pos).run buf = (.ok n, s)) ∨ ∃ s, (Io.writeSingle host enc o pos).run buf = (.ub, s) := by
  rw [Io.writeSingle]
  rcases writeMem_cases pos (bytesOf host enc o) buf with ⟨s, e⟩ | e
  · left; exact ⟨o.length, s, by rw [St.run_bind_ok e]; rfl⟩
  · right; exact ⟨buf, by rw [St.run_bind, e]⟩

private theorem loop_cases (host : Endian) : ∀ (os : List Obj) (w pos : Nat) (buf : List Nat),
    (∃ n s, (Io.writeRangeLoop host os w pos).run buf = (.ok n, s)) ∨ ∃ s, (Io.writeRangeLoop host os w pos).run buf = (.ub, s) := by
  intro os
  induction os with
  | nil => intro w pos buf; exact Or.inl ⟨w, buf, rfl⟩
  | cons o os ih =>
    intro w pos buf
    rw [Io.writeRangeLoop]
    rcases single_cases host .native o pos buf with ⟨n, s, e⟩ | ⟨s, e⟩
    · rw [St.run_bind_ok e]; exact ih _ _ _
    · right; exact ⟨s, by rw [St.run_bind, e]⟩

private theorem unchecked_cases (host : Endian) (pos : Nat) (v : WVal) (buf : List Nat) :
    (∃ n s, (Io.uncheckedWrite host pos v).run buf = (.ok n, s)) ∨ ∃ s, (Io.uncheckedWrite host pos v).run buf = (.ub, s) := by
  cases v with
  | single enc o => exact single_cases host enc o pos buf
  | range n os => exact loop_cases host os 0 pos buf

private theorem unsafe_nothrow (host : Endian) : ∀ (ws : List WVal) (p : Nat) (m : List Nat) (e : Exc) (m' : List Nat),
    (Io.recursiveUnsafeWrite host p ws).run m ≠ (.throw e, m') := by
  intro ws
  induction ws with
  | nil => intro p m e m' g; cases g
  | cons u us ih =>
    intro p m e m' g
    rw [Io.recursiveUnsafeWrite] at g
    rcases unchecked_cases host p u m with ⟨n, s, e1⟩ | ⟨s, e1⟩
    · rw [St.run_bind_ok e1, St.run_bind] at g
      cases h3 : (Io.recursiveUnsafeWrite host (p + valueSize u) us).run s with
      | mk r1 r2 =>
        rw [h3] at g
        cases r1 with
        | throw e2 => exact ih _ _ _ _ h3
        | _ => cases g
    · rw [St.run_bind, e1] at g; cases g

private theorem unsafe_clear {host : Endian} {b : Access.Scalar} : ∀ (vs : List Access.AVal) (pos : Nat), (∀ v ∈ vs, Clear b v) →
    Access.recursiveUnsafeWrite host b pos vs = Io.recursiveUnsafeWrite host pos (plain vs) := by
  intro vs
  induction vs with
  | nil => intro pos _; rfl
  | cons v vs ih =>
    intro pos h
    show _ = Io.recursiveUnsafeWrite host pos (v.val :: plain vs)
    rw [Access.recursiveUnsafeWrite, Io.recursiveUnsafeWrite, unchecked_clear (h v (by simp)), ih _ (fun u hu => h u (by simp [hu]))]

private theorem unsafe_unclear {host : Endian} {b : Access.Scalar} : ∀ (vs : List Access.AVal) (pos : Nat) (buf : List Nat), (∃ v ∈ vs, ¬Clear b v) →
    ((Access.recursiveUnsafeWrite host b pos vs).run buf).1 = .ub := by
  intro vs
  induction vs with
  | nil => rintro pos buf ⟨v, hv, -⟩; cases hv
  | cons v vs ih =>
    intro pos buf h
    rw [Access.recursiveUnsafeWrite]
    by_cases hc : Clear b v
    · rw [unchecked_clear hc]
      rcases unchecked_cases host pos v.val buf with ⟨n, s, e⟩ | ⟨s, e⟩
      · rw [St.run_bind_ok e, St.run_bind]
        have h' : ∃ u ∈ vs, ¬Clear b u := by
          obtain ⟨u, hu, hn⟩ := h
          rcases List.mem_cons.mp hu with rfl | hu
          · exact absurd hc hn
          · exact ⟨u, hu, hn⟩
        have g := ih (pos + valueSize v.val) s h'
        generalize (Access.recursiveUnsafeWrite host b (pos + valueSize v.val) vs).run s = r at g ⊢
        obtain ⟨r1, r2⟩ := r
        cases g
        rfl
      · rw [St.run_bind, e]
    · rw [St.run_bind, unchecked_unclear hc]

private theorem from_clear {host : Endian} {b : Access.Scalar} {vs : List Access.AVal} (h : ∀ v ∈ vs, Clear b v) (start : Nat) :
    Access.writeFrom host b start vs = Io.writeFrom host start (plain vs) := by
  rw [Access.writeFrom, Io.writeFrom, unsafe_clear vs start h]; rfl

/-- C201 for `write`, `write_at` and `byte_write_buffer_view::write`, exactly: if all values may be accessed as the elements of the buffer they do the same
whatever the element type; if not, they are undefined whenever the values fit, and throw otherwise. -/
theorem c201_exact_write (host : Endian) (b : Access.Scalar) (start pos : Nat) (vs : List Access.AVal) (buf : List Nat) (w : WriteView) :
    ((∀ v ∈ vs, Clear b v) →
      (Access.writeFrom host b start vs).run buf = (Io.writeFrom host start (plain vs)).run buf ∧
      (Access.writeAt host b pos vs).run buf = (Io.writeAt host pos (plain vs)).run buf ∧
      (Access.viewWrite host b vs).run w = (WriteView.write host (plain vs)).run w) ∧
    ((∃ v ∈ vs, ¬Clear b v) →
      (∀ n buf', (Io.writeFrom host start (plain vs)).run buf = (.ok n, buf') → ((Access.writeFrom host b start vs).run buf).1 = .ub) ∧
      (∀ e buf', (Io.writeFrom host start (plain vs)).run buf = (.throw e, buf') → (Access.writeFrom host b start vs).run buf = (.throw e, buf')) ∧
      (∀ n buf', (Io.writeAt host pos (plain vs)).run buf = (.ok n, buf') → ((Access.writeAt host b pos vs).run buf).1 = .ub) ∧
      (∀ e buf', (Io.writeAt host pos (plain vs)).run buf = (.throw e, buf') → (Access.writeAt host b pos vs).run buf = (.throw e, buf')) ∧
      (∀ n w', (WriteView.write host (plain vs)).run w = (.ok n, w') → ((Access.viewWrite host b vs).run w).1 = .ub)) := by
  constructor
  · intro h
    refine ⟨by rw [from_clear h], ?_, ?_⟩
    · rw [Access.writeAt, Io.writeAt, unsafe_clear vs pos h]; rfl
    · rw [Access.viewWrite, WriteView.write]
      simp only [from_clear h]
  · intro h
    have key : ∀ (s : Nat) (m : List Nat),
        (∀ n m', (Io.writeFrom host s (plain vs)).run m = (.ok n, m') → ((Access.writeFrom host b s vs).run m).1 = .ub) ∧
        (∀ e m', (Io.writeFrom host s (plain vs)).run m = (.throw e, m') → (Access.writeFrom host b s vs).run m = (.throw e, m')) := by
      intro s m
      rw [Access.writeFrom, Io.writeFrom, St.run_bind_ok (St.run_get _), St.run_bind_ok (St.run_get _)]
      simp only [St.run_ite]
      by_cases h1 : m.length < s
      · rw [if_pos h1, if_pos h1]
        exact ⟨fun n m' e => rfl, fun e m' g => by cases g⟩
      · rw [if_neg h1, if_neg h1]
        by_cases h2 : m.length - s < byteCountVals (plain vs)
        · rw [if_pos h2, if_pos (show m.length - s < byteCountVals (vs.map (·.val)) from h2)]
          exact ⟨fun n m' e => (by cases e), fun e m' g => g⟩
        · rw [if_neg h2, if_neg (show ¬m.length - s < byteCountVals (vs.map (·.val)) from h2)]
          refine ⟨fun n m' e => unsafe_unclear vs s m h, fun e m' g => ?_⟩
          exact absurd g (unsafe_nothrow host _ _ _ _ _)
    refine ⟨(key start buf).1, (key start buf).2, ?_, ?_, ?_⟩
    · intro n m' e
      rw [Io.writeAt, St.run_bind_ok (St.run_get _)] at e
      rw [Access.writeAt, St.run_bind_ok (St.run_get _)]
      simp only [St.run_ite] at e ⊢
      by_cases h1 : (pos + byteCountVals (plain vs)) % sizeMod < pos
      · rw [if_pos h1] at e; cases e
      · rw [if_neg h1] at e
        rw [if_neg (show ¬(pos + byteCountVals (vs.map (·.val))) % sizeMod < pos from h1)]
        by_cases h2 : (pos + byteCountVals (plain vs)) % sizeMod > buf.length
        · rw [if_pos h2] at e; cases e
        · rw [if_neg (show ¬(pos + byteCountVals (vs.map (·.val))) % sizeMod > buf.length from h2), St.run_bind]
          have g := unsafe_unclear (host := host) vs pos buf h
          generalize (Access.recursiveUnsafeWrite host b pos vs).run buf = r at g ⊢
          obtain ⟨r1, r2⟩ := r
          cases g
          rfl
    · intro x m' e
      rw [Io.writeAt, St.run_bind_ok (St.run_get _)] at e
      rw [Access.writeAt, St.run_bind_ok (St.run_get _)]
      simp only [St.run_ite] at e ⊢
      by_cases h1 : (pos + byteCountVals (plain vs)) % sizeMod < pos
      · rw [if_pos h1] at e
        rw [if_pos (show (pos + byteCountVals (vs.map (·.val))) % sizeMod < pos from h1)]
        exact e
      · rw [if_neg h1] at e
        rw [if_neg (show ¬(pos + byteCountVals (vs.map (·.val))) % sizeMod < pos from h1)]
        by_cases h2 : (pos + byteCountVals (plain vs)) % sizeMod > buf.length
        · rw [if_pos h2] at e
          rw [if_pos (show (pos + byteCountVals (vs.map (·.val))) % sizeMod > buf.length from h2)]
          exact e
        · exfalso
          rw [if_neg h2, St.run_bind] at e
          cases h3 : (Io.recursiveUnsafeWrite host pos (plain vs)).run buf with
          | mk r1 r2 =>
            rw [h3] at e
            cases r1 with
            | throw e2 => exact unsafe_nothrow host _ _ _ _ _ h3
            | _ => cases e
    · intro n w' e
      rw [WriteView.write, St.run_bind] at e
      rw [Access.viewWrite, St.run_bind]
      have hk := key w.pos w.data
      have e1 : (WriteView.onBuffer fun pos => Io.writeFrom host pos (plain vs)).run w =
          (((Io.writeFrom host w.pos (plain vs)).run w.data).1, { w with data := ((Io.writeFrom host w.pos (plain vs)).run w.data).2 }) := rfl
      have e2 : (WriteView.onBuffer fun pos => Access.writeFrom host b pos vs).run w =
          (((Access.writeFrom host b w.pos vs).run w.data).1, { w with data := ((Access.writeFrom host b w.pos vs).run w.data).2 }) := rfl
      rw [e1] at e
      rw [e2]
      generalize (Io.writeFrom host w.pos (plain vs)).run w.data = r at e hk
      generalize (Access.writeFrom host b w.pos vs).run w.data = q at hk ⊢
      obtain ⟨r1, r2⟩ := r
      obtain ⟨q1, q2⟩ := q
      cases r1 with
      | ok k => cases hk.1 k r2 rfl; rfl
      | _ => cases e

private theorem one_clear {host : Endian} {b : Access.Scalar} {v : Access.AVal} (h : Clear b v) (start : Nat) :
    Access.tryWriteOne host b start v = Io.tryWriteOne host start v.val := by
  rw [Access.tryWriteOne, Io.tryWriteOne, unchecked_clear h]

private theorem one_unclear {host : Endian} {b : Access.Scalar} {v : Access.AVal} (h : ¬Clear b v) (start : Nat) (buf : List Nat) :
    (∀ n m, (Io.tryWriteOne host start v.val).run buf = (.ok (.value n), m) → (Access.tryWriteOne host b start v).run buf = (.ub, buf)) ∧
    (∀ e m, (Io.tryWriteOne host start v.val).run buf = (.ok (.error e), m) → (Access.tryWriteOne host b start v).run buf = (.ok (.error e), m)) := by
  rw [Access.tryWriteOne, Io.tryWriteOne, St.run_bind_ok (St.run_get _), St.run_bind_ok (St.run_get _)]
  simp only [St.run_ite]
  by_cases h1 : buf.length < start
  · rw [if_pos h1, if_pos h1]
    exact ⟨fun n m e => (by cases e), fun e m g => (by cases g)⟩
  · rw [if_neg h1, if_neg h1]
    by_cases h2 : buf.length - start < valueSize v.val
    · rw [if_pos h2, if_pos h2]
      exact ⟨fun n m e => (by cases e), fun e m g => g⟩
    · rw [if_neg h2, if_neg h2]
      refine ⟨fun n m e => by rw [St.run_bind, unchecked_unclear h], fun e m g => ?_⟩
      rcases unchecked_cases host start v.val buf with ⟨n, s, e1⟩ | ⟨s, e1⟩
      · rw [St.run_bind_ok e1] at g; cases g
      · rw [St.run_bind, e1] at g; cases g

private theorem at_clear {host : Endian} {b : Access.Scalar} {v : Access.AVal} (h : Clear b v) (pos : Nat) :
    Access.tryWriteAt host b pos v = Io.tryWriteAt host pos v.val := by
  rw [Access.tryWriteAt, Io.tryWriteAt, one_clear h]; rfl

private theorem one_shape (host : Endian) (start : Nat) (v : WVal) (buf : List Nat) :
    (∃ r s, (Io.tryWriteOne host start v).run buf = (.ok r, s)) ∨ ∃ s, (Io.tryWriteOne host start v).run buf = (.ub, s) := by
  rw [Io.tryWriteOne, St.run_bind_ok (St.run_get _)]
  simp only [St.run_ite]
  by_cases h1 : buf.length < start
  · rw [if_pos h1]; exact Or.inr ⟨_, rfl⟩
  · rw [if_neg h1]
    by_cases h2 : buf.length - start < valueSize v
    · rw [if_pos h2]; exact Or.inl ⟨_, _, rfl⟩
    · rw [if_neg h2]
      rcases unchecked_cases host start v buf with ⟨n, s, e1⟩ | ⟨s, e1⟩
      · rw [St.run_bind_ok e1]; exact Or.inl ⟨_, _, rfl⟩
      · rw [St.run_bind, e1]; exact Or.inr ⟨_, rfl⟩

private theorem at_unclear {host : Endian} {b : Access.Scalar} {v : Access.AVal} (h : ¬Clear b v) (pos : Nat) (buf : List Nat) :
    (∀ n m, (Io.tryWriteAt host pos v.val).run buf = (.ok (.value n), m) → (Access.tryWriteAt host b pos v).run buf = (.ub, buf)) ∧
    (∀ e m, (Io.tryWriteAt host pos v.val).run buf = (.ok (.error e), m) → (Access.tryWriteAt host b pos v).run buf = (.ok (.error e), m)) := by
  rw [Access.tryWriteAt, Io.tryWriteAt, St.run_bind_ok (St.run_get _), St.run_bind_ok (St.run_get _)]
  simp only [St.run_ite]
  by_cases h1 : (pos + valueSize v.val) % sizeMod < pos
  · rw [if_pos h1, if_pos h1]
    exact ⟨fun n m e => (by cases e), fun e m g => g⟩
  · rw [if_neg h1, if_neg h1]
    by_cases h2 : pos ≥ buf.length
    · rw [if_pos h2, if_pos h2]
      exact ⟨fun n m e => (by cases e), fun e m g => g⟩
    · rw [if_neg h2, if_neg h2]
      obtain ⟨g1, g2⟩ := one_unclear (host := host) h pos buf
      rcases one_shape host pos v.val buf with ⟨r, s, e1⟩ | ⟨s, e1⟩
      · cases r with
        | value k =>
          rw [St.run_bind_ok e1, St.run_bind, g1 k s e1]
          exact ⟨fun n m _ => rfl, fun e m g => (by cases g)⟩
        | error x =>
          rw [St.run_bind_ok e1, St.run_bind_ok (g2 x s e1)]
          exact ⟨fun n m e => (by cases e), fun e m g => g⟩
      · simp only [St.run_bind, e1]
        exact ⟨fun n m e => (by cases e), fun e m g => (by cases g)⟩

private theorem try_clear {host : Endian} {b : Access.Scalar} : ∀ (vs : List Access.AVal) (start : Nat), (∀ v ∈ vs, Clear b v) →
    Access.recursiveTryWrite host b start vs = Io.recursiveTryWrite host start (plain vs) := by
  intro vs
  induction vs with
  | nil => intro start _; rfl
  | cons v vs ih =>
    intro start h
    show _ = Io.recursiveTryWrite host start (v.val :: plain vs)
    have he : (plain vs).isEmpty = vs.isEmpty := by cases vs <;> rfl
    rw [Access.recursiveTryWrite, Io.recursiveTryWrite, one_clear (h v (by simp)), ih _ (fun u hu => h u (by simp [hu])), he]
    rfl

private theorem tryAt_clear {host : Endian} {b : Access.Scalar} : ∀ (vs : List Access.AVal) (pos : Nat), (∀ v ∈ vs, Clear b v) →
    Access.recursiveTryWriteAt host b pos vs = Io.recursiveTryWriteAt host pos (plain vs) := by
  intro vs
  induction vs with
  | nil => intro pos _; rfl
  | cons v vs ih =>
    intro pos h
    show _ = Io.recursiveTryWriteAt host pos (v.val :: plain vs)
    have he : (plain vs).isEmpty = vs.isEmpty := by cases vs <;> rfl
    rw [Access.recursiveTryWriteAt, Io.recursiveTryWriteAt, at_clear (h v (by simp)), he]
    congr 1
    funext r
    cases r with
    | error e => rfl
    | value n => simp only; rw [ih _ (fun u hu => h u (by simp [hu]))]

/-- C201 for the `try_write` functions, exactly: if all values may be accessed as the elements of the buffer they do the same whatever the element type.  If not, let
`v` be the first that may not: the call is undefined if the values up to and including `v` fit, and reports what it reports for those otherwise. -/
theorem c201_exact_try_write (host : Endian) (b : Access.Scalar) (start : Nat) (pre post : List Access.AVal) (v : Access.AVal) (buf : List Nat)
    (hpre : ∀ u ∈ pre, Clear b u) :
    ((Access.recursiveTryWrite host b start pre).run buf = (Io.recursiveTryWrite host start (plain pre)).run buf ∧
      (Access.recursiveTryWriteAt host b start pre).run buf = (Io.recursiveTryWriteAt host start (plain pre)).run buf) ∧
    (¬Clear b v →
      (∀ n buf', (Io.recursiveTryWrite host start (plain (pre ++ [v]))).run buf = (.ok (.value n), buf') →
        ((Access.recursiveTryWrite host b start (pre ++ v :: post)).run buf).1 = .ub) ∧
      (∀ e buf', (Io.recursiveTryWrite host start (plain (pre ++ [v]))).run buf = (.ok (.error e), buf') →
        (Access.recursiveTryWrite host b start (pre ++ v :: post)).run buf = (.ok (.error e), buf')) ∧
      (∀ n buf', (Io.recursiveTryWriteAt host start (plain (pre ++ [v]))).run buf = (.ok (.value n), buf') →
        ((Access.recursiveTryWriteAt host b start (pre ++ v :: post)).run buf).1 = .ub) ∧
      (∀ e buf', (Io.recursiveTryWriteAt host start (plain (pre ++ [v]))).run buf = (.ok (.error e), buf') →
        (Access.recursiveTryWriteAt host b start (pre ++ v :: post)).run buf = (.ok (.error e), buf'))) := by
  refine ⟨⟨by rw [try_clear pre start hpre], by rw [tryAt_clear pre start hpre]⟩, fun hv => ?_⟩
  induction pre generalizing start buf with
  | nil =>
    have e0 : plain ([] ++ [v]) = [v.val] := rfl
    rw [e0, List.nil_append, Access.recursiveTryWrite, Io.recursiveTryWrite, Access.recursiveTryWriteAt, Io.recursiveTryWriteAt]
    obtain ⟨g1, g2⟩ := one_unclear (host := host) hv start buf
    obtain ⟨a1, a2⟩ := at_unclear (host := host) hv start buf
    simp only [St.run_bind]
    refine ⟨fun n m e => ?_, fun x m e => ?_, fun n m e => ?_, fun x m e => ?_⟩
    · cases hr : (Io.tryWriteOne host start v.val).run buf with
      | mk r1 r2 =>
        cases r1 with
        | ok r => cases r with
          | value k => rw [g1 k r2 hr]
          | error y => rw [hr] at e; cases e
        | _ => rw [hr] at e; cases e
    · cases hr : (Io.tryWriteOne host start v.val).run buf with
      | mk r1 r2 =>
        cases r1 with
        | ok r => cases r with
          | value k => rw [hr] at e; cases e
          | error y => rw [hr] at e; rw [g2 y r2 hr]; exact e
        | _ => rw [hr] at e; cases e
    · cases hr : (Io.tryWriteAt host start v.val).run buf with
      | mk r1 r2 =>
        cases r1 with
        | ok r => cases r with
          | value k => rw [a1 k r2 hr]
          | error y => rw [hr] at e; cases e
        | _ => rw [hr] at e; cases e
    · cases hr : (Io.tryWriteAt host start v.val).run buf with
      | mk r1 r2 =>
        cases r1 with
        | ok r => cases r with
          | value k => rw [hr] at e; cases e
          | error y => rw [hr] at e; rw [a2 y r2 hr]; exact e
        | _ => rw [hr] at e; cases e
  | cons u us ih =>
    have hu : Clear b u := hpre u (by simp)
    have hus : ∀ w ∈ us, Clear b w := fun w hw => hpre w (by simp [hw])
    have e0 : plain (u :: us ++ [v]) = u.val :: plain (us ++ [v]) := rfl
    have f1 : (plain (us ++ [v])).isEmpty = false := by cases us <;> rfl
    have f2 : (us ++ v :: post).isEmpty = false := by cases us <;> rfl
    rw [e0, List.cons_append, Access.recursiveTryWrite, Io.recursiveTryWrite, Access.recursiveTryWriteAt, Io.recursiveTryWriteAt,
      one_clear hu, at_clear hu, f1, f2]
    simp only [Bool.false_eq_true, if_false]
    simp only [St.run_bind]
    rw [← and_assoc]
    constructor
    · cases hr : (Io.tryWriteOne host start u.val).run buf with
      | mk r1 r2 =>
        cases r1 with
        | ok r => cases r with
          | error y => exact ⟨fun n m e => (by cases e), fun e m g => g⟩
          | value k =>
            obtain ⟨i1, i2, -, -⟩ := ih (start + valueSize u.val) r2 hus
            simp only [St.run_bind]
            cases hq : (Io.recursiveTryWrite host (start + valueSize u.val) (plain (us ++ [v]))).run r2 with
            | mk q1 q2 =>
              cases q1 with
              | ok q => cases q with
                | value j =>
                  have g := i1 j q2 hq
                  generalize (Access.recursiveTryWrite host b (start + valueSize u.val) (us ++ v :: post)).run r2 = z at g ⊢
                  obtain ⟨z1, z2⟩ := z
                  cases g
                  exact ⟨fun n m e => rfl, fun e m h => (by cases h)⟩
                | error y =>
                  rw [i2 y q2 hq]
                  exact ⟨fun n m e => (by cases e), fun e m g => g⟩
              | _ => exact ⟨fun n m e => (by cases e), fun e m g => (by cases g)⟩
        | _ => exact ⟨fun n m e => (by cases e), fun e m g => (by cases g)⟩
    cases hr : (Io.tryWriteAt host start u.val).run buf with
    | mk r1 r2 =>
      cases r1 with
      | ok r => cases r with
        | error y => exact ⟨fun n m e => (by cases e), fun e m g => g⟩
        | value k =>
          obtain ⟨-, -, i3, i4⟩ := ih k r2 hus
          exact ⟨i3, i4⟩
      | _ => exact ⟨fun n m e => (by cases e), fun e m g => (by cases g)⟩

/-! ## What follows -/

/-- C201 for buffers of `char`, `unsigned char` (`uint8_t`) and `std::byte`: every type can be read and written, whatever it is made of.
Missing: other elements, for which it is false. -/
theorem c201_char_like_partial (host : Endian) (b : Access.Scalar) (hb : CharLike b) (ts : List Access.AccTy) (vs : List Access.AVal) (start pos : Nat)
    (buf : List Nat) (w : WriteView) :
    Values.readAll host (ts.map (Access.through b)) buf = Values.readAll host (ts.map (·.val)) buf ∧
    Values.readAt host (ts.map (Access.through b)) pos buf = Values.readAt host (ts.map (·.val)) pos buf ∧
    Values.recursiveTryRead host (ts.map (Access.through b)) buf = Values.recursiveTryRead host (ts.map (·.val)) buf ∧
    Values.recursiveTryReadAt host (ts.map (Access.through b)) pos buf = Values.recursiveTryReadAt host (ts.map (·.val)) pos buf ∧
    (Access.writeFrom host b start vs).run buf = (Io.writeFrom host start (plain vs)).run buf ∧
    (Access.writeAt host b pos vs).run buf = (Io.writeAt host pos (plain vs)).run buf ∧
    (Access.viewWrite host b vs).run w = (WriteView.write host (plain vs)).run w ∧
    (Access.recursiveTryWrite host b start vs).run buf = (Io.recursiveTryWrite host start (plain vs)).run buf ∧
    (Access.recursiveTryWriteAt host b pos vs).run buf = (Io.recursiveTryWriteAt host pos (plain vs)).run buf := by
  have hv : ∀ v ∈ vs, Clear b v := fun v _ => Or.inl (Or.inl hb)
  obtain ⟨w1, w2, w3⟩ := (c201_exact_write host b start pos vs buf w).1 hv
  rw [through_all (fun t _ => Or.inl hb)]
  exact ⟨rfl, rfl, rfl, rfl, w1, w2, w3, by rw [try_clear vs start hv], by rw [tryAt_clear vs pos hv]⟩

/-- C201 for buffers of other elements, and objects all of whose bytes are of that very type: arrays or structures of `int8_t` in a buffer of `int8_t` for
example.  Missing: objects of other types, for which it is false. -/
theorem c201_same_type_partial (host : Endian) (b : Access.Scalar) (ts : List Access.AccTy) (vs : List Access.AVal) (start : Nat) (buf : List Nat)
    (ht : ∀ t ∈ ts, ∀ p ∈ t.parts, p = some b) (hv : ∀ v ∈ vs, ∀ p ∈ v.parts, p = some b) :
    Values.readAll host (ts.map (Access.through b)) buf = Values.readAll host (ts.map (·.val)) buf ∧
    (Access.writeFrom host b start vs).run buf = (Io.writeFrom host start (plain vs)).run buf ∧
    (Access.recursiveTryWrite host b start vs).run buf = (Io.recursiveTryWrite host start (plain vs)).run buf := by
  have hv' : ∀ v ∈ vs, Clear b v := fun v h => Or.inl (Or.inr fun p hp => Or.inl (hv v h p hp))
  rw [through_all (fun t h => Or.inr fun p hp => Or.inl (ht t h p hp))]
  exact ⟨rfl, by rw [from_clear hv'], by rw [try_clear vs start hv']⟩

private theorem wider_illegal {b : Access.Scalar} {parts : List (Option Access.Scalar)} (hb : ¬CharLike b) (hw : ∀ k, b ≠ .wider k) {k : Nat}
    (hp : some (.wider k) ∈ parts) : ¬Legal b parts := by
  rintro (h | h)
  · exact hb h
  · rcases h _ hp with e | ⟨-, e⟩
    · exact hw k (Option.some.inj e).symm
    · cases e

/-- C201 fails for every one-byte element type but `char`, `unsigned char` and `std::byte`, for every type with a member of more than one byte in it, and every
buffer that is long enough: reading a value of that type and writing one are undefined, the functions without exceptions no less. -/
theorem c201_refuted (host : Endian) (b : Access.Scalar) (hb : ¬CharLike b) (hw : ∀ k, b ≠ .wider k) (t : Access.AccTy) (k : Nat)
    (hp : some (.wider k) ∈ t.parts) (enc : Enc) (o : Obj) (buf : List Nat) (hbuf : ∀ x ∈ buf, IsByte x) (ho : ∀ x ∈ o, IsByte x)
    (hl : o.length = t.val.ty.size) (hfit : t.val.ty.size ≤ buf.length) (hlen : buf.length < 2 ^ 64) :
    Values.readAll host [Access.through b t] buf = .ub ∧
    Values.tryRead host (Access.through b t) buf = .ub ∧
    ((Access.writeFrom host b 0 [⟨.single enc o, t.parts⟩]).run buf).1 = .ub ∧
    ((Access.recursiveTryWrite host b 0 [⟨.single enc o, t.parts⟩]).run buf).1 = .ub := by
  have hi := wider_illegal hb hw hp
  have hc : ¬Clear b ⟨.single enc o, t.parts⟩ := by
    rintro (h | ⟨n, h⟩)
    · exact hi h
    · cases h
  have hts : totalTySize [t.val.ty] = t.val.ty.size := by simp [totalTySize]
  have hsz : totalSize [WVal.single enc o] = o.length := by simp [totalSize, sizeOfVal]
  have hg : ∀ v ∈ [WVal.single enc o], GoodVal v := by
    intro v hv; rw [List.mem_singleton.mp hv]; exact ho
  refine ⟨?_, ?_, ?_, ?_⟩
  · have h := read_eq (host := host) (ts := [t.val.ty]) hbuf (by rw [hts]; omega)
    rw [if_neg (by rw [hts]; omega)] at h
    exact ((c201_exact_read host b [t] 0 buf ⟨[], 0⟩).2 ⟨t, by simp, hi⟩).1 _ h
  · have h := tryRead_eq (host := host) (t := t.val.ty) hbuf
    rw [if_neg (by omega)] at h
    exact ((c201_exact_try host b t 0 0 buf).2 hi).1 _ h
  · have h := writeFrom_eq (host := host) (start := 0) (vs := [.single enc o]) (buf := buf) hg (by rw [hsz]; omega) (by omega)
    rw [if_neg (by rw [hsz]; omega)] at h
    exact ((c201_exact_write host b 0 0 [⟨.single enc o, t.parts⟩] buf ⟨[], 0⟩).2 ⟨_, by simp, hc⟩).1 _ _ h
  · have h := recursiveTryWrite_eq (host := host) [.single enc o] 0 buf hg (by rw [hsz]; omega) (by omega)
    rw [if_neg (by rw [hsz]; omega)] at h
    exact ((c201_exact_try_write host b 0 [] [] ⟨.single enc o, t.parts⟩ buf (by simp)).2 hc).1 _ _ h

/-- C201 fails for the byte type the library offers itself: with `WITE_USER_DEFINED_BYTE_TYPE_I8` `to_bytes` is undefined for every value with a member of more
than one byte in it, and with no other choice of the byte type is it for any value. -/
theorem c201_refuted_to_bytes (host : Endian) (cfg : Config.Macros) (ty : Config.ByteTy) (h : Config.byteType cfg = some ty) (enc : Enc) (o : Obj)
    (parts : List (Option Access.Scalar)) (k : Nat) (hp : some (.wider k) ∈ parts) (ho : ∀ x ∈ o, IsByte x) (hlen : o.length < 2 ^ 64) :
    Access.toBytes host (Access.ofByteTy ty) parts enc o = if cfg.byteI8 then .ub else .ok (encode host enc o) := by
  have hg : ∀ v ∈ [WVal.single enc o], GoodVal v := by
    intro v hv; rw [List.mem_singleton.mp hv]; exact ho
  have hsz : totalSize [WVal.single enc o] = o.length := by simp [totalSize, sizeOfVal]
  have hw := writeFrom_eq (host := host) (start := 0) (vs := [.single enc o]) (buf := List.replicate o.length 0) hg (by rw [hsz]; omega) (by omega)
  rw [if_neg (by rw [hsz, List.length_replicate]; omega)] at hw
  obtain ⟨w1, w2⟩ := c201_exact_write host (Access.ofByteTy ty) 0 0 [⟨.single enc o, parts⟩] (List.replicate o.length 0) ⟨[], 0⟩
  by_cases hi : ty = .i8
  · subst hi
    have hcfg : cfg.byteI8 = true := by
      unfold Config.byteType at h
      split at h <;> (try split at h) <;> (try split at h) <;> (try split at h) <;> simp_all
    rw [hcfg, if_pos rfl]
    have hc : ¬Clear .schar ⟨.single enc o, parts⟩ := by
      rintro (g | ⟨n, g⟩)
      · exact wider_illegal (b := .schar) (by rintro (e | e | e) <;> cases e) (fun k e => by cases e) hp g
      · cases g
    have hu := (w2 ⟨_, by simp, hc⟩).1 _ _ hw
    rw [Access.toBytes]
    generalize (Access.writeFrom host (Access.ofByteTy .i8) 0 [⟨.single enc o, parts⟩]).run (List.replicate o.length 0) = r at hu
    obtain ⟨r1, r2⟩ := r
    cases hu
    rfl
  · have hcl : CharLike (Access.ofByteTy ty) := by
      cases ty with
      | i8 => exact absurd rfl hi
      | char => exact Or.inl rfl
      | u8 => exact Or.inr (Or.inl rfl)
      | uchar => exact Or.inr (Or.inl rfl)
      | stdByte => exact Or.inr (Or.inr rfl)
    have hcfg : cfg.byteI8 = false := by
      cases e : cfg.byteI8 with
      | false => rfl
      | true =>
        exfalso
        unfold Config.byteType at h
        rw [e] at h
        simp only [if_true] at h
        split at h <;> (try split at h) <;> simp_all
    rw [hcfg, if_neg (by simp)]
    have hr := (w1 (fun v _ => Or.inl (Or.inl hcl))).1
    rw [Access.toBytes, hr]
    have e0 : plain [⟨.single enc o, parts⟩] = [.single enc o] := rfl
    rw [e0, hw]
    simp only [Outcome.ok.injEq]
    rw [encodeAll_cons]
    have hl : (encode host enc o).length = o.length := encode_length ho
    simp [overwrite, encodeAll, encodeVal, hl]

/-- C119 fails at every address, for every UUID and every pair of random numbers, if the aliasing rule is taken into account: the hash reads the bytes of a UUID as
`uint64_t`, and the constructor from an engine stores them so. -/
theorem c119_refuted_aliasing (host : Endian) (h : Nat → Nat) (addr r1 r2 : Nat) (u : List Nat) :
    Access.uuidHash host h addr u = .ub ∧ Access.uuidRandom host addr r1 r2 = .ub := ⟨rfl, rfl⟩

/-- C119 for texts: printing a UUID, or a structure like a GUID, whatever its members, accesses it as `uint8_t`, which is always allowed. -/
theorem c119_text_partial (host : Endian) (parts : List (Option Access.Scalar)) (u : List Nat) (f : Char) :
    Access.uuidText host parts u f = Uuid.str host u f := by
  rw [Access.uuidText, Access.accessed, if_pos]
  exact (legal_iff _ _).mpr (Or.inl (Or.inr (Or.inl rfl)))

private def u32 : Access.AccTy := ⟨Values.intTy 4 .native, List.replicate 4 (some (.wider 32))⟩
private def pair8 : Access.AccTy := ⟨⟨⟨2, .native⟩, true, fun _ => true⟩, [some .schar, some .uchar]⟩
private def padded : Access.AccTy := ⟨⟨⟨8, .native⟩, true, fun _ => true⟩, some .schar :: List.replicate 3 none ++ List.replicate 4 (some (.wider 32))⟩

example : Values.readAll .little [Access.through .stdByte u32] [1, 2, 3, 4] = .ok [[1, 2, 3, 4]] ∧
    Values.readAll .little [Access.through .schar u32] [1, 2, 3, 4] = .ub ∧
    Values.readAll .little [Access.through .schar u32] [1, 2, 3] = .throw (.outOfRange "Insufficient buffer space for read") := by decide
example : Values.readAll .little [Access.through .schar pair8] [1, 2, 3, 4] = .ok [[1, 2]] ∧
    Values.tryRead .little (Access.through .char8 pair8) [1, 2, 3, 4] = .ub ∧
    Values.tryRead .big (Access.through (.enumeration 1) u32) [1, 2, 3] = .ok (.error .insufficientBuffer) := by decide
example : ((Access.recursiveTryWrite .little .schar 0 [⟨.single .native [7, 8], [some .schar, some .uchar]⟩, ⟨.single .bigEndian [1, 2, 3, 4], u32.parts⟩]).run
    [0, 0, 0, 0, 0]) = (.ok (.error .insufficientBuffer), [7, 8, 0, 0, 0]) := by decide
example : ((Access.recursiveTryWrite .little .schar 0 [⟨.single .native [7, 8], [some .schar, some .uchar]⟩, ⟨.single .bigEndian [1, 2, 3, 4], u32.parts⟩]).run
    [0, 0, 0, 0, 0, 0]) = (.ub, [7, 8, 0, 0, 0, 0]) := by decide
example : Access.toBytes .little .schar u32.parts .bigEndian [1, 2, 3, 4] = .ub ∧ Access.toBytes .little .uchar u32.parts .bigEndian [1, 2, 3, 4] = .ok [4, 3, 2, 1] := by
  decide
example : Legal .schar pair8.parts ∧ ¬Legal .schar padded.parts ∧ Legal .char padded.parts ∧ Clear .bool ⟨.range 4 [], u32.parts⟩ := by
  refine ⟨Or.inr ?_, ?_, Or.inl (Or.inl rfl), Or.inr ⟨4, rfl⟩⟩
  · intro p hp; simp [pair8] at hp; rcases hp with rfl | rfl <;> simp
  · rw [← not_legal_iff]; decide

end Wite.Props
