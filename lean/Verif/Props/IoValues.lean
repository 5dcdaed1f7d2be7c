import Verif.Model.IoValues
import Verif.Lemmas.Io
import Verif.Props.Io
import Verif.Props.Hex
import Mathlib.Tactic.ByContra

/-!
# Property C200: what is read or parsed is a value of its type
-/

namespace Wite.Props

open Wite Wite.Io Wite.Spec

namespace Val

/-- An object that may not be loaded: a scalar whose bytes are no value of its type. -/
def Bad (t : Values.ValTy) (o : Obj) : Prop := t.cls = false ∧ t.isValue o = false

/-- One of the objects may not be loaded. -/
def AnyBad (ts : List Values.ValTy) (vs : List Obj) : Prop :=
  ∃ (i : Nat) (t : Values.ValTy) (v : Obj), ts[i]? = some t ∧ vs[i]? = some v ∧ Bad t v

/-- One of the results is a value that may not be loaded. -/
def AnyBadResult (ts : List Values.ValTy) (rs : List (Result Obj ReadError)) : Prop :=
  ∃ (i : Nat) (t : Values.ValTy) (v : Obj), ts[i]? = some t ∧ rs[i]? = some (.value v) ∧ Bad t v

/-- `y` is what comes of `x` when the objects it returns are copied: undefined if one of them may not be loaded, else the same. -/
def Checked {α : Type} (bad : α → Prop) (x y : Outcome α) : Prop :=
  (∀ a, x = .ok a → bad a → y = .ub) ∧ ((∀ a, x = .ok a → ¬bad a) → y = x)

/-- All bytes are values of the type. -/
def AllValues (t : Values.ValTy) : Prop := ∀ o, t.isValue o = true

end Val

open Val

private def fine (t : Values.ValTy) (o : Obj) : Bool := t.cls || t.isValue o

private def fineAll : List Values.ValTy → List Obj → Bool
  | t :: ts, v :: vs => fine t v && fineAll ts vs
  | _, _ => true

private def fineResult (t : Values.ValTy) : Result Obj ReadError → Bool
  | .value v => fine t v
  | .error _ => true

private def fineResults : List Values.ValTy → List (Result Obj ReadError) → Bool
  | t :: ts, r :: rs => fineResult t r && fineResults ts rs
  | _, _ => true

private def guardBy {α : Type} (g : α → Bool) (a : α) : Outcome α := if g a then .ok a else .ub

private theorem fine_iff (t : Values.ValTy) (o : Obj) : fine t o = true ↔ ¬Bad t o := by
  unfold fine Bad
  cases t.cls <;> cases t.isValue o <;> simp

private theorem fineAll_iff : ∀ (ts : List Values.ValTy) (vs : List Obj), fineAll ts vs = true ↔ ¬AnyBad ts vs := by
  intro ts
  induction ts with
  | nil => intro vs; simp [fineAll, AnyBad]
  | cons t ts ih =>
    intro vs
    cases vs with
    | nil => simp [fineAll, AnyBad]
    | cons v vs =>
      rw [fineAll, Bool.and_eq_true, fine_iff, ih]
      constructor
      · rintro ⟨h1, h2⟩ ⟨i, u, w, hu, hw, hb⟩
        cases i with
        | zero => simp at hu hw; subst hu hw; exact h1 hb
        | succ i => exact h2 ⟨i, u, w, by simpa using hu, by simpa using hw, hb⟩
      · intro h
        exact ⟨fun hb => h ⟨0, t, v, rfl, rfl, hb⟩, fun ⟨i, u, w, hu, hw, hb⟩ => h ⟨i + 1, u, w, by simpa using hu, by simpa using hw, hb⟩⟩

private theorem fineResult_iff (t : Values.ValTy) (r : Result Obj ReadError) : fineResult t r = true ↔ ¬∃ v, r = .value v ∧ Bad t v := by
  cases r with
  | value v => simp [fineResult, fine_iff]
  | error e => simp [fineResult]

private theorem fineResults_iff : ∀ (ts : List Values.ValTy) (rs : List (Result Obj ReadError)), fineResults ts rs = true ↔ ¬AnyBadResult ts rs := by
  intro ts
  induction ts with
  | nil => intro rs; simp [fineResults, AnyBadResult]
  | cons t ts ih =>
    intro rs
    cases rs with
    | nil => simp [fineResults, AnyBadResult]
    | cons r rs =>
      rw [fineResults, Bool.and_eq_true, fineResult_iff, ih]
      constructor
      · rintro ⟨h1, h2⟩ ⟨i, u, w, hu, hw, hb⟩
        cases i with
        | zero => simp at hu hw; subst hu; exact h1 ⟨w, hw, hb⟩
        | succ i => exact h2 ⟨i, u, w, by simpa using hu, by simpa using hw, hb⟩
      · intro h
        exact ⟨fun ⟨v, e, hb⟩ => h ⟨0, t, v, rfl, by simp [e], hb⟩,
          fun ⟨i, u, w, hu, hw, hb⟩ => h ⟨i + 1, u, w, by simpa using hu, by simpa using hw, hb⟩⟩

private theorem checked_of {α : Type} {g : α → Bool} {bad : α → Prop} (hg : ∀ a, g a = true ↔ ¬bad a) {x y : Outcome α}
    (h : y = x >>= guardBy g) : Checked bad x y := by
  subst h
  constructor
  · rintro a rfl hb
    have : g a = false := by
      cases hga : g a with
      | false => rfl
      | true => exact absurd hb ((hg a).mp hga)
    simp [guardBy, this]
  · intro hn
    cases x with
    | ok a => simp [guardBy, (hg a).mpr (hn a rfl)]
    | _ => rfl

private def NoThrow {α : Type} (x : Outcome α) : Prop := (∃ a, x = .ok a) ∨ x = .ub

private theorem NoThrow.ok {α : Type} (a : α) : NoThrow (.ok a) := .inl ⟨a, rfl⟩

private theorem NoThrow.ub {α : Type} : NoThrow (.ub : Outcome α) := .inr rfl

private theorem noThrow_bind {α β : Type} {x : Outcome α} {f : α → Outcome β} (hx : NoThrow x) (hf : ∀ a, NoThrow (f a)) : NoThrow (x >>= f) := by
  rcases hx with ⟨a, rfl⟩ | rfl
  · exact hf a
  · exact .ub

private theorem noThrow_span (buf : List Nat) (p : Nat) : NoThrow (spanFrom buf p) := by
  unfold spanFrom; split
  · exact .ok _
  · exact .ub

private theorem noThrow_mem (buf : List Nat) (p n : Nat) : NoThrow (readMem buf p n) := by
  unfold readMem; split
  · exact .ok _
  · exact .ub

private theorem noThrow_unchecked (host : Endian) (t : Ty) (buf : List Nat) (pos : Nat) : NoThrow (Io.uncheckedRead host t buf pos) :=
  noThrow_bind (noThrow_mem _ _ _) fun _ => .ok _

private theorem noThrow_rec (host : Endian) : ∀ (ts : List Ty) (buf : List Nat), NoThrow (Io.recursiveRead host ts buf) := by
  intro ts
  induction ts with
  | nil => intro buf; exact .ok _
  | cons t ts ih =>
    intro buf
    exact noThrow_bind (noThrow_unchecked _ _ _ _) fun _ => noThrow_bind (noThrow_span _ _) fun _ => noThrow_bind (ih _) fun _ => .ok _

private theorem noThrow_generate (host : Endian) (t : Ty) (buf : List Nat) : ∀ (n pos : Nat), NoThrow (Io.generateRead host t buf n pos) := by
  intro n
  induction n with
  | zero => intro pos; exact .ok _
  | succ n ih => intro pos; exact noThrow_bind (noThrow_unchecked _ _ _ _) fun _ => noThrow_bind (ih _) fun _ => .ok _

private theorem noThrow_try (host : Endian) (t : Ty) (buf : List Nat) : NoThrow (Io.tryRead host t buf) := by
  unfold Io.tryRead
  split
  · exact .ok _
  · exact noThrow_bind (noThrow_unchecked _ _ _ _) fun _ => .ok _

private theorem noThrow_tryAt (host : Endian) (t : Ty) (pos : Nat) (buf : List Nat) : NoThrow (Io.tryReadAt host t pos buf) := by
  unfold Io.tryReadAt
  split
  · exact .ok _
  · split
    · exact .ok _
    · exact noThrow_bind (noThrow_span _ _) fun _ => noThrow_try _ _ _

private theorem noThrow_recTry (host : Endian) : ∀ (ts : List Ty) (buf : List Nat), NoThrow (Io.recursiveTryRead host ts buf) := by
  intro ts
  induction ts with
  | nil => intro buf; exact .ok _
  | cons t ts ih =>
    intro buf
    exact noThrow_bind (noThrow_try _ _ _) fun _ => noThrow_bind (noThrow_span _ _) fun _ => noThrow_bind (ih _) fun _ => .ok _

private theorem noThrow_recTryAt (host : Endian) (buf : List Nat) : ∀ (ts : List Ty) (pos : Nat), NoThrow (Io.recursiveTryReadAt host ts pos buf) := by
  intro ts
  induction ts with
  | nil => intro pos; exact .ok _
  | cons t ts ih => intro pos; exact noThrow_bind (noThrow_tryAt _ _ _ _) fun _ => noThrow_bind (ih _) fun _ => .ok _

private theorem unchecked_eq (host : Endian) (t : Values.ValTy) (buf : List Nat) (pos : Nat) :
    Values.uncheckedRead host t buf pos = Io.uncheckedRead host t.ty buf pos >>= guardBy fun p => fine t p.1 := by
  unfold Values.uncheckedRead Io.uncheckedRead
  cases readMem buf pos t.ty.size with
  | ok bs =>
    simp only [Outcome.bind_ok, Outcome.pure_eq, Values.load, guardBy, fine]
    split <;> simp
  | _ => rfl

private theorem rec_eq (host : Endian) : ∀ (ts : List Values.ValTy) (buf : List Nat),
    Values.recursiveRead host ts buf = Io.recursiveRead host (ts.map (·.ty)) buf >>= guardBy (fineAll ts) := by
  intro ts
  induction ts with
  | nil => intro buf; rfl
  | cons t ts ih =>
    intro buf
    rw [Values.recursiveRead, List.map_cons, Io.recursiveRead, unchecked_eq]
    rcases noThrow_unchecked host t.ty buf 0 with ⟨⟨v, next⟩, e1⟩ | e1
    · rcases noThrow_span buf next with ⟨rest, e2⟩ | e2
      · rcases noThrow_rec host (ts.map (·.ty)) rest with ⟨vs, e3⟩ | e3
        · cases hf : fine t v <;> cases hg : fineAll ts vs <;> simp [guardBy, fineAll, hf, hg, ih, e1, e2, e3]
        · cases hf : fine t v <;> simp [guardBy, hf, ih, e1, e2, e3]
      · cases hf : fine t v <;> simp [guardBy, hf, e1, e2]
    · simp [e1]

private theorem generate_eq (host : Endian) (t : Values.ValTy) (buf : List Nat) : ∀ (n pos : Nat),
    Values.generateRead host t buf n pos = Io.generateRead host t.ty buf n pos >>= guardBy (fun vs => vs.all (fine t)) := by
  intro n
  induction n with
  | zero => intro pos; rfl
  | succ n ih =>
    intro pos
    rw [Values.generateRead, Io.generateRead, unchecked_eq]
    rcases noThrow_unchecked host t.ty buf pos with ⟨⟨v, next⟩, e1⟩ | e1
    · rcases noThrow_generate host t.ty buf n next with ⟨vs, e3⟩ | e3
      · cases hf : fine t v <;> cases hg : vs.all (fine t) <;> simp [guardBy, hf, hg, ih, e1, e3]
      · cases hf : fine t v <;> simp [guardBy, hf, ih, e1, e3]
    · simp [e1]

private theorem readAll_eq (host : Endian) (ts : List Values.ValTy) (buf : List Nat) :
    Values.readAll host ts buf = Io.read host (ts.map (·.ty)) buf >>= guardBy (fineAll ts) := by
  unfold Values.readAll Io.read
  split
  · rfl
  · exact rec_eq host ts buf

private theorem readRange_val (host : Endian) (t : Values.ValTy) (n : Nat) (buf : List Nat) :
    Values.readRange host t n buf = Io.readRange host t.ty n buf >>= guardBy (fun vs => vs.all (fine t)) := by
  unfold Values.readRange Io.readRange
  split
  · rfl
  · exact generate_eq host t buf n 0

private theorem readAt_val (host : Endian) (ts : List Values.ValTy) (pos : Nat) (buf : List Nat) :
    Values.readAt host ts pos buf = Io.readAt host (ts.map (·.ty)) pos buf >>= guardBy (fineAll ts) := by
  unfold Values.readAt Io.readAt
  split
  · rfl
  · split
    · rfl
    · rcases noThrow_span buf pos with ⟨rest, e⟩ | e
      · simp [e, readAll_eq]
      · simp [e]

private theorem readRangeAt_val (host : Endian) (t : Values.ValTy) (n pos : Nat) (buf : List Nat) :
    Values.readRangeAt host t n pos buf = Io.readRangeAt host t.ty n pos buf >>= guardBy (fun vs => vs.all (fine t)) := by
  unfold Values.readRangeAt Io.readRangeAt
  split
  · rfl
  · split
    · rfl
    · rcases noThrow_span buf pos with ⟨rest, e⟩ | e
      · simp [e, readRange_val]
      · simp [e]

private theorem try_val (host : Endian) (t : Values.ValTy) (buf : List Nat) :
    Values.tryRead host t buf = Io.tryRead host t.ty buf >>= guardBy (fineResult t) := by
  unfold Values.tryRead Io.tryRead
  split
  · rfl
  · rw [unchecked_eq]
    rcases noThrow_unchecked host t.ty buf 0 with ⟨⟨v, next⟩, e1⟩ | e1
    · cases hf : fine t v <;> simp [guardBy, fineResult, hf, e1]
    · simp [e1]

private theorem tryRange_val (host : Endian) (t : Values.ValTy) (n : Nat) (buf : List Nat) :
    Values.tryReadRange host t n buf = Io.tryReadRange host t.ty n buf >>=
      guardBy (fun r => match r with | .value vs => vs.all (fine t) | .error _ => true) := by
  unfold Values.tryReadRange Io.tryReadRange
  split
  · rfl
  · rw [generate_eq]
    rcases noThrow_generate host t.ty buf n 0 with ⟨vs, e1⟩ | e1
    · cases hf : vs.all (fine t) <;> simp [guardBy, hf, e1]
    · simp [e1]

private theorem tryAt_val (host : Endian) (t : Values.ValTy) (pos : Nat) (buf : List Nat) :
    Values.tryReadAt host t pos buf = Io.tryReadAt host t.ty pos buf >>= guardBy (fineResult t) := by
  unfold Values.tryReadAt Io.tryReadAt
  split
  · rfl
  · split
    · rfl
    · rcases noThrow_span buf pos with ⟨rest, e⟩ | e
      · simp [e, try_val]
      · simp [e]

private theorem tryRangeAt_val (host : Endian) (t : Values.ValTy) (n pos : Nat) (buf : List Nat) :
    Values.tryReadRangeAt host t n pos buf = Io.tryReadRangeAt host t.ty n pos buf >>=
      guardBy (fun r => match r with | .value vs => vs.all (fine t) | .error _ => true) := by
  unfold Values.tryReadRangeAt Io.tryReadRangeAt
  split
  · rfl
  · split
    · rfl
    · rcases noThrow_span buf pos with ⟨rest, e⟩ | e
      · simp [e, tryRange_val]
      · simp [e]

private theorem recTry_val (host : Endian) : ∀ (ts : List Values.ValTy) (buf : List Nat),
    Values.recursiveTryRead host ts buf = Io.recursiveTryRead host (ts.map (·.ty)) buf >>= guardBy (fineResults ts) := by
  intro ts
  induction ts with
  | nil => intro buf; rfl
  | cons t ts ih =>
    intro buf
    rw [Values.recursiveTryRead, List.map_cons, Io.recursiveTryRead, try_val]
    rcases noThrow_try host t.ty buf with ⟨r, e1⟩ | e1
    · rcases noThrow_span buf (if r.ok then t.ty.size else buf.length) with ⟨rest, e2⟩ | e2
      · rcases noThrow_recTry host (ts.map (·.ty)) rest with ⟨vs, e3⟩ | e3
        · cases hf : fineResult t r <;> cases hg : fineResults ts vs <;> simp [guardBy, fineResults, hf, hg, ih, e1, e2, e3]
        · cases hf : fineResult t r <;> simp [guardBy, hf, ih, e1, e2, e3]
      · cases hf : fineResult t r <;> simp [guardBy, hf, e1, e2]
    · simp [e1]

private theorem recTryAt_val (host : Endian) (buf : List Nat) : ∀ (ts : List Values.ValTy) (pos : Nat),
    Values.recursiveTryReadAt host ts pos buf = Io.recursiveTryReadAt host (ts.map (·.ty)) pos buf >>= guardBy (fineResults ts) := by
  intro ts
  induction ts with
  | nil => intro buf; rfl
  | cons t ts ih =>
    intro pos
    rw [Values.recursiveTryReadAt, List.map_cons, Io.recursiveTryReadAt, tryAt_val]
    rcases noThrow_tryAt host t.ty pos buf with ⟨r, e1⟩ | e1
    · rcases noThrow_recTryAt host buf (ts.map (·.ty)) ((pos + t.ty.size) % sizeMod) with ⟨vs, e3⟩ | e3
      · cases hf : fineResult t r <;> cases hg : fineResults ts vs <;> simp [guardBy, fineResults, hf, hg, ih, e1, e3]
      · cases hf : fineResult t r <;> simp [guardBy, hf, ih, e1, e3]
    · simp [e1]

private theorem all_iff (t : Values.ValTy) (vs : List Obj) : vs.all (fine t) = true ↔ ¬∃ v ∈ vs, Bad t v := by
  simp only [List.all_eq_true, fine_iff, not_exists, not_and]

private theorem all_result_iff (t : Values.ValTy) (r : Result (List Obj) ReadError) :
    (match r with | .value vs => vs.all (fine t) | .error _ => true) = true ↔ ¬∃ vs, r = .value vs ∧ ∃ v ∈ vs, Bad t v := by
  cases r with
  | value vs => simp only [all_iff, Result.value.injEq, exists_eq_left']
  | error e => simp

/-- C200, reading from buffers: every reading function does what it does for types all of whose bytes are values (C29 to C40), except that it is undefined if
one of the objects it is about to return is a scalar whose bytes are no value of its type. -/
theorem c200_exact (host : Endian) (ts : List Values.ValTy) (t : Values.ValTy) (n pos : Nat) (buf : List Nat) :
    Checked (AnyBad ts) (Io.read host (ts.map (·.ty)) buf) (Values.readAll host ts buf) ∧
    Checked (AnyBad ts) (Io.readAt host (ts.map (·.ty)) pos buf) (Values.readAt host ts pos buf) ∧
    Checked (fun vs => ∃ v ∈ vs, Bad t v) (Io.readRange host t.ty n buf) (Values.readRange host t n buf) ∧
    Checked (fun vs => ∃ v ∈ vs, Bad t v) (Io.readRangeAt host t.ty n pos buf) (Values.readRangeAt host t n pos buf) :=
  ⟨checked_of (fineAll_iff ts) (readAll_eq host ts buf), checked_of (fineAll_iff ts) (readAt_val host ts pos buf),
    checked_of (all_iff t) (readRange_val host t n buf), checked_of (all_iff t) (readRangeAt_val host t n pos buf)⟩

/-- C200, reading from buffers without exceptions: the same.  A value that cannot be loaded is never reported as an error. -/
theorem c200_exact_try (host : Endian) (ts : List Values.ValTy) (t : Values.ValTy) (n pos : Nat) (buf : List Nat) :
    Checked (fun r => ∃ v, r = .value v ∧ Bad t v) (Io.tryRead host t.ty buf) (Values.tryRead host t buf) ∧
    Checked (fun r => ∃ v, r = .value v ∧ Bad t v) (Io.tryReadAt host t.ty pos buf) (Values.tryReadAt host t pos buf) ∧
    Checked (AnyBadResult ts) (Io.recursiveTryRead host (ts.map (·.ty)) buf) (Values.recursiveTryRead host ts buf) ∧
    Checked (AnyBadResult ts) (Io.recursiveTryReadAt host (ts.map (·.ty)) pos buf) (Values.recursiveTryReadAt host ts pos buf) ∧
    Checked (fun r => ∃ vs, r = .value vs ∧ ∃ v ∈ vs, Bad t v) (Io.tryReadRange host t.ty n buf) (Values.tryReadRange host t n buf) ∧
    Checked (fun r => ∃ vs, r = .value vs ∧ ∃ v ∈ vs, Bad t v) (Io.tryReadRangeAt host t.ty n pos buf) (Values.tryReadRangeAt host t n pos buf) :=
  ⟨checked_of (fineResult_iff t) (try_val host t buf), checked_of (fineResult_iff t) (tryAt_val host t pos buf),
    checked_of (fineResults_iff ts) (recTry_val host ts buf), checked_of (fineResults_iff ts) (recTryAt_val host buf ts pos),
    checked_of (all_result_iff t) (tryRange_val host t n buf), checked_of (all_result_iff t) (tryRangeAt_val host t n pos buf)⟩

private theorem advance_cases (n : Nat) (v : ReadView) :
    (∃ w, (ReadView.advance n : St ReadView PUnit.{1}).run v = (.ok ⟨⟩, w)) ∨ (ReadView.advance n : St ReadView PUnit.{1}).run v = (.ub, v) := by
  unfold ReadView.advance
  simp only [St.run]
  split
  · exact .inl ⟨_, rfl⟩
  · exact .inr rfl

private theorem view_eq (host : Endian) (ts : List Values.ValTy) (v : ReadView) :
    ((Values.viewRead host ts).run v).1 = ((ReadView.read host (ts.map (·.ty))).run v).1 >>= guardBy (fineAll ts) ∧
    (((Values.viewRead host ts).run v).1 ≠ .ub → ((Values.viewRead host ts).run v).2 = ((ReadView.read host (ts.map (·.ty))).run v).2) := by
  unfold Values.viewRead ReadView.read ReadView.rest
  simp only [St.run_bind, St.run_get, St.run_lift]
  rcases noThrow_span v.data v.pos with ⟨sp, e⟩ | e
  · simp only [e, readAll_eq]
    cases hr : Io.read host (ts.map (·.ty)) sp with
    | ok vs =>
      have hc := advance_cases (byteCountTys (ts.map (·.ty))) v
      simp only
      rcases hc with ⟨w, hw⟩ | hw <;> rw [hw] <;> cases hf : fineAll ts vs <;> simp [guardBy, hf, hw]
    | _ => simp
  · simp [e]

private theorem viewTry_eq (host : Endian) (ts : List Values.ValTy) (v : ReadView) :
    ((Values.viewTryRead host ts).run v).1 = ((ReadView.tryRead host (ts.map (·.ty))).run v).1 >>= guardBy (fineResults ts) ∧
    (((Values.viewTryRead host ts).run v).1 ≠ .ub → ((Values.viewTryRead host ts).run v).2 = ((ReadView.tryRead host (ts.map (·.ty))).run v).2) := by
  unfold Values.viewTryRead ReadView.tryRead ReadView.rest
  simp only [St.run_bind, St.run_get, St.run_lift]
  rcases noThrow_span v.data v.pos with ⟨sp, e⟩ | e
  · simp only [e, recTry_val]
    cases hr : Io.recursiveTryRead host (ts.map (·.ty)) sp with
    | ok vs =>
      have hc := advance_cases (min (byteCountTys (ts.map (·.ty))) (v.data.length - v.pos)) v
      simp only
      rcases hc with ⟨w, hw⟩ | hw <;> rw [hw] <;> cases hf : fineResults ts vs <;> simp [guardBy, hf, hw]
    | _ => simp
  · simp [e]

/-- C200, views: reading through a `byte_read_buffer_view` is undefined in the same cases, and otherwise gives the same and moves as far. -/
theorem c200_exact_views (host : Endian) (ts : List Values.ValTy) (v : ReadView) :
    Checked (AnyBad ts) ((ReadView.read host (ts.map (·.ty))).run v).1 ((Values.viewRead host ts).run v).1 ∧
    Checked (AnyBadResult ts) ((ReadView.tryRead host (ts.map (·.ty))).run v).1 ((Values.viewTryRead host ts).run v).1 ∧
    (((Values.viewRead host ts).run v).1 ≠ .ub → ((Values.viewRead host ts).run v).2 = ((ReadView.read host (ts.map (·.ty))).run v).2) ∧
    (((Values.viewTryRead host ts).run v).1 ≠ .ub → ((Values.viewTryRead host ts).run v).2 = ((ReadView.tryRead host (ts.map (·.ty))).run v).2) := by
  exact ⟨checked_of (fineAll_iff ts) (view_eq host ts v).1, checked_of (fineResults_iff ts) (viewTry_eq host ts v).1, (view_eq host ts v).2,
    (viewTry_eq host ts v).2⟩

/-- C200, streams: the same for `read<T>(stream)`, whatever state the stream is in. -/
theorem c200_exact_streams (t : Values.ValTy) (s : Ios.IStream) :
    Checked (Bad t) ((Ios.read t.ty.size).run s).1 ((Values.streamRead t).run s).1 ∧
    ((Values.streamRead t).run s).2 = ((Ios.read t.ty.size).run s).2 := by
  have e : (Values.streamRead t).run s = (((Ios.read t.ty.size).run s).1 >>= guardBy (fine t), ((Ios.read t.ty.size).run s).2) := by
    unfold Values.streamRead
    rw [St.run_bind]
    rcases h : (Ios.read t.ty.size).run s with ⟨r, s'⟩
    cases r with
    | ok o => simp [Values.load, guardBy, fine]
    | _ => simp
  exact ⟨checked_of (fine_iff t) (by rw [e]), by rw [e]⟩

private theorem hex_eq (t : Values.ValTy) (str : List Nat) :
    Values.unsafeFromHexChars true t str = Hex.unsafeFromHexChars t.ty.size str >>= guardBy (fine t) := by
  unfold Values.unsafeFromHexChars
  cases Hex.unsafeFromHexChars t.ty.size str with
  | ok o => simp [Values.load, guardBy, fine]
  | _ => rfl

/-- C200, hexadecimal text: the same for `from_hex_chars` and `try_from_hex_chars`; the latter never reports a value that cannot be loaded as an error. -/
theorem c200_exact_hex (t : Values.ValTy) (str : List Nat) :
    Checked (Bad t) (Hex.fromHexChars t.ty.size str) (Values.fromHexChars true t str) ∧
    Checked (fun r => ∃ v, r = .value v ∧ Bad t v) (Hex.tryFromHexChars t.ty.size str) (Values.tryFromHexChars true t str) := by
  refine ⟨checked_of (fine_iff t) ?_, checked_of (g := fun r => match r with | .value v => fine t v | .error _ => true) ?_ ?_⟩
  · unfold Values.fromHexChars Hex.fromHexChars
    split
    · rfl
    · split
      · rfl
      · exact hex_eq t str
  · intro r
    cases r with
    | value v => simp [fine_iff]
    | error e => simp
  · unfold Values.tryFromHexChars Hex.tryFromHexChars
    split
    · rfl
    · split
      · rfl
      · rw [hex_eq]
        cases Hex.unsafeFromHexChars t.ty.size str with
        | ok o => cases hf : fine t o <;> simp [guardBy, hf]
        | _ => rfl

private theorem no_bad {t : Values.ValTy} (h : AllValues t) (o : Obj) : ¬Bad t o := fun hb => by
  have := h o
  rw [hb.2] at this
  exact Bool.false_ne_true this

/-- C200 for types all of whose bytes are values, integers for example: whatever the bytes, no read is undefined on account of them.
Missing: types with bytes that are no values, for which it is false. -/
theorem c200_integers_partial (host : Endian) (ts : List Values.ValTy) (t : Values.ValTy) (n pos : Nat) (buf : List Nat) (v : ReadView) (s : Ios.IStream)
    (str : List Nat) (hts : ∀ u ∈ ts, AllValues u) (ht : AllValues t) :
    Values.readAll host ts buf = Io.read host (ts.map (·.ty)) buf ∧
    Values.readAt host ts pos buf = Io.readAt host (ts.map (·.ty)) pos buf ∧
    Values.readRange host t n buf = Io.readRange host t.ty n buf ∧
    Values.readRangeAt host t n pos buf = Io.readRangeAt host t.ty n pos buf ∧
    Values.tryRead host t buf = Io.tryRead host t.ty buf ∧
    Values.tryReadAt host t pos buf = Io.tryReadAt host t.ty pos buf ∧
    Values.recursiveTryRead host ts buf = Io.recursiveTryRead host (ts.map (·.ty)) buf ∧
    Values.recursiveTryReadAt host ts pos buf = Io.recursiveTryReadAt host (ts.map (·.ty)) pos buf ∧
    Values.tryReadRange host t n buf = Io.tryReadRange host t.ty n buf ∧
    Values.tryReadRangeAt host t n pos buf = Io.tryReadRangeAt host t.ty n pos buf ∧
    ((Values.viewRead host ts).run v).1 = ((ReadView.read host (ts.map (·.ty))).run v).1 ∧
    ((Values.viewTryRead host ts).run v).1 = ((ReadView.tryRead host (ts.map (·.ty))).run v).1 ∧
    (Values.streamRead t).run s = (Ios.read t.ty.size).run s ∧
    Values.fromHexChars true t str = Hex.fromHexChars t.ty.size str ∧
    Values.tryFromHexChars true t str = Hex.tryFromHexChars t.ty.size str := by
  have many : ∀ vs, ¬AnyBad ts vs := fun vs ⟨i, u, w, hu, _, hb⟩ => no_bad (hts u (List.mem_of_getElem? hu)) w hb
  have results : ∀ rs, ¬AnyBadResult ts rs := fun rs ⟨i, u, w, hu, _, hb⟩ => no_bad (hts u (List.mem_of_getElem? hu)) w hb
  have elems : ∀ vs : List Obj, ¬∃ v ∈ vs, Bad t v := fun vs ⟨w, _, hb⟩ => no_bad ht w hb
  have one : ∀ (r : Result Obj ReadError), ¬∃ v, r = .value v ∧ Bad t v := fun r ⟨w, _, hb⟩ => no_bad ht w hb
  have ranges : ∀ r : Result (List Obj) ReadError, ¬∃ vs, r = .value vs ∧ ∃ v ∈ vs, Bad t v := fun r ⟨vs, _, h⟩ => elems vs h
  obtain ⟨a1, a2, a3, a4⟩ := c200_exact host ts t n pos buf
  obtain ⟨b1, b2, b3, b4, b5, b6⟩ := c200_exact_try host ts t n pos buf
  obtain ⟨d1, d2, -, -⟩ := c200_exact_views host ts v
  obtain ⟨e1, e2⟩ := c200_exact_streams t s
  obtain ⟨f1, f2⟩ := c200_exact_hex t str
  exact ⟨a1.2 fun _ _ => many _, a2.2 fun _ _ => many _, a3.2 fun _ _ => elems _, a4.2 fun _ _ => elems _, b1.2 fun _ _ => one _, b2.2 fun _ _ => one _,
    b3.2 fun _ _ => results _, b4.2 fun _ _ => results _, b5.2 fun _ _ => ranges _, b6.2 fun _ _ => ranges _, d1.2 fun _ _ => many _,
    d2.2 fun _ _ => results _, Prod.ext (e1.2 fun _ _ => no_bad ht _) e2, f1.2 fun _ _ => no_bad ht _,
    f2.2 fun _ _ ⟨w, _, hb⟩ => no_bad ht w hb⟩

/-- C200 for what the library itself wrote: values of any types written with `write_at` are read back, all of them values.
Missing: bytes from anywhere else, for which it is false. -/
theorem c200_written_partial (host : Endian) (xs : List (Values.ValTy × Obj)) (pos : Nat) (buf : List Nat)
    (hx : ∀ p ∈ xs, p.2.length = p.1.ty.size ∧ (∀ b ∈ p.2, IsByte b) ∧ p.1.isValue p.2 = true) (hb : ∀ b ∈ buf, IsByte b)
    (hfit : pos + totalSize (xs.map fun p => .single p.1.ty.enc p.2) ≤ buf.length) (hlen : buf.length < 2 ^ 64) :
    ∃ n buf', (writeAt host pos (xs.map fun p => .single p.1.ty.enc p.2)).run buf = (.ok n, buf') ∧
      Values.readAt host (xs.map Prod.fst) pos buf' = .ok (xs.map Prod.snd) := by
  have hm : (xs.map fun p => (p.1.ty.enc, p.2)).map (fun p => WVal.single p.1 p.2) = xs.map fun p => .single p.1.ty.enc p.2 := by
    simp [Function.comp_def]
  obtain ⟨n, buf', hw, hr⟩ := c29_write_at_then_read_at host (xs.map fun p => (p.1.ty.enc, p.2)) pos buf
    (by intro p hp; obtain ⟨q, hq, rfl⟩ := List.mem_map.mp hp; exact (hx q hq).2.1) hb (by rw [hm]; exact hfit) hlen
  rw [hm] at hw
  refine ⟨n, buf', hw, ?_⟩
  have hty : (xs.map fun p => (p.1.ty.enc, p.2)).map (fun p => (⟨p.2.length, p.1⟩ : Ty)) = (xs.map Prod.fst).map (·.ty) := by
    rw [List.map_map, List.map_map]
    refine List.map_congr_left fun p hp => ?_
    simp only [Function.comp, (hx p hp).1]
  rw [hty] at hr
  have hs : (xs.map fun p => (p.1.ty.enc, p.2)).map Prod.snd = xs.map Prod.snd := by simp [Function.comp_def]
  rw [hs] at hr
  rw [← hr]
  refine (c200_exact host (xs.map Prod.fst) Values.boolTy 0 pos buf').2.1.2 ?_
  rintro vs hvs ⟨i, t, v, ht, hv, hbad⟩
  rw [hr] at hvs
  cases hvs
  rw [List.getElem?_map] at ht hv
  cases hi : xs[i]? with
  | none => simp [hi] at ht
  | some p =>
    rw [hi] at ht hv
    simp only [Option.map_some, Option.some.injEq] at ht hv
    have := (hx p (List.mem_of_getElem? hi)).2.2
    rw [ht, hv, hbad.2] at this
    exact Bool.false_ne_true this

private theorem total_split {ts : List Values.ValTy} {i : Nat} {t : Values.ValTy} (h : ts[i]? = some t) :
    totalTySize ((ts.map (·.ty)).take i) + t.ty.size ≤ totalTySize (ts.map (·.ty)) := by
  induction ts generalizing i with
  | nil => simp at h
  | cons u ts ih =>
    cases i with
    | zero => simp at h; subst h; simp [totalTySize]
    | succ i =>
      have := ih (by simpa using h)
      simp only [totalTySize, List.map_cons, List.take_succ_cons, List.sum_cons] at this ⊢
      omega

/-- C200 fails for every list of types with a scalar among them that has bytes which are no value, and every buffer that is long enough: with those bytes in the
place of that scalar `read` and the multi-value `try_read` are undefined. -/
theorem c200_refuted_read (host : Endian) (ts : List Values.ValTy) (i : Nat) (t : Values.ValTy) (o : Obj) (buf : List Nat) (hi : ts[i]? = some t)
    (hbad : Bad t o) (hl : o.length = t.ty.size) (ho : ∀ b ∈ o, IsByte b) (hb : ∀ b ∈ buf, IsByte b) (hpos : ∀ u ∈ ts, 0 < u.ty.size)
    (hfit : totalTySize (ts.map (·.ty)) ≤ buf.length) (hlen : buf.length < 2 ^ 64) :
    Values.readAll host ts (overwrite buf (totalTySize ((ts.map (·.ty)).take i)) (encode host t.ty.enc o)) = .ub ∧
    Values.recursiveTryRead host ts (overwrite buf (totalTySize ((ts.map (·.ty)).take i)) (encode host t.ty.enc o)) = .ub := by
  have hsplit := total_split hi
  have he := encode_length (host := host) (enc := t.ty.enc) ho
  have hfit' : totalTySize ((ts.map (·.ty)).take i) + (encode host t.ty.enc o).length ≤ buf.length := by rw [he, hl]; omega
  have hbytes := overwrite_isByte (pos := totalTySize ((ts.map (·.ty)).take i)) hb (encode_isByte (host := host) (enc := t.ty.enc) ho)
  have hti : (ts.map (·.ty))[i]? = some t.ty := by rw [List.getElem?_map, hi]; rfl
  have hfield : decode host t.ty.enc (((overwrite buf (totalTySize ((ts.map (·.ty)).take i)) (encode host t.ty.enc o)).drop
      (totalTySize ((ts.map (·.ty)).take i))).take t.ty.size) = o := by
    have h := take_drop_overwrite hfit'
    rw [he, hl] at h
    rw [h, decode_encode ho]
  have hlen' : (overwrite buf (totalTySize ((ts.map (·.ty)).take i)) (encode host t.ty.enc o)).length = buf.length := overwrite_length hfit'
  constructor
  · obtain ⟨vals, hv, -, hg⟩ := (c32_read host (ts.map (·.ty)) _ hbytes (by omega)).2 (by omega)
    have := hg i t.ty hti
    rw [hfield] at this
    exact (c200_exact host ts t 0 0 _).1.1 vals hv ⟨i, t, o, hi, this, hbad⟩
  · obtain ⟨rs, hr, -, hg⟩ := c35_multi_try_read host (ts.map (·.ty)) _ hbytes
      (by intro u hu; obtain ⟨w, hw, rfl⟩ := List.mem_map.mp hu; exact hpos w hw)
    have := hg i t.ty hti
    rw [hfield, if_pos (by
      have h2 : totalTySize ((ts.map (·.ty)).take (i + 1)) ≤ totalTySize ((ts.map (·.ty)).take i) + t.ty.size := by
        rw [List.take_add_one, hti]
        simp [totalTySize]
      omega)] at this
    exact (c200_exact_try host ts t 0 0 _).2.2.1.1 rs hr ⟨i, t, o, hi, this, hbad⟩

/-- C200 fails for ranges: one element whose bytes are no value, anywhere in the range and at any position of the buffer. -/
theorem c200_refuted_ranges (host : Endian) (t : Values.ValTy) (n pos i : Nat) (buf : List Nat) (hi : i < n) (hb : ∀ b ∈ buf, IsByte b)
    (hfit : pos + n * t.ty.size ≤ buf.length) (hlen : buf.length < 2 ^ 64)
    (hbad : Bad t (decode host t.ty.enc ((buf.drop (pos + i * t.ty.size)).take t.ty.size))) : Values.readRangeAt host t n pos buf = .ub := by
  obtain ⟨vals, hv, -, hg⟩ := (c40_range_at host t.ty n pos buf hb (by omega) (by omega) hlen).1 hfit
  exact (c200_exact host [] t n pos buf).2.2.2.1 vals hv ⟨_, List.mem_of_getElem? (hg i hi), hbad⟩

/-- C200 fails silently for classes: an object whose bytes are no value, for a class with a `bool` in it that is neither true nor false, is read without complaint
by both kinds of functions. -/
theorem c200_refuted_classes (host : Endian) (t : Values.ValTy) (o : Obj) (rest : List Nat) (hc : t.cls = true) (hl : o.length = t.ty.size)
    (ho : ∀ b ∈ o, IsByte b) (hr : ∀ b ∈ rest, IsByte b) (hsz : t.ty.size < 2 ^ 64) :
    Values.readAll host [t] (encode host t.ty.enc o ++ rest) = .ok [o] ∧ Values.tryRead host t (encode host t.ty.enc o ++ rest) = .ok (.value o) := by
  have hb : ∀ b ∈ encode host t.ty.enc o ++ rest, IsByte b := by
    intro b hb
    rcases List.mem_append.mp hb with h | h
    · exact encode_isByte ho b h
    · exact hr b h
  have he := encode_length (host := host) (enc := t.ty.enc) ho
  have hfield : decode host t.ty.enc ((encode host t.ty.enc o ++ rest).take t.ty.size) = o := by
    rw [← hl, ← he, List.take_left, decode_encode ho]
  have nb : ∀ v, ¬Bad t v := fun v h => Bool.false_ne_true (h.1.symm.trans hc)
  have hread : Io.read host [t.ty] (encode host t.ty.enc o ++ rest) = .ok [o] := by
    rw [read_eq hb (by simpa [totalTySize] using hsz), if_neg (by simp [totalTySize, he, hl]), decodeSeq, decodeSeq, hfield]
  have htry : Io.tryRead host t.ty (encode host t.ty.enc o ++ rest) = .ok (.value o) := by
    rw [tryRead_eq hb, if_neg (by simp [he, hl]), hfield]
  refine ⟨?_, ?_⟩
  · rw [← hread]
    refine (c200_exact host [t] t 0 0 _).1.2 ?_
    rintro vs - ⟨i, u, w, hu, -, hbad⟩
    cases i with
    | zero => simp at hu; subst hu; exact nb w hbad
    | succ i => simp at hu
  · rw [← htry]
    exact (c200_exact_try host [t] t 0 0 _).1.2 fun _ _ ⟨w, _, hbad⟩ => nb w hbad

/-- C200 for `bool` in hexadecimal, exactly: of the texts of two digits only those that mean 0 and 1 give a value, and all others are undefined, also for
`try_from_hex_chars`, which reports errors for texts that are no two digits. -/
theorem c200_refuted_hex (str : List Nat) :
    (∀ b, denote str = some [b] → b ≤ 1 → Values.fromHexChars true Values.boolTy str = .ok [b] ∧
      Values.tryFromHexChars true Values.boolTy str = .ok (.value [b])) ∧
    (∀ b, denote str = some [b] → 2 ≤ b → Values.fromHexChars true Values.boolTy str = .ub ∧
      Values.tryFromHexChars true Values.boolTy str = .ub) := by
  have base : ∀ b, denote str = some [b] → Hex.fromHexChars 1 str = .ok [b] ∧ Hex.tryFromHexChars 1 str = .ok (.value [b]) := by
    intro b hd
    have hl : str.length = 2 * 1 := by simpa using Hex.denote_length hd
    have hv := (Hex.isAllValid_iff str).2 ((Hex.denote_isSome_iff str).1 ⟨_, hd⟩).2
    have hu : Hex.unsafeFromHexChars 1 str = .ok [b] := Hex.unsafeFromHexChars_denote hd
    exact ⟨by simp [Hex.fromHexChars, hl, hv, hu], by simp [Hex.tryFromHexChars, hl, hv, hu]⟩
  have fineb : ∀ b, b ≤ 1 → ¬Bad Values.boolTy [b] := by
    intro b hb h
    have := h.2
    have hb' : b = 0 ∨ b = 1 := by omega
    rcases hb' with rfl | rfl <;> simp [Values.boolTy] at this
  have badb : ∀ b, 2 ≤ b → Bad Values.boolTy [b] := by
    intro b hb
    refine ⟨rfl, ?_⟩
    simp only [Values.boolTy, List.cons.injEq, and_true, Bool.or_eq_false_iff, decide_eq_false_iff_not]
    omega
  obtain ⟨h1, h2⟩ := c200_exact_hex Values.boolTy str
  refine ⟨fun b hd hb => ?_, fun b hd hb => ?_⟩
  · obtain ⟨e1, e2⟩ := base b hd
    refine ⟨(h1.2 fun a ha => ?_).trans e1, (h2.2 fun a ha => ?_).trans e2⟩
    · rw [show Values.boolTy.ty.size = 1 from rfl, e1] at ha
      cases ha
      exact fineb b hb
    · rw [show Values.boolTy.ty.size = 1 from rfl, e2] at ha
      cases ha
      rintro ⟨v, hv, hbad⟩
      cases hv
      exact fineb b hb hbad
  · obtain ⟨e1, e2⟩ := base b hd
    exact ⟨h1.1 _ e1 (badb b hb), h2.1 _ e2 ⟨_, rfl, badb b hb⟩⟩

/-- C200 fails for `from_hex_chars` of a type that is not trivially copyable, which compiles: every text that is accepted is undefined. -/
theorem c200_refuted_unconstrained (t : Values.ValTy) (str : List Nat) (hs : str.length = 2 * t.ty.size) (hv : ∀ c ∈ str, IsHexDigit c) :
    Values.fromHexChars false t str = .ub ∧ Values.tryFromHexChars false t str = .ub := by
  have hv' := (Hex.isAllValid_iff str).2 hv
  have hu : Values.unsafeFromHexChars false t str = .ub := by
    unfold Values.unsafeFromHexChars
    obtain ⟨bs, hd, hn⟩ := Hex.denote_of_valid hs hv
    have hu := Hex.unsafeFromHexChars_denote hd
    rw [hn] at hu
    simp [hu]
  simp [Values.fromHexChars, Values.tryFromHexChars, hs, hv', hu]

/-- C200 fails for streams: `read<bool>` of a good stream whose next byte is not 0 or 1. -/
theorem c200_refuted_streams (s : Ios.IStream) (b : Nat) (rest : List Nat) (hg : s.state.good = true) (hl : s.left = b :: rest) (hb : 2 ≤ b) :
    ((Values.streamRead Values.boolTy).run s).1 = .ub := by
  refine (c200_exact_streams Values.boolTy s).1.1 [b] ?_ ⟨rfl, ?_⟩
  · have h : (Ios.IStream.readSome 1).run s = (.ok [b], { s with left := rest }) := by
      simp [St.run, Ios.IStream.readSome, hg, hl]
    have : (Ios.read 1).run s = (.ok [b], { s with left := rest }) := by
      rw [Ios.read, St.run_bind_ok h]
      rfl
    exact congrArg Prod.fst this
  · simp only [Values.boolTy, List.cons.injEq, and_true, Bool.or_eq_false_iff, decide_eq_false_iff_not]
    omega

/- The example of the README: four bytes, two bytes, a `bool`, four bytes.  A 2 in the place of the `bool` is undefined. -/
private def readme : List Values.ValTy := [Values.intTy 4 .native, Values.intTy 2 .bigEndian, Values.boolTy, Values.intTy 4 .native]

example : Values.readAll .little readme [1, 0, 0, 0, 0, 5, 1, 9, 0, 0, 0] = .ok [[1, 0, 0, 0], [5, 0], [1], [9, 0, 0, 0]] := by decide
example : Values.readAll .little readme [1, 0, 0, 0, 0, 5, 2, 9, 0, 0, 0] = .ub := by decide
example : ((Values.viewTryRead .little readme).run ⟨[1, 0, 0, 0, 0, 5, 255, 9, 0, 0, 0], 0⟩).1 = .ub := by decide
example : Bad Values.boolTy [2] ∧ ¬Bad Values.boolTy [1] ∧ AllValues (Values.intTy 4 .bigEndian) := ⟨⟨rfl, rfl⟩, by simp [Bad, Values.boolTy], fun _ => rfl⟩
example : Values.fromHexChars true Values.boolTy [48, 49] = .ok [1] ∧ Values.tryFromHexChars true Values.boolTy [102, 102] = .ub := by decide

end Wite.Props
