import Verif.Model.NumericRef
import Verif.Props.Numeric
import Mathlib.Tactic.ByContra

/-!
# Properties C141–C142: what the results of `min`, `max` and `minmax` refer to; arguments that are NaN
-/

namespace Wite.Props

open Wite Wite.Maths

/-! ## C141 -/

section C141

variable {α : Type}

private theorem load_some {st : Ref.Store α} {c : Nat} {v : α} (h : st c = some v) : Ref.load st c = .ok v := by
  simp [Ref.load, h]

private theorem loadAll_some {st : Ref.Store α} : ∀ {as : List Ref.Arg} {vs : List α},
    as.map (fun a => st a.cell) = vs.map some → Ref.loadAll st as = .ok vs := by
  intro as
  induction as with
  | nil =>
    intro vs h
    cases vs with
    | nil => rfl
    | cons => simp at h
  | cons a as ih =>
    intro vs h
    cases vs with
    | nil => simp at h
    | cons v vs =>
      simp only [List.map_cons, List.cons.injEq] at h
      simp only [Ref.loadAll, load_some h.1, ih h.2]
      rfl

private theorem refMin_some [LT α] [DecidableLT α] {st : Ref.Store α} : ∀ {cs : List Nat} {vs : List α} {a b : Nat} {x y : α},
    st a = some x → st b = some y → cs.map st = vs.map some →
    ∃ c ∈ a :: b :: cs, Ref.refMin st a b cs = .ok c ∧ st c = some (vmin x y vs) := by
  intro cs
  induction cs with
  | nil =>
    intro vs a b x y ha hb h
    cases vs with
    | cons => simp at h
    | nil =>
      refine ⟨if y < x then b else a, by split <;> simp, ?_, ?_⟩
      · simp only [Ref.refMin, Ref.cellMin, load_some ha, load_some hb]; rfl
      · simp only [vmin, stdMin]; split <;> assumption
  | cons c cs ih =>
    intro vs a b x y ha hb h
    cases vs with
    | nil => simp at h
    | cons v vs =>
      simp only [List.map_cons, List.cons.injEq] at h
      obtain ⟨r, hr, h1, h2⟩ := ih hb h.1 h.2
      refine ⟨if vmin y v vs < x then r else a, ?_, ?_, ?_⟩
      · split
        · exact List.mem_cons_of_mem _ hr
        · simp
      · simp only [Ref.refMin, h1, Ref.cellMin]
        change (do let x ← Ref.load st a; let y ← Ref.load st r; pure (if y < x then r else a) : Outcome Nat) = _
        rw [load_some ha, load_some h2]; rfl
      · simp only [vmin, stdMin]; split <;> assumption

private theorem refMax_some [LT α] [DecidableLT α] {st : Ref.Store α} : ∀ {cs : List Nat} {vs : List α} {a b : Nat} {x y : α},
    st a = some x → st b = some y → cs.map st = vs.map some →
    ∃ c ∈ a :: b :: cs, Ref.refMax st a b cs = .ok c ∧ st c = some (vmax x y vs) := by
  intro cs
  induction cs with
  | nil =>
    intro vs a b x y ha hb h
    cases vs with
    | cons => simp at h
    | nil =>
      refine ⟨if x < y then b else a, by split <;> simp, ?_, ?_⟩
      · simp only [Ref.refMax, Ref.cellMax, load_some ha, load_some hb]; rfl
      · simp only [vmax, stdMax]; split <;> assumption
  | cons c cs ih =>
    intro vs a b x y ha hb h
    cases vs with
    | nil => simp at h
    | cons v vs =>
      simp only [List.map_cons, List.cons.injEq] at h
      obtain ⟨r, hr, h1, h2⟩ := ih hb h.1 h.2
      refine ⟨if x < vmax y v vs then r else a, ?_, ?_, ?_⟩
      · split
        · exact List.mem_cons_of_mem _ hr
        · simp
      · simp only [Ref.refMax, h1, Ref.cellMax]
        change (do let x ← Ref.load st a; let y ← Ref.load st r; pure (if x < y then r else a) : Outcome Nat) = _
        rw [load_some ha, load_some h2]; rfl
      · simp only [vmax, stdMax]; split <;> assumption

/-- The pair is made of a smallest and a largest of the values. -/
def Extremes [LE α] (vs : List α) (p : α × α) : Prop :=
  p.1 ∈ vs ∧ p.2 ∈ vs ∧ ∀ x ∈ vs, p.1 ≤ x ∧ x ≤ p.2

private theorem extremes_vminmax [LinearOrder α] (x y : α) (vs : List α) :
    Extremes (x :: y :: vs) (vmin x y vs, vmax x y vs) := (c74_minmax x y vs).1

private theorem map_cell (st : Ref.Store α) (rest : List Ref.Arg) :
    (rest.map Ref.Arg.cell).map st = rest.map (fun a => st a.cell) := by simp [Function.comp_def]

private theorem mem_cells {a b : Ref.Arg} {rest : List Ref.Arg} {c : Nat} (h : c ∈ a.cell :: b.cell :: rest.map Ref.Arg.cell) :
    ∃ d ∈ a :: b :: rest, d.cell = c := by
  have : c ∈ (a :: b :: rest).map Ref.Arg.cell := by simpa using h
  exact List.mem_map.1 this

/-- What `minmax` returns: for each overload, by the values of the arguments. -/
private theorem minmax_ok [LinearOrder α] (plain : Bool) (st : Ref.Store α) (a b : Ref.Arg) (rest : List Ref.Arg)
    (x y : α) (vs : List α) (ha : st a.cell = some x) (hb : st b.cell = some y)
    (hr : rest.map (fun c => st c.cell) = vs.map some) :
    (Ref.form plain a b rest = .values ∧ Ref.minmax plain st a b rest = .ok (.vals (vmin x y vs) (vmax x y vs))) ∨
    (Ref.form plain a b rest ≠ .values ∧ ∃ lo ∈ a :: b :: rest, ∃ hi ∈ a :: b :: rest,
      Ref.minmax plain st a b rest = .ok (.refs lo.cell hi.cell) ∧
      st lo.cell = some (vmin x y vs) ∧ st hi.cell = some (vmax x y vs)) := by
  cases hf : Ref.form plain a b rest with
  | values =>
    left
    refine ⟨rfl, ?_⟩
    simp only [Ref.minmax, hf, load_some ha, load_some hb, loadAll_some hr]
    rfl
  | two =>
    right
    have hrest : rest = [] := by
      unfold Ref.form at hf
      split at hf
      · rename_i h; exact h.1
      · split at hf <;> simp at hf
    subst hrest
    have hvs : vs = [] := by cases vs <;> simp_all
    subst hvs
    have hm : Ref.minmax plain st a b [] = .ok (if x ≤ y then .refs a.cell b.cell else .refs b.cell a.cell) := by
      simp only [Ref.minmax, hf, load_some ha, load_some hb]; rfl
    have hv := (c74_minmax x y []).2
    simp only [minmax2, vminmax] at hv
    refine ⟨by simp, ?_⟩
    by_cases hxy : x ≤ y
    · rw [if_pos hxy, Prod.mk.injEq] at hv
      refine ⟨a, by simp, b, by simp, by rw [hm, if_pos hxy], by rw [← hv.1]; exact ha, by rw [← hv.2]; exact hb⟩
    · rw [if_neg hxy, Prod.mk.injEq] at hv
      refine ⟨b, by simp, a, by simp, by rw [hm, if_neg hxy], by rw [← hv.1]; exact hb, by rw [← hv.2]; exact ha⟩
  | refs =>
    right
    refine ⟨by simp, ?_⟩
    obtain ⟨lo, hlo, h1, h2⟩ := refMin_some ha hb ((map_cell st rest).trans hr)
    obtain ⟨hi, hhi, h3, h4⟩ := refMax_some ha hb ((map_cell st rest).trans hr)
    obtain ⟨lo, hlo', rfl⟩ := mem_cells hlo
    obtain ⟨hi, hhi', rfl⟩ := mem_cells hhi
    refine ⟨lo, hlo', hi, hhi', ?_, h2, h4⟩
    simp only [Ref.minmax, hf, h1, h3]
    rfl

/-- C141: used within the same expression, the pair of `minmax` is a smallest and a largest argument, whatever the
type and however the arguments are passed. -/
theorem c141_immediate_partial [LinearOrder α] (plain : Bool) (st : Ref.Store α) (a b : Ref.Arg) (rest : List Ref.Arg)
    (x y : α) (vs : List α) (ha : st a.cell = some x) (hb : st b.cell = some y)
    (hr : rest.map (fun c => st c.cell) = vs.map some) :
    ∃ r p, Ref.minmax plain st a b rest = .ok r ∧ r.read st = .ok p ∧ Extremes (x :: y :: vs) p := by
  rcases minmax_ok plain st a b rest x y vs ha hb hr with ⟨-, h⟩ | ⟨-, lo, -, hi, -, h, h1, h2⟩
  · exact ⟨_, _, h, rfl, extremes_vminmax x y vs⟩
  · refine ⟨_, _, h, ?_, extremes_vminmax x y vs⟩
    simp only [Ref.MinMax.read, load_some h1, load_some h2]; rfl

/-- C141, values: for a plain type, with three or more arguments, or with two of which one is a temporary, or of which
exactly one is `const`, the pair keeps its values whatever happens to the objects afterwards. -/
theorem c141_values_partial [LinearOrder α] (st : Ref.Store α) (a b : Ref.Arg) (rest : List Ref.Arg)
    (x y : α) (vs : List α) (ha : st a.cell = some x) (hb : st b.cell = some y)
    (hr : rest.map (fun c => st c.cell) = vs.map some)
    (hf : rest ≠ [] ∨ a.temporary = true ∨ b.temporary = true ∨ a.isConst ≠ b.isConst) :
    ∃ r p, Ref.minmax true st a b rest = .ok r ∧ Extremes (x :: y :: vs) p ∧ ∀ later : Ref.Store α, r.read later = .ok p := by
  have hform : Ref.form true a b rest = .values := by
    unfold Ref.form
    rw [if_neg]
    · simp
    · rintro ⟨h1, h2, h3, h4⟩
      simp only [true_and] at h4
      rcases hf with h | h | h | h
      · exact h h1
      · exact h4 h
      · exact h4 (h2.trans h)
      · exact h h3
  rcases minmax_ok true st a b rest x y vs ha hb hr with ⟨-, h⟩ | ⟨h, -⟩
  · exact ⟨_, _, h, extremes_vminmax x y vs, fun _ => rfl⟩
  · exact absurd hform h

/-- C141 fails for two variables: even for plain types the pair refers to them.  After new values are assigned the pair
has these, in the order the old ones had. -/
theorem c141_refuted_assigned [LinearOrder α] (plain : Bool) (st : Ref.Store α) (a b : Ref.Arg) (x y x' y' : α)
    (ha : st a.cell = some x) (hb : st b.cell = some y) (hne : a.cell ≠ b.cell)
    (hta : a.temporary = false) (htb : b.temporary = false) (hc : a.isConst = b.isConst) :
    ∃ r, Ref.minmax plain st a b [] = .ok r ∧
      r.read (Ref.assign (Ref.assign st a.cell x') b.cell y') = .ok (if x ≤ y then (x', y') else (y', x')) ∧
      (x ≤ y → y' < x' → ¬ Extremes [x, y] (x', y') ∧ ¬ Extremes [x', y'] (x', y')) := by
  have hform : Ref.form plain a b [] = .two := by simp [Ref.form, hta, htb, hc]
  have h1 : (Ref.assign (Ref.assign st a.cell x') b.cell y') a.cell = some x' := by simp [Ref.assign, hne]
  have h2 : (Ref.assign (Ref.assign st a.cell x') b.cell y') b.cell = some y' := by simp [Ref.assign]
  refine ⟨if x ≤ y then .refs a.cell b.cell else .refs b.cell a.cell, ?_, ?_, ?_⟩
  · simp only [Ref.minmax, hform, load_some ha, load_some hb]; rfl
  · split <;> simp only [Ref.MinMax.read, load_some h1, load_some h2] <;> rfl
  · intro hxy hlt
    refine ⟨fun h => ?_, fun h => ?_⟩
    · have h3 := (h.2.2 x (by simp))
      exact absurd (le_trans h3.1 h3.2) (not_le.2 hlt)
    · have h3 := (h.2.2 x' (by simp))
      exact absurd h3.2 (not_le.2 hlt)

private theorem endExpr_temp {st : Ref.Store α} {args : List Ref.Arg} {d : Ref.Arg} (hd : d ∈ args) (ht : d.temporary = true) :
    Ref.endExpr args st d.cell = none := by
  unfold Ref.endExpr
  rw [if_pos]
  rw [List.any_eq_true]
  exact ⟨d, hd, by simp [ht]⟩

private theorem read_refs_none {st : Ref.Store α} {lo hi : Nat} (h : st lo = none ∨ st hi = none) :
    (Ref.MinMax.refs (α := α) lo hi).read st = .ub := by
  simp only [Ref.MinMax.read, Ref.load]
  rcases h with h | h
  · simp only [h]; rfl
  · cases hl : st lo
    · rfl
    · simp only [h]; rfl

/-- C141 fails for temporaries of a type that is not plain: if every argument that is smallest, or every one that is
largest, is a temporary, using the pair after the expression is undefined. -/
theorem c141_refuted_temporaries [LinearOrder α] (st : Ref.Store α) (a b : Ref.Arg) (rest : List Ref.Arg)
    (x y : α) (vs : List α) (ha : st a.cell = some x) (hb : st b.cell = some y)
    (hr : rest.map (fun c => st c.cell) = vs.map some)
    (hsep : (∀ d ∈ a :: b :: rest, ∀ v, st d.cell = some v → (∀ w ∈ x :: y :: vs, v ≤ w) → d.temporary = true) ∨
      (∀ d ∈ a :: b :: rest, ∀ v, st d.cell = some v → (∀ w ∈ x :: y :: vs, w ≤ v) → d.temporary = true)) :
    ∃ r, Ref.minmax false st a b rest = .ok r ∧ r.read (Ref.endExpr (a :: b :: rest) st) = .ub := by
  have hform : Ref.form false a b rest ≠ .values := by unfold Ref.form; split <;> simp
  rcases minmax_ok false st a b rest x y vs ha hb hr with ⟨h, -⟩ | ⟨-, lo, hlo, hi, hhi, h, h1, h2⟩
  · exact absurd h hform
  · refine ⟨_, h, read_refs_none ?_⟩
    rcases hsep with hs | hs
    · left; exact endExpr_temp hlo (hs lo hlo _ h1 (fun w hw => ((c74_min x y vs).2 w hw)))
    · right; exact endExpr_temp hhi (hs hi hhi _ h2 (fun w hw => ((c74_max x y vs).2 w hw)))

/-- C141, no temporaries (which occupy no cell of a variable): the pair can be used after the expression, as long as the
objects live and are not changed. -/
theorem c141_variables_partial [LinearOrder α] (plain : Bool) (st : Ref.Store α) (a b : Ref.Arg) (rest : List Ref.Arg)
    (x y : α) (vs : List α) (ha : st a.cell = some x) (hb : st b.cell = some y)
    (hr : rest.map (fun c => st c.cell) = vs.map some) (hv : ∀ d ∈ a :: b :: rest, d.temporary = false) :
    ∃ r p, Ref.minmax plain st a b rest = .ok r ∧ r.read (Ref.endExpr (a :: b :: rest) st) = .ok p ∧
      Extremes (x :: y :: vs) p := by
  have he : Ref.endExpr (a :: b :: rest) st = st := by
    funext c
    unfold Ref.endExpr
    rw [if_neg]
    intro h
    obtain ⟨d, hd, h1⟩ := List.any_eq_true.1 h
    simp [hv d hd] at h1
  rw [he]
  exact c141_immediate_partial plain st a b rest x y vs ha hb hr

/-- C141, `min` and `max`: whenever the call compiles, the result can be used after the expression and is a smallest (a
largest) argument; for plain types and for temporaries it stays so whatever happens to the objects. -/
theorem c141_min_max_partial [LinearOrder α] (plain : Bool) (st : Ref.Store α) (a b : Ref.Arg) (rest : List Ref.Arg)
    (x y : α) (vs : List α) (ha : st a.cell = some x) (hb : st b.cell = some y)
    (hr : rest.map (fun c => st c.cell) = vs.map some) (hc : Ref.oneCompiles plain a b rest = true) :
    ∃ r s lo hi, Ref.min plain st a b rest = .ok r ∧ Ref.max plain st a b rest = .ok s ∧
      Extremes (x :: y :: vs) (lo, hi) ∧
      r.read (Ref.endExpr (a :: b :: rest) st) = .ok lo ∧ s.read (Ref.endExpr (a :: b :: rest) st) = .ok hi ∧
      (plain = true ∨ a.temporary = true → ∀ later : Ref.Store α, r.read later = .ok lo ∧ s.read later = .ok hi) := by
  cases plain with
  | true =>
    refine ⟨.val (vmin x y vs), .val (vmax x y vs), _, _, ?_, ?_, extremes_vminmax x y vs, rfl, rfl, fun _ _ => ⟨rfl, rfl⟩⟩
    · simp only [Ref.min, if_true, load_some ha, load_some hb, loadAll_some hr]; rfl
    · simp only [Ref.max, if_true, load_some ha, load_some hb, loadAll_some hr]; rfl
  | false =>
    obtain ⟨lo, hlo, h1, h2⟩ := refMin_some ha hb ((map_cell st rest).trans hr)
    obtain ⟨hi, hhi, h3, h4⟩ := refMax_some ha hb ((map_cell st rest).trans hr)
    cases ht : a.temporary with
    | true =>
      refine ⟨.val (vmin x y vs), .val (vmax x y vs), _, _, ?_, ?_, extremes_vminmax x y vs, rfl, rfl, fun _ _ => ⟨rfl, rfl⟩⟩
      · simp only [Ref.min, h1, ht]
        change (do let v ← Ref.load st lo; pure (.val v) : Outcome (Ref.One α)) = _
        rw [load_some h2]; rfl
      · simp only [Ref.max, h3, ht]
        change (do let v ← Ref.load st hi; pure (.val v) : Outcome (Ref.One α)) = _
        rw [load_some h4]; rfl
    | false =>
      have hv : ∀ d ∈ a :: b :: rest, d.temporary = false := by
        simp only [Ref.oneCompiles, Bool.false_or, Bool.and_eq_true, List.all_eq_true] at hc
        intro d hd
        rcases List.mem_cons.1 hd with rfl | hd
        · exact ht
        · have := (hc.1 d hd)
          simp only [beq_iff_eq] at this
          exact this.1.trans ht
      have he : Ref.endExpr (a :: b :: rest) st = st := by
        funext c
        unfold Ref.endExpr
        rw [if_neg]
        intro h
        obtain ⟨d, hd, h1⟩ := List.any_eq_true.1 h
        simp [hv d hd] at h1
      refine ⟨.ref lo, .ref hi, _, _, ?_, ?_, extremes_vminmax x y vs, ?_, ?_, by simp⟩
      · simp only [Ref.min, h1, ht]; rfl
      · simp only [Ref.max, h3, ht]; rfl
      · rw [he]; exact load_some h2
      · rw [he]; exact load_some h4

/-- C141 refuted for `min` and `max`: with a type that is not plain, no call with a variable that is not `const` among
its arguments compiles, and none with both a variable and a temporary. -/
theorem c141_refuted_min_max (a b : Ref.Arg) (rest : List Ref.Arg)
    (h : (∃ d ∈ a :: b :: rest, d.temporary = false ∧ d.isConst = false) ∨
      ((∃ d ∈ a :: b :: rest, d.temporary = false) ∧ ∃ d ∈ a :: b :: rest, d.temporary = true)) :
    Ref.oneCompiles false a b rest = false := by
  cases hc : Ref.oneCompiles false a b rest with
  | false => rfl
  | true =>
    exfalso
    simp only [Ref.oneCompiles, Bool.false_or, Bool.and_eq_true, List.all_eq_true, Bool.or_eq_true, beq_iff_eq] at hc
    have hall : ∀ d ∈ a :: b :: rest, d.temporary = a.temporary ∧ d.isConst = a.isConst := by
      intro d hd
      rcases List.mem_cons.1 hd with rfl | hd
      · exact ⟨rfl, rfl⟩
      · exact hc.1 d hd
    rcases h with ⟨d, hd, h1, h2⟩ | ⟨⟨d, hd, h1⟩, ⟨d', hd', h2⟩⟩
    · rw [← (hall d hd).1, ← (hall d hd).2, h1, h2] at hc
      simp at hc
    · rw [(hall d hd).1] at h1
      rw [(hall d' hd').1, h1] at h2
      cases h2

/-- C141, the calls of `min` and `max` that compile: those with a plain type, those with `const` variables only, and
those with temporaries only (`std` being no associated namespace of the type; C213 says what it changes). -/
theorem c141_accepted_partial (plain : Bool) (a b : Ref.Arg) (rest : List Ref.Arg)
    (h : plain = true ∨ (∀ d ∈ a :: b :: rest, d.temporary = false ∧ d.isConst = true) ∨
      ∀ d ∈ a :: b :: rest, d.temporary = true ∧ d.isConst = false) :
    Ref.oneCompiles plain a b rest = true := by
  rcases h with rfl | h | h
  · rfl
  all_goals
    simp only [Ref.oneCompiles, Bool.or_eq_true, Bool.and_eq_true, List.all_eq_true, beq_iff_eq]
    have ha := h a (by simp)
    refine .inr ⟨fun d hd => ?_, by simp [ha]⟩
    have := h d (List.mem_cons_of_mem _ hd)
    simp [this, ha]

/-- `int a = 1, b = 2; auto p = minmax(a, b); a = 5;`: the pair is now (5, 2).  `minmax(1, 2)` by value keeps (1, 2);
with two temporary strings the pair dangles; with three variables of a plain type it is a pair of values. -/
example :
    let st : Ref.Store Int := fun c => if c = 0 then some 1 else if c = 1 then some 2 else if c = 2 then some 7 else none
    Ref.minmax true st ⟨0, false, false⟩ ⟨1, false, false⟩ [] = .ok (.refs 0 1) ∧
    (Ref.MinMax.refs 0 1).read (Ref.assign st 0 5) = .ok (5, 2) ∧
    Ref.minmax true st ⟨0, true, false⟩ ⟨1, true, false⟩ [] = .ok (.vals 1 2) ∧
    Ref.minmax false st ⟨1, true, false⟩ ⟨0, true, false⟩ [] = .ok (.refs 0 1) ∧
    (Ref.MinMax.refs 0 1).read (Ref.endExpr [⟨1, true, false⟩, ⟨0, true, false⟩] st) = .ub ∧
    Ref.minmax true st ⟨0, false, false⟩ ⟨1, false, false⟩ [⟨2, false, false⟩] = .ok (.vals 1 7) ∧
    Ref.minmax false st ⟨2, false, false⟩ ⟨1, false, false⟩ [⟨0, false, false⟩] = .ok (.refs 0 2) ∧
    Ref.oneCompiles false ⟨0, false, false⟩ ⟨1, false, false⟩ [] = false ∧
    Ref.min false st ⟨0, false, true⟩ ⟨1, false, true⟩ [] = .ok (.ref 0) := by decide

end C141

/-! ## C142 -/

section C142

variable {F : Fmt}

private theorem flt_lt_iff {x y : Flt F} : x < y ↔ ¬ x.isNaN ∧ ¬ y.isNaN ∧ x.key < y.key := Iff.rfl
private theorem flt_le_iff {x y : Flt F} : x ≤ y ↔ ¬ x.isNaN ∧ ¬ y.isNaN ∧ x.key ≤ y.key := Iff.rfl

/-- C142 fails for NaN: `min` and `max` of a NaN and a number are whichever comes first. -/
theorem c142_refuted_nan (n x : Flt F) (hn : n.isNaN) :
    vmin n x [] = n ∧ vmin x n [] = x ∧ vmax n x [] = n ∧ vmax x n [] = x := by
  simp [vmin, vmax, stdMin, stdMax, flt_lt_iff, hn]

/-- C142 fails for NaN: `minmax` of two temporaries is twice the first argument, `minmax` of two variables with the same
values (the form of lines 95-103) is the two arguments in exchanged order. -/
theorem c142_refuted_forms (n x : Flt F) (hn : n.isNaN) :
    vminmax n x [] = (n, n) ∧ vminmax x n [] = (x, x) ∧ minmax2 n x = (x, n) ∧ minmax2 x n = (n, x) := by
  obtain ⟨h1, h2, h3, h4⟩ := c142_refuted_nan n x hn
  simp [vminmax, h1, h2, h3, h4, minmax2, flt_le_iff, hn]

/-- C142, any number of arguments: all arguments after a NaN are ignored, and so is the NaN unless it is the first
argument, which then is the result. -/
theorem c142_refuted_ignored (n : Flt F) (hn : n.isNaN) (a b : Flt F) (pre post : List (Flt F)) :
    vmin a b (pre ++ n :: post) = vmin a b pre ∧ vmax a b (pre ++ n :: post) = vmax a b pre ∧
    vmin a n post = a ∧ vmax a n post = a ∧ vmin n a post = n ∧ vmax n a post = n := by
  have hmin : ∀ (a : Flt F) (post : List (Flt F)), vmin n a post = n := by
    intro a post
    cases post <;> simp [vmin, stdMin, flt_lt_iff, hn]
  have hmax : ∀ (a : Flt F) (post : List (Flt F)), vmax n a post = n := by
    intro a post
    cases post <;> simp [vmax, stdMax, flt_lt_iff, hn]
  have hmin2 : ∀ (a : Flt F) (post : List (Flt F)), vmin a n post = a := by
    intro a post
    cases post with
    | nil => simp [vmin, stdMin, flt_lt_iff, hn]
    | cons c cs => simp [vmin, hmin, stdMin, flt_lt_iff, hn]
  have hmax2 : ∀ (a : Flt F) (post : List (Flt F)), vmax a n post = a := by
    intro a post
    cases post with
    | nil => simp [vmax, stdMax, flt_lt_iff, hn]
    | cons c cs => simp [vmax, hmax, stdMax, flt_lt_iff, hn]
  refine ⟨?_, ?_, hmin2 a post, hmax2 a post, hmin a post, hmax a post⟩
  · induction pre generalizing a b with
    | nil => simp [vmin, hmin2]
    | cons c cs ih => simp only [List.cons_append, vmin, ih]
  · induction pre generalizing a b with
    | nil => simp [vmax, hmax2]
    | cons c cs ih => simp only [List.cons_append, vmax, ih]

/-- C142 fails for zeros: of arguments that are all zeros, `min` and `max` are the first, so its sign depends on the
order. -/
theorem c142_refuted_zeros (a b : Flt F) (rest : List (Flt F)) (h : ∀ x ∈ a :: b :: rest, x.mag = 0) :
    vmin a b rest = a ∧ vmax a b rest = a := by
  have hk : ∀ x : Flt F, x.mag = 0 → x.key = 0 := by
    intro x hx; simp [Flt.key, hx]
  induction rest generalizing a b with
  | nil =>
    have ha := hk a (h a (by simp))
    have hb := hk b (h b (by simp))
    simp [vmin, vmax, stdMin, stdMax, flt_lt_iff, ha, hb]
  | cons c cs ih =>
    have ha := hk a (h a (by simp))
    have hb := hk b (h b (by simp))
    obtain ⟨h1, h2⟩ := ih b c (fun x hx => h x (by simp only [List.mem_cons] at hx ⊢; tauto))
    simp [vmin, vmax, h1, h2, stdMin, stdMax, flt_lt_iff, ha, hb]

/-- C142, no NaN: the results are arguments, none is smaller (larger), and arguments in another order give equal
results; both forms of `minmax` give the same pair up to the choice between equal arguments. -/
theorem c142_partial (a b : Flt F) (rest : List (Flt F)) (h : ∀ x ∈ a :: b :: rest, ¬ x.isNaN) :
    Extremes (a :: b :: rest) (vminmax a b rest) ∧
    (∀ a' b' rest', (a :: b :: rest).Perm (a' :: b' :: rest') →
      (vmin a b rest == vmin a' b' rest') = true ∧ (vmax a b rest == vmax a' b' rest') = true) ∧
    (minmax2 a b).1.key = (vmin a b []).key ∧ (minmax2 a b).2.key = (vmax a b []).key := by
  have key : ∀ (a b : Flt F) (rest : List (Flt F)), (∀ x ∈ a :: b :: rest, ¬ x.isNaN) →
      (vmin a b rest ∈ a :: b :: rest ∧ ∀ x ∈ a :: b :: rest, (vmin a b rest).key ≤ x.key) ∧
      (vmax a b rest ∈ a :: b :: rest ∧ ∀ x ∈ a :: b :: rest, x.key ≤ (vmax a b rest).key) := by
    intro a b rest
    induction rest generalizing a b with
    | nil =>
      intro h
      have ha := h a (by simp)
      have hb := h b (by simp)
      simp only [vmin, vmax, stdMin, stdMax, flt_lt_iff, ha, hb, not_false_eq_true, true_and, List.mem_cons, List.not_mem_nil,
        or_false, forall_eq_or_imp, forall_eq]
      by_cases h1 : b.key < a.key <;> by_cases h2 : a.key < b.key <;> simp [h1, h2] <;> omega
    | cons c cs ih =>
      intro h
      have ha := h a (by simp)
      have h' : ∀ x ∈ b :: c :: cs, ¬ x.isNaN := fun x hx => h x (List.mem_cons_of_mem _ hx)
      obtain ⟨⟨m1, m2⟩, ⟨m3, m4⟩⟩ := ih b c h'
      have n1 := h' _ m1
      have n2 := h' _ m3
      simp only [vmin, vmax, stdMin, stdMax, flt_lt_iff, ha, n1, n2, not_false_eq_true, true_and]
      refine ⟨⟨?_, ?_⟩, ⟨?_, ?_⟩⟩
      · split
        · exact List.mem_cons_of_mem _ m1
        · simp
      · intro x hx
        rcases List.mem_cons.1 hx with rfl | hx
        · split <;> omega
        · have := m2 x hx
          split <;> omega
      · split
        · exact List.mem_cons_of_mem _ m3
        · simp
      · intro x hx
        rcases List.mem_cons.1 hx with rfl | hx
        · split <;> omega
        · have := m4 x hx
          split <;> omega
  obtain ⟨⟨m1, m2⟩, ⟨m3, m4⟩⟩ := key a b rest h
  refine ⟨⟨m1, m3, fun x hx => ⟨⟨h _ m1, h x hx, m2 x hx⟩, ⟨h x hx, h _ m3, m4 x hx⟩⟩⟩, ?_, ?_⟩
  · intro a' b' rest' hp
    obtain ⟨⟨k1, k2⟩, ⟨k3, k4⟩⟩ := key a' b' rest' (fun x hx => h x (hp.mem_iff.2 hx))
    refine ⟨decide_eq_true ⟨h _ m1, h _ (hp.mem_iff.2 k1), ?_⟩, decide_eq_true ⟨h _ m3, h _ (hp.mem_iff.2 k3), ?_⟩⟩
    · exact le_antisymm (m2 _ (hp.mem_iff.2 k1)) (k2 _ (hp.mem_iff.1 m1))
    · exact le_antisymm (k4 _ (hp.mem_iff.1 m3)) (m4 _ (hp.mem_iff.2 k3))
  · have ha := h a (by simp)
    have hb := h b (by simp)
    simp only [minmax2, vmin, vmax, stdMin, stdMax, flt_le_iff, flt_lt_iff, ha, hb, not_false_eq_true, true_and]
    by_cases h1 : a.key ≤ b.key <;> by_cases h2 : b.key < a.key <;> by_cases h3 : a.key < b.key <;> simp [h1, h2, h3] <;> omega

/-- In the small format: `min(2, NaN, -1)` is 2 (bits 16), and the pair of `minmax` of a NaN and 1 depends on how they
are passed. -/
example :
    let nan : Flt .tiny := Flt.qNaN .tiny
    vmin (⟨false, 16⟩ : Flt .tiny) nan [⟨true, 12⟩] = ⟨false, 16⟩ ∧
    vminmax nan (⟨false, 12⟩ : Flt .tiny) [] = (nan, nan) ∧ minmax2 nan (⟨false, 12⟩ : Flt .tiny) = (⟨false, 12⟩, nan) ∧
    vmin (⟨true, 0⟩ : Flt .tiny) ⟨false, 0⟩ [] = ⟨true, 0⟩ ∧ vmin (⟨false, 0⟩ : Flt .tiny) ⟨true, 0⟩ [] = ⟨false, 0⟩ := by decide

end C142

end Wite.Props
