import Verif.Model.TextTable
import Verif.Props.Strings
import Mathlib.Data.List.Forall2

/-!
# C220: tables of text survive being joined and split

The tables have any depth; each level has a delimiter of its own.
-/

namespace Wite.Props

open Wite Wite.Split Wite.TextTable

section
variable {α : Type}

/-- The cells of the table, all with the property. -/
def EveryCell (P : List α → Prop) : (ds : List α) → Table α ds → Prop
  | [], s => P s
  | _ :: ds, rows => ∀ r ∈ (rows : List (Table α ds)), EveryCell P ds r

/-- No list in the table, on any level, is empty. -/
def NoEmptyList : (ds : List α) → Table α ds → Prop
  | [], _ => True
  | _ :: ds, rows => (rows : List (Table α ds)) ≠ [] ∧ ∀ r ∈ (rows : List (Table α ds)), NoEmptyList ds r

/-- The cells of two tables of one shape, in pairs. -/
def CellByCell (Q : List α → List α → Prop) : (ds : List α) → Table α ds → Table α ds → Prop
  | [], s, r => Q s r
  | _ :: ds, rows, rows' => List.Forall₂ (CellByCell Q ds) rows rows'

/-- What the table looks like as a text. -/
def textOf : (ds : List α) → Table α ds → List α
  | [], s => s
  | d :: ds, rows => List.intercalate [d] ((rows : List (Table α ds)).map (textOf ds))

/-- A table of one empty cell. -/
def blankTable : (ds : List α) → Table α ds
  | [] => ([] : List α)
  | _ :: ds => ([blankTable ds] : List (Table α ds))

/-- The table with one empty cell for each empty list. -/
def fillTable : (ds : List α) → Table α ds → Table α ds
  | [], s => s
  | _ :: ds, rows =>
    if (rows : List (Table α ds)).isEmpty then ([blankTable ds] : List (Table α ds)) else (rows : List (Table α ds)).map (fillTable ds)

/-- The table without the parts that look like empty texts. -/
def pruneTable [DecidableEq α] : (ds : List α) → Table α ds → Table α ds
  | [], s => s
  | _ :: ds, rows => ((rows : List (Table α ds)).filter fun r => decide (textOf ds r ≠ [])).map (pruneTable ds)

private theorem each_ok {β γ : Type} {f : β → Outcome γ} {g : β → γ} (xs : List β) (h : ∀ x ∈ xs, f x = .ok (g x)) :
    each f xs = .ok (xs.map g) := by
  induction xs with
  | nil => rfl
  | cons x xs ih =>
    rw [each, h x List.mem_cons_self, ih fun y hy => h y (List.mem_cons_of_mem _ hy)]
    rfl

private theorem each_rel {β γ : Type} {f : β → Outcome γ} {xs : List β} {ys : List γ} (h : List.Forall₂ (fun x y => f x = .ok y) xs ys) :
    each f xs = .ok ys := by
  induction h with
  | nil => rfl
  | cons hx _ ih => rw [each, hx, ih]; rfl

private theorem each_mem {β γ : Type} {f : β → Outcome γ} {xs : List β} {ys : List γ} (h : each f xs = .ok ys) :
    ∀ y ∈ ys, ∃ x ∈ xs, f x = .ok y := by
  induction xs generalizing ys with
  | nil => cases h; intro y hy; cases hy
  | cons x xs ih =>
    rw [each] at h
    cases hx : f x with
    | ok z =>
      rw [hx, Outcome.bind_ok] at h
      cases hxs : each f xs with
      | ok zs =>
        rw [hxs, Outcome.bind_ok] at h
        cases h
        intro y hy
        rcases List.mem_cons.mp hy with rfl | hy
        · exact ⟨x, List.mem_cons_self, hx⟩
        · obtain ⟨x', h1, h2⟩ := ih hxs y hy
          exact ⟨x', List.mem_cons_of_mem _ h1, h2⟩
      | throw e => rw [hxs] at h; cases h
      | ub => rw [hxs] at h; cases h
      | terminate => rw [hxs] at h; cases h
      | diverge => rw [hxs] at h; cases h
    | throw e => rw [hx] at h; cases h
    | ub => rw [hx] at h; cases h
    | terminate => rw [hx] at h; cases h
    | diverge => rw [hx] at h; cases h

/-- Writing a table never fails, and the text has the cells in order, with the delimiters between the parts. -/
theorem c220_text_partial (zero : α) (ds : List α) (t : Table α ds) : writeTable zero ds t = .ok (textOf ds t) := by
  induction ds with
  | nil => rfl
  | cons d ds ih =>
    rw [writeTable, each_ok (g := textOf ds) _ fun r _ => ih r, Outcome.bind_ok, c04_join_result]
    rfl

private theorem mem_glue {c x : α} {ss : List (List α)} (h : x ∈ List.intercalate [c] ss) : x = c ∨ ∃ s ∈ ss, x ∈ s := by
  induction ss with
  | nil => simp [List.intercalate] at h
  | cons s ss ih =>
    by_cases he : ss = []
    · subst he
      exact Or.inr ⟨s, List.mem_cons_self, by simpa [List.intercalate] using h⟩
    · rw [intercalate_cons_ne_nil c s ss he, List.mem_append, List.mem_cons] at h
      rcases h with h | h | h
      · exact Or.inr ⟨s, List.mem_cons_self, h⟩
      · exact Or.inl h
      · exact (ih h).imp (fun h => h) fun ⟨s, h1, h2⟩ => ⟨s, List.mem_cons_of_mem _ h1, h2⟩

private theorem glue_mem {c x : α} {s : List α} {ss : List (List α)} (hs : s ∈ ss) (hx : x ∈ s) : x ∈ List.intercalate [c] ss := by
  induction ss with
  | nil => cases hs
  | cons t ss ih =>
    by_cases he : ss = []
    · subst he
      rcases List.mem_cons.mp hs with rfl | hs
      · simpa [List.intercalate] using hx
      · cases hs
    · rw [intercalate_cons_ne_nil c t ss he, List.mem_append, List.mem_cons]
      rcases List.mem_cons.mp hs with rfl | hs
      · exact Or.inl hx
      · exact Or.inr (Or.inr (ih hs))

private theorem not_mem_text {d : α} (ds : List α) (hd : d ∉ ds) (t : Table α ds) (h : EveryCell (fun s => d ∉ s) ds t) : d ∉ textOf ds t := by
  induction ds with
  | nil => exact h
  | cons c ds ih =>
    intro hm
    rcases mem_glue hm with rfl | ⟨s, hs, hx⟩
    · exact hd List.mem_cons_self
    · obtain ⟨r, hr, rfl⟩ := List.mem_map.mp hs
      exact ih (fun hm => hd (List.mem_cons_of_mem _ hm)) r (h r hr) hx

private theorem EveryCell.mono {P Q : List α → Prop} (hPQ : ∀ s, P s → Q s) (ds : List α) (t : Table α ds) (h : EveryCell P ds t) :
    EveryCell Q ds t := by
  induction ds with
  | nil => exact hPQ _ h
  | cons d ds ih => exact fun r hr => ih r (h r hr)

variable [DecidableEq α]

private theorem split_nil (d : α) : split ([] : List α) d .keepEmpty = [[]] :=
  (c02_keep_empty_unique d [] [[]] ⟨by simp, by simp, by simp [List.intercalate]⟩).symm

private theorem split_text (d : α) (ds : List α) (hd : d ∉ ds) (rows : List (Table α ds)) (hne : rows ≠ [])
    (h : ∀ r ∈ rows, EveryCell (fun s => d ∉ s) ds r) :
    split (List.intercalate [d] (rows.map (textOf ds))) d .keepEmpty = rows.map (textOf ds) := by
  refine (c02_keep_empty_unique d _ _ ⟨by simpa using hne, ?_, rfl⟩).symm
  intro p hp
  obtain ⟨r, hr, rfl⟩ := List.mem_map.mp hp
  exact not_mem_text ds hd r (h r hr)

private theorem read_nil (ds : List α) : readTable .keepEmpty plain ds [] = .ok (blankTable ds) := by
  induction ds with
  | nil => rfl
  | cons d ds ih =>
    rw [readTable, split_nil, each, ih]
    rfl

/-- C220, exactly: a table whose cells contain no delimiter comes back as it was, with one empty cell for each empty list. -/
theorem c220_keep_partial (zero : α) (ds : List α) (hds : ds.Nodup) (t : Table α ds) (h : EveryCell (fun s => ∀ d ∈ ds, d ∉ s) ds t) :
    (writeTable zero ds t >>= readTable .keepEmpty plain ds) = .ok (fillTable ds t) := by
  rw [c220_text_partial, Outcome.bind_ok]
  induction ds with
  | nil => rfl
  | cons d ds ih =>
    obtain ⟨hd, hds⟩ := List.nodup_cons.mp hds
    rw [readTable, fillTable]
    by_cases hne : (t : List (Table α ds)) = []
    · rw [textOf, hne]
      simp only [List.map_nil, List.intercalate, List.intersperse, List.flatten_nil, List.isEmpty_nil, if_true]
      rw [split_nil, each, read_nil]
      rfl
    · rw [textOf, split_text d ds hd t hne fun r hr => EveryCell.mono (fun s hs => hs d List.mem_cons_self) ds r (h r hr)]
      rw [if_neg (by simpa using hne)]
      have := each_rel (f := readTable .keepEmpty plain ds) (xs := (t : List (Table α ds)).map (textOf ds))
        (ys := (t : List (Table α ds)).map (fillTable ds)) (by
          rw [List.forall₂_map_left_iff, List.forall₂_map_right_iff, List.forall₂_same]
          exact fun r hr => ih hds r (EveryCell.mono (fun s hs e he => hs e (List.mem_cons_of_mem _ he)) ds r (h r hr)))
      exact this

omit [DecidableEq α] in
private theorem fill_full (ds : List α) (t : Table α ds) (h : NoEmptyList ds t) : fillTable ds t = t := by
  induction ds with
  | nil => rfl
  | cons d ds ih =>
    rw [fillTable, if_neg (by simpa using h.1)]
    conv_rhs => rw [← List.map_id t]
    exact List.map_congr_left fun r hr => ih r (h.2 r hr)

omit [DecidableEq α] in
private theorem full_fill (ds : List α) (t : Table α ds) : NoEmptyList ds (fillTable ds t) := by
  have hb : ∀ ds : List α, NoEmptyList ds (blankTable ds) := by
    intro ds
    induction ds with
    | nil => exact trivial
    | cons d ds ih =>
      refine ⟨by simp [blankTable], fun r hr => ?_⟩
      rw [List.mem_singleton.mp hr]; exact ih
  induction ds with
  | nil => exact trivial
  | cons d ds ih =>
    rw [fillTable]
    by_cases hne : (t : List (Table α ds)) = []
    · rw [if_pos (by simpa using hne)]; exact hb (d :: ds)
    · rw [if_neg (by simpa using hne)]
      refine ⟨by simpa using hne, fun r hr => ?_⟩
      obtain ⟨r', _, rfl⟩ := List.mem_map.mp hr
      exact ih r'

omit [DecidableEq α] in
private theorem text_fill (ds : List α) (t : Table α ds) : textOf ds (fillTable ds t) = textOf ds t := by
  have hb : ∀ ds : List α, textOf ds (blankTable ds) = [] := by
    intro ds
    induction ds with
    | nil => rfl
    | cons d ds ih =>
      rw [textOf, blankTable, List.map_cons, ih]
      simp [List.intercalate]
  induction ds with
  | nil => rfl
  | cons d ds ih =>
    rw [fillTable]
    by_cases hne : (t : List (Table α ds)) = []
    · rw [if_pos (by simpa using hne), hne]
      exact hb (d :: ds)
    · rw [if_neg (by simpa using hne)]
      rw [textOf, textOf, List.map_map]
      congr 1
      exact List.map_congr_left fun r _ => ih r

/-- C220 for tables without empty lists. -/
theorem c220_partial (zero : α) (ds : List α) (hds : ds.Nodup) (t : Table α ds) (h : EveryCell (fun s => ∀ d ∈ ds, d ∉ s) ds t)
    (hf : NoEmptyList ds t) : (writeTable zero ds t >>= readTable .keepEmpty plain ds) = .ok t := by
  rw [c220_keep_partial zero ds hds t h, fill_full ds t hf]

/-- C220 fails for every table with an empty list in it.  No way of reading could help: the text is that of another table too. -/
theorem c220_refuted_empty (zero : α) (ds : List α) (hds : ds.Nodup) (t : Table α ds) (h : EveryCell (fun s => ∀ d ∈ ds, d ∉ s) ds t)
    (hf : ¬ NoEmptyList ds t) :
    (writeTable zero ds t >>= readTable .keepEmpty plain ds) ≠ .ok t ∧ ∃ u, u ≠ t ∧ writeTable zero ds u = writeTable zero ds t := by
  have hne : fillTable ds t ≠ t := fun e => hf (e ▸ full_fill ds t)
  refine ⟨?_, fillTable ds t, hne, ?_⟩
  · rw [c220_keep_partial zero ds hds t h]
    intro e
    exact hne (by simpa using e)
  · rw [c220_text_partial, c220_text_partial, text_fill]

private theorem read_cells (b : Behaviour) (ds : List α) (s : List α) {P : List α → Prop} (hP : ∀ r, (∀ x ∈ r, x ∈ s) → (∀ d ∈ ds, d ∉ r) → P r)
    {u : Table α ds} (hu : readTable b plain ds s = .ok u) : EveryCell P ds u := by
  induction ds generalizing s with
  | nil =>
    cases hu
    exact hP s (fun x h => h) (by simp)
  | cons d ds ih =>
    intro r hr
    obtain ⟨p, hp, he⟩ := each_mem hu r hr
    have hk : p ∈ split s d .keepEmpty := by
      cases b with
      | keepEmpty => exact hp
      | dropEmpty =>
        rw [c03_drop_empty_filters] at hp
        exact (List.mem_filter.mp hp).1
    have hdec := c02_keep_empty_decomposition d s
    refine ih p (fun q hq hd => hP q (fun x hx => ?_) fun e he => ?_) he
    · have := glue_mem (c := d) hk (hq x hx)
      rw [hdec.glue] at this
      exact this
    · rcases List.mem_cons.mp he with rfl | he
      · exact fun hm => hdec.free p hk (hq _ hm)
      · exact hd e he

/-- C220 fails for every table with a cell that contains a delimiter of any level, with either behaviour of `split`. -/
theorem c220_refuted_cell (zero : α) (b : Behaviour) (ds : List α) (t : Table α ds) (h : ¬ EveryCell (fun s => ∀ d ∈ ds, d ∉ s) ds t) :
    (writeTable zero ds t >>= readTable b plain ds) ≠ .ok t := by
  intro e
  rw [c220_text_partial, Outcome.bind_ok] at e
  exact h (read_cells b ds _ (fun _ _ hr => hr) e)

/-- C220 with the default behaviour of `split`, exactly: the parts that look like empty texts are gone. -/
theorem c220_drop_partial (zero : α) (ds : List α) (hds : ds.Nodup) (t : Table α ds) (h : EveryCell (fun s => ∀ d ∈ ds, d ∉ s) ds t) :
    (writeTable zero ds t >>= readTable .dropEmpty plain ds) = .ok (pruneTable ds t) := by
  rw [c220_text_partial, Outcome.bind_ok]
  induction ds with
  | nil => rfl
  | cons d ds ih =>
    obtain ⟨hd, hds⟩ := List.nodup_cons.mp hds
    rw [readTable, pruneTable, c03_drop_empty_filters]
    have e : (split (textOf (d :: ds) t) d .keepEmpty).filter (fun p => decide (p ≠ [])) =
        ((t : List (Table α ds)).filter fun r => decide (textOf ds r ≠ [])).map (textOf ds) := by
      by_cases hne : (t : List (Table α ds)) = []
      · rw [textOf, hne]
        simp only [List.map_nil, List.intercalate, List.intersperse, List.flatten_nil, List.filter_nil]
        rw [split_nil]
        rfl
      · rw [textOf, split_text d ds hd t hne fun r hr => EveryCell.mono (fun s hs => hs d List.mem_cons_self) ds r (h r hr), List.filter_map]
        rfl
    rw [e]
    exact each_rel (by
      rw [List.forall₂_map_left_iff, List.forall₂_map_right_iff, List.forall₂_same]
      exact fun r hr => ih hds r (EveryCell.mono (fun s hs e he => hs e (List.mem_cons_of_mem _ he)) ds r (h r (List.mem_filter.mp hr).1)))

/-- C220 for texts with whitespace around the cells: stripped, the cells are those that were meant.  The whitespace must not contain a
delimiter. -/
theorem c220_strip_partial (zero : α) (p : α → Bool) (ds : List α) (hds : ds.Nodup) (t u : Table α ds)
    (h : EveryCell (fun s => ∀ d ∈ ds, d ∉ s) ds t) (hf : NoEmptyList ds t) (hu : CellByCell (Spec.IsStrip p) ds t u) :
    (writeTable zero ds t >>= readTable .keepEmpty (stripped p) ds) = .ok u := by
  rw [c220_text_partial, Outcome.bind_ok]
  induction ds with
  | nil => exact (c06_strip_exact p t u).mpr hu
  | cons d ds ih =>
    obtain ⟨hd, hds⟩ := List.nodup_cons.mp hds
    rw [readTable, textOf, split_text d ds hd t hf.1 fun r hr => EveryCell.mono (fun s hs => hs d List.mem_cons_self) ds r (h r hr)]
    refine each_rel ?_
    rw [List.forall₂_map_left_iff]
    have hh : ∀ r ∈ (t : List (Table α ds)), EveryCell (fun s => ∀ d ∈ ds, d ∉ s) ds r ∧ NoEmptyList ds r := fun r hr =>
      ⟨EveryCell.mono (fun s hs e he => hs e (List.mem_cons_of_mem _ he)) ds r (h r hr), hf.2 r hr⟩
    revert hu hh
    clear h hf
    intro hu hh
    induction hu with
    | nil => exact .nil
    | cons hr _ ih' =>
      exact .cons (ih hds _ _ (hh _ List.mem_cons_self).1 (hh _ List.mem_cons_self).2 hr)
        (ih' fun r hr => hh r (List.mem_cons_of_mem _ hr))

/-- C220 fails with the default behaviour of `split` for every table with a part that looks like an empty text, such as an empty cell of a
list of cells. -/
theorem c220_refuted_drop (zero d : α) (ds : List α) (hds : (d :: ds).Nodup) (rows : List (Table α ds))
    (h : ∀ r ∈ rows, EveryCell (fun s => ∀ e ∈ d :: ds, e ∉ s) ds r) (r : Table α ds) (hr : r ∈ rows) (he : textOf ds r = []) :
    (writeTable zero (d :: ds) rows >>= readTable .dropEmpty plain (d :: ds)) ≠ .ok rows := by
  rw [c220_drop_partial zero (d :: ds) hds rows h]
  intro e
  have e : pruneTable (d :: ds) rows = rows := by simpa using e
  have hl := congrArg List.length e
  rw [pruneTable, List.length_map] at hl
  have := List.length_filter_eq_length_iff.mp hl r hr
  simp [he] at this

/-- Two rows of cells, the second with an empty one. -/
private def twoRows : Table Nat [10, 44] := [[[97], [98, 99]], [[], [100]]]

/-- The same with spaces around some cells. -/
private def spacedRows : Table Nat [10, 44] := [[[32, 97], [98, 99, 32]], [[32], [100]]]

example : writeTable 0 [10, 44] twoRows = .ok [97, 44, 98, 99, 10, 44, 100] := (c220_text_partial 0 [10, 44] twoRows).trans rfl

example : (writeTable 0 [10, 44] twoRows >>= readTable .keepEmpty plain [10, 44]) = .ok twoRows :=
  c220_partial 0 [10, 44] (by decide) twoRows (by simp [EveryCell, twoRows]) (by simp [NoEmptyList, twoRows])

example : (writeTable 0 [10, 44] twoRows >>= readTable .dropEmpty plain [10, 44]) = .ok [[[97], [98, 99]], [[100]]] :=
  (c220_drop_partial 0 [10, 44] (by decide) twoRows (by simp [EveryCell, twoRows])).trans rfl

example : (writeTable 0 [10, 44] spacedRows >>= readTable .keepEmpty (stripped (· == 32)) [10, 44]) = .ok twoRows := by
  refine c220_strip_partial 0 _ [10, 44] (by decide) spacedRows twoRows (by simp [EveryCell, spacedRows]) (by simp [NoEmptyList, spacedRows]) ?_
  refine .cons (.cons ?_ (.cons ?_ .nil)) (.cons (.cons ?_ (.cons ?_ .nil)) .nil)
  · exact ⟨⟨[32], [], by decide, by decide, by decide⟩, by simp, by simp⟩
  · exact ⟨⟨[], [32], by decide, by decide, by decide⟩, by simp, by simp⟩
  · exact ⟨⟨[32], [], by decide, by decide, by decide⟩, by simp, by simp⟩
  · exact ⟨⟨[], [], by decide, by decide, by decide⟩, by simp, by simp⟩

example : (writeTable 0 [10, 44] ([[[97]], []] : List (List (List Nat))) >>= readTable .keepEmpty plain [10, 44]) = .ok [[[97]], [[]]] :=
  (c220_keep_partial 0 [10, 44] (by decide) ([[[97]], []] : List (List (List Nat))) (by simp [EveryCell])).trans rfl

end

end Wite.Props
