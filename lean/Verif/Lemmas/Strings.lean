import Verif.Model.Split
import Verif.Model.Join
import Verif.Model.Trim
import Verif.Spec.Strings
import Mathlib.Data.List.TakeWhile
import Mathlib.Tactic.Conv

namespace Wite.Split

variable {α : Type u} [DecidableEq α]

/-- Structural description of the fields, used only inside proofs. -/
def fields (c : α) : List α → List (List α)
  | [] => [[]]
  | x :: xs =>
    if x = c then [] :: fields c xs
    else match fields c xs with
      | [] => [[x]]
      | f :: fs => (x :: f) :: fs

theorem fields_ne_nil (c : α) (s : List α) : fields c s ≠ [] := by
  cases s with
  | nil => simp [fields]
  | cons x xs =>
    simp only [fields]
    split
    · simp
    · split <;> simp

theorem fields_free (c : α) (pre : List α) (h : c ∉ pre) : fields c pre = [pre] := by
  induction pre with
  | nil => simp [fields]
  | cons x xs ih =>
    simp only [List.mem_cons, not_or] at h
    simp [fields, ih h.2, Ne.symm h.1]

theorem fields_append (c : α) (pre rest : List α) (h : c ∉ pre) :
    fields c (pre ++ c :: rest) = pre :: fields c rest := by
  induction pre with
  | nil => simp [fields]
  | cons x xs ih =>
    simp only [List.mem_cons, not_or] at h
    simp [fields, ih h.2, Ne.symm h.1]

omit [DecidableEq α] in
theorem intercalate_cons_ne_nil (c : α) (p : List α) (ps : List (List α)) (h : ps ≠ []) :
    List.intercalate [c] (p :: ps) = p ++ c :: List.intercalate [c] ps := by
  cases ps with
  | nil => exact absurd rfl h
  | cons q qs => simp [List.intercalate, List.intersperse]

theorem intercalate_fields (c : α) (s : List α) : List.intercalate [c] (fields c s) = s := by
  induction s with
  | nil => simp [fields, List.intercalate]
  | cons x xs ih =>
    simp only [fields]
    split
    · next h => rw [intercalate_cons_ne_nil c [] _ (fields_ne_nil c xs), ih, h]; rfl
    · next h =>
      revert ih
      cases hf : fields c xs with
      | nil => exact absurd hf (fields_ne_nil c xs)
      | cons f fs =>
        intro ih
        cases fs with
        | nil => simp [List.intercalate] at ih ⊢; exact ih
        | cons g gs =>
          rw [intercalate_cons_ne_nil c _ _ (by simp)] at ih ⊢
          simp [ih]

theorem fields_mem_free (c : α) (s : List α) : ∀ p ∈ fields c s, c ∉ p := by
  induction s with
  | nil => simp [fields]
  | cons x xs ih =>
    simp only [fields]
    split
    · intro p hp
      simp only [List.mem_cons] at hp
      rcases hp with rfl | hp
      · simp
      · exact ih p hp
    · next hx =>
      revert ih
      cases hf : fields c xs with
      | nil => exact absurd hf (fields_ne_nil c xs)
      | cons f fs =>
        intro ih p hp
        simp only [List.mem_cons] at hp
        rcases hp with rfl | hp
        · simp only [List.mem_cons, not_or]
          exact ⟨fun h => hx h.symm, ih f (by simp)⟩
        · exact ih p (by simp [hp])

theorem fields_length (c : α) (s : List α) : (fields c s).length = s.count c + 1 := by
  induction s with
  | nil => simp [fields]
  | cons x xs ih =>
    simp only [fields]
    split
    · next h => simp [h, ih]
    · next hx =>
      revert ih
      cases hf : fields c xs with
      | nil => exact absurd hf (fields_ne_nil c xs)
      | cons f fs => intro ih; simp [hx] at ih ⊢; exact ih

/-- Any decomposition is the structural one. -/
theorem decomposition_unique (c : α) (ps : List (List α)) (hne : ps ≠ [])
    (hfree : ∀ p ∈ ps, c ∉ p) : fields c (List.intercalate [c] ps) = ps := by
  induction ps with
  | nil => exact absurd rfl hne
  | cons p ps ih =>
    by_cases hps : ps = []
    · subst hps
      simp [List.intercalate, fields_free c p (hfree p (by simp))]
    · rw [intercalate_cons_ne_nil c p ps hps, fields_append c _ _ (hfree p (by simp)),
        ih hps (fun q hq => hfree q (by simp [hq]))]

theorem takeWhile_free (c : α) (s : List α) : c ∉ s.takeWhile (fun x => !(x == c)) := by
  intro h
  have := List.mem_takeWhile_imp h
  simp at this

theorem token_cases (c : α) (s : List α) :
    (s.dropWhile (fun x => !(x == c)) = [] ∧ s.takeWhile (fun x => !(x == c)) = s) ∨
    ∃ rest, s.dropWhile (fun x => !(x == c)) = c :: rest ∧
      s = s.takeWhile (fun x => !(x == c)) ++ c :: rest := by
  have happ := List.takeWhile_append_dropWhile (p := fun x => !(x == c)) (l := s)
  have hhead := List.head?_dropWhile_not (fun x => !(x == c)) s
  cases hd : s.dropWhile (fun x => !(x == c)) with
  | nil => left; rw [hd] at happ; simpa using happ
  | cons y ys =>
    right
    rw [hd] at hhead happ
    simp at hhead
    subst hhead
    exact ⟨ys, rfl, happ.symm⟩

theorem splitTo_keep (c : α) (s : List α) : splitTo s c .keepEmpty = fields c s := by
  induction hn : s.length using Nat.strongRecOn generalizing s with
  | _ n ih =>
    rw [splitTo]
    rcases token_cases c s with ⟨hd, ht⟩ | ⟨rest, hd, hs⟩
    · simp [firstToken, hd, ht]
      rw [fields_free c s]
      rw [← ht]; exact takeWhile_free c s
    · simp only [firstToken, hd]
      simp only [List.isEmpty_cons, Bool.not_false, true_or, if_true, advancePastDelimiter]
      have hlt : rest.length < s.length := by
        have := congrArg List.length hs
        simp at this; omega
      rw [dif_pos trivial, ih rest.length (hn ▸ hlt) rest rfl]
      conv_rhs => rw [hs]
      rw [fields_append c _ _ (takeWhile_free c s)]
      simp

/-- The non-empty fields, used only inside proofs. -/
def nonEmpty (l : List (List α)) : List (List α) := l.filter (fun p => decide (p ≠ []))

theorem nonEmpty_fields_dropWhile (c : α) (l : List α) :
    nonEmpty (fields c (l.dropWhile (fun x => !(x != c)))) = nonEmpty (fields c l) := by
  induction l with
  | nil => simp
  | cons x xs ih =>
    by_cases h : x = c
    · simp only [List.dropWhile_cons, h, fields]
      simp [nonEmpty] at ih ⊢
      exact ih
    · simp [h]

theorem splitTo_drop (c : α) (s : List α) :
    splitTo s c .dropEmpty = nonEmpty (fields c s) := by
  induction hn : s.length using Nat.strongRecOn generalizing s with
  | _ n ih =>
    rw [splitTo]
    rcases token_cases c s with ⟨hd, ht⟩ | ⟨rest, hd, hs⟩
    · rw [fields_free c s (by rw [← ht]; exact takeWhile_free c s)]
      simp [firstToken, hd, ht, nonEmpty]
      by_cases h : s = [] <;> simp [h]
    · have hsh : (firstToken s c .dropEmpty).2.2 = true := by simp [firstToken, hd]
      have hlt := firstToken_shorter s c .dropEmpty hsh
      rw [dif_pos hsh, ih _ (hn ▸ hlt) _ rfl]
      have hrem : (firstToken s c .dropEmpty).2.1 = (c :: rest).dropWhile (fun x => !(x != c)) := by
        simp [firstToken, hd, advancePastDelimiter]
      rw [hrem, nonEmpty_fields_dropWhile]
      conv_rhs => rw [hs]
      rw [fields_append c _ _ (takeWhile_free c s)]
      simp only [firstToken, fields, nonEmpty]
      generalize List.takeWhile (fun x => !(x == c)) s = tok
      by_cases h : tok = [] <;> simp [h]

end Wite.Split

namespace Wite.Join

variable {α : Type u}

theorem copyInto_spec (done tail s : List α) (h : s.length ≤ tail.length) :
    copyInto (done ++ tail, done.length) s =
      .ok (done ++ s ++ tail.drop s.length, done.length + s.length) := by
  induction s generalizing done tail with
  | nil => simp [copyInto]
  | cons c cs ih =>
    cases tail with
    | nil => simp at h
    | cons t ts =>
      have hw : writeOne (done ++ t :: ts, done.length) c
          = .ok ((done ++ [c]) ++ ts, (done ++ [c]).length) := by
        simp [writeOne, List.set_append_right]
      simp only [copyInto, hw, Outcome.bind_ok]
      rw [ih (done ++ [c]) ts (by simpa using h)]
      simp
      omega

theorem appendAll_spec (delim : α) (done tail : List α) (ss : List (List α))
    (h : (ss.map (fun s => s.length + 1)).sum ≤ tail.length) :
    appendAll delim (done ++ tail, done.length) ss =
      .ok (done ++ (ss.map (fun s => delim :: s)).flatten ++
            tail.drop ((ss.map (fun s => s.length + 1)).sum),
           done.length + (ss.map (fun s => s.length + 1)).sum) := by
  induction ss generalizing done tail with
  | nil => simp [appendAll]
  | cons s ss ih =>
    simp only [List.map_cons, List.sum_cons] at h
    cases tail with
    | nil => simp at h
    | cons t ts =>
      have hw : writeOne (done ++ t :: ts, done.length) delim
          = .ok ((done ++ [delim]) ++ ts, (done ++ [delim]).length) := by
        simp [writeOne, List.set_append_right]
      simp only [List.length_cons] at h
      simp only [appendAll, hw, Outcome.bind_ok]
      rw [copyInto_spec _ _ _ (by omega)]
      simp only [Outcome.bind_ok]
      have hl : (done ++ [delim]).length + s.length = (done ++ [delim] ++ s).length := by simp; omega
      rw [hl, ih _ _ (by rw [List.length_drop]; omega)]
      simp [List.drop_drop, Nat.add_assoc, Nat.add_left_comm]
      have e : s.length + (1 + (ss.map (fun s => s.length + 1)).sum)
          = (s.length + (ss.map (fun s => s.length + 1)).sum) + 1 := by omega
      rw [e, List.drop_succ_cons]

theorem foldl_length (n : Nat) (ss : List (List α)) :
    ss.foldl (fun curr s => curr + s.length) n = n + (ss.map List.length).sum := by
  induction ss generalizing n with
  | nil => simp
  | cons s ss ih => simp [ih]; omega

theorem sum_succ (ss : List (List α)) :
    (ss.map (fun s => s.length + 1)).sum = (ss.map List.length).sum + ss.length := by
  induction ss with
  | nil => simp
  | cons s ss ih => simp [ih]; omega

theorem joinSize_cons (s : List α) (ss : List (List α)) :
    joinSize (s :: ss) = s.length + (ss.map (fun s => s.length + 1)).sum := by
  simp [joinSize, foldl_length, sum_succ]; omega

theorem intercalate_eq (c : α) (s : List α) (ss : List (List α)) :
    List.intercalate [c] (s :: ss) = s ++ (ss.map (fun s => c :: s)).flatten := by
  induction ss generalizing s with
  | nil => simp [List.intercalate]
  | cons t ts ih =>
    have := ih t
    simp [List.intercalate, List.intersperse] at this ⊢
    exact this

theorem join_spec (zero : α) (strings : List (List α)) (delim : α) :
    join zero strings delim = .ok (List.intercalate [delim] strings) := by
  match strings with
  | [] => simp [join, List.intercalate]
  | [s] => simp [join, List.intercalate]
  | s :: t :: ts =>
    simp only [join]
    have h1 := copyInto_spec ([] : List α) (List.replicate (joinSize (s :: t :: ts)) zero) s
      (by rw [List.length_replicate, joinSize_cons]; omega)
    simp only [List.nil_append, List.length_nil, Nat.zero_add] at h1
    rw [h1]
    simp only [Outcome.bind_ok]
    rw [appendAll_spec _ _ _ _ (by simp [joinSize_cons])]
    simp [intercalate_eq, joinSize_cons]

end Wite.Join

namespace Wite.Trim

variable {α : Type u}

theorem findNotSpace_total (p : α → Bool) (s : List α) :
    findNotSpace (fun c => .ok (p c)) s = .ok (s.dropWhile p) := by
  induction s with
  | nil => simp [findNotSpace]
  | cons x xs ih =>
    simp only [findNotSpace, List.dropWhile_cons]
    cases hp : p x <;> simp [ih]

theorem trimLeft_total (p : α → Bool) (s : List α) :
    trimLeft (fun c => .ok (p c)) s = .ok (s.dropWhile p) := findNotSpace_total p s

theorem trimRight_total (p : α → Bool) (s : List α) :
    trimRight (fun c => .ok (p c)) s = .ok (s.reverse.dropWhile p).reverse := by
  simp [trimRight, findNotSpace_total]

theorem dropWhile_isLeftTrim (p : α → Bool) (s : List α) : Spec.IsLeftTrim p s (s.dropWhile p) := by
  refine ⟨⟨s.takeWhile p, (List.takeWhile_append_dropWhile).symm, ?_⟩, ?_⟩
  · intro x hx; exact List.mem_takeWhile_imp hx
  · intro x hx
    have := List.head?_dropWhile_not p s
    rw [hx] at this
    simpa using this

theorem isLeftTrim_unique (p : α → Bool) (s r : List α) (h : Spec.IsLeftTrim p s r) :
    r = s.dropWhile p := by
  obtain ⟨⟨pre, rfl, hpre⟩, hr⟩ := h
  induction pre with
  | nil =>
    cases r with
    | nil => simp
    | cons y ys => simp [hr y rfl]
  | cons y ys ih =>
    simp only [List.cons_append, List.dropWhile_cons, hpre y (by simp), if_true]
    exact ih (fun x hx => hpre x (by simp [hx]))

theorem isRightTrim_iff (p : α → Bool) (s r : List α) :
    Spec.IsRightTrim p s r ↔ Spec.IsLeftTrim p s.reverse r.reverse := by
  constructor
  · rintro ⟨⟨post, rfl, hp⟩, hr⟩
    refine ⟨⟨post.reverse, by simp, by simpa using hp⟩, ?_⟩
    simpa using hr
  · rintro ⟨⟨pre, h, hp⟩, hr⟩
    refine ⟨⟨pre.reverse, ?_, by simpa using hp⟩, by simpa using hr⟩
    have := congrArg List.reverse h
    simpa using this

theorem rdropWhile_isRightTrim (p : α → Bool) (s : List α) :
    Spec.IsRightTrim p s (s.reverse.dropWhile p).reverse := by
  rw [isRightTrim_iff]; simpa using dropWhile_isLeftTrim p s.reverse

theorem isRightTrim_unique (p : α → Bool) (s r : List α) (h : Spec.IsRightTrim p s r) :
    r = (s.reverse.dropWhile p).reverse := by
  rw [isRightTrim_iff] at h
  have := isLeftTrim_unique p _ _ h
  rw [← this]; simp

theorem strip_total (p : α → Bool) (s : List α) :
    strip (fun c => .ok (p c)) s = .ok ((s.reverse.dropWhile p).reverse.dropWhile p) := by
  simp [strip, trimRight_total, trimLeft_total]

theorem getLast?_dropWhile (p : α → Bool) (s : List α) (x : α)
    (h : (s.dropWhile p).getLast? = some x) : s.getLast? = some x := by
  have hsuf := List.dropWhile_suffix (l := s) p
  obtain ⟨pre, hpre⟩ := hsuf
  rw [← hpre, List.getLast?_append, h]; rfl

theorem strip_isStrip (p : α → Bool) (s : List α) :
    Spec.IsStrip p s ((s.reverse.dropWhile p).reverse.dropWhile p) := by
  obtain ⟨⟨post, hs, hpost⟩, hlast⟩ := rdropWhile_isRightTrim p s
  obtain ⟨⟨pre, hm, hpre⟩, hhead⟩ := dropWhile_isLeftTrim p (s.reverse.dropWhile p).reverse
  refine ⟨⟨pre, post, ?_, hpre, hpost⟩, hhead, ?_⟩
  · rw [← hm]; exact hs
  · intro x hx; exact hlast x (getLast?_dropWhile p _ x hx)

theorem isStrip_unique (p : α → Bool) (s r : List α) (h : Spec.IsStrip p s r) :
    r = (s.reverse.dropWhile p).reverse.dropWhile p := by
  obtain ⟨⟨pre, post, hs, hpre, hpost⟩, hh, hl⟩ := h
  by_cases hr : r = []
  · subst hr
    have hall : ∀ x ∈ s, p x = true := by
      intro x hx; rw [hs] at hx; simp at hx
      rcases hx with hx | hx
      · exact hpre x hx
      · exact hpost x hx
    have h0 : s.reverse.dropWhile p = [] := by
      rw [List.dropWhile_eq_nil_iff]; simpa using hall
    simp [h0]
  · have h1 : pre ++ r = (s.reverse.dropWhile p).reverse := by
      apply isRightTrim_unique
      refine ⟨⟨post, hs, hpost⟩, ?_⟩
      intro x hx
      rw [List.getLast?_append] at hx
      obtain ⟨y, hy⟩ : ∃ y, r.getLast? = some y := by
        cases hr' : r.getLast? with
        | none => simp at hr'; exact absurd hr' hr
        | some y => exact ⟨y, rfl⟩
      rw [hy] at hx
      simp at hx
      exact hx ▸ hl y hy
    rw [← h1]
    exact isLeftTrim_unique p _ _ ⟨⟨pre, rfl, hpre⟩, hh⟩

end Wite.Trim
