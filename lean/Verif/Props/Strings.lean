import Verif.Lemmas.Strings

/-!
# Properties C01–C08 and C95: split, join, trim, strip
-/

namespace Wite.Props

open Wite.Split Wite.Join Wite.Trim

variable {α : Type u} [DecidableEq α]

/-- C01: splitting with `keep_empty` and joining gives the string back. -/
theorem c01_split_then_join (zero c : α) (s : List α) :
    join zero (split s c .keepEmpty) c = .ok s := by
  rw [join_spec, split, splitTo_keep, intercalate_fields]

/-- C02: the pieces are a field decomposition of the string. -/
theorem c02_keep_empty_decomposition (c : α) (s : List α) :
    Spec.IsFieldDecomposition c s (split s c .keepEmpty) := by
  rw [split, splitTo_keep]
  exact ⟨fields_ne_nil c s, fields_mem_free c s, intercalate_fields c s⟩

/-- C02: there is one more piece than there are delimiters. -/
theorem c02_keep_empty_count (c : α) (s : List α) :
    (split s c .keepEmpty).length = s.count c + 1 := by
  rw [split, splitTo_keep, fields_length]

/-- C02: the decomposition is the only one. -/
theorem c02_keep_empty_unique (c : α) (s : List α) (pieces : List (List α))
    (h : Spec.IsFieldDecomposition c s pieces) : pieces = split s c .keepEmpty := by
  rw [split, splitTo_keep, ← h.glue, decomposition_unique c pieces h.nonempty h.free]

/-- C03: `drop_empty` gives the non-empty fields in order. -/
theorem c03_drop_empty_filters (c : α) (s : List α) :
    split s c .dropEmpty = (split s c .keepEmpty).filter (fun p => decide (p ≠ [])) := by
  rw [split, split, splitTo_keep, splitTo_drop]; rfl

/-- C03: no empty piece is returned. -/
theorem c03_drop_empty_no_empty (c : α) (s : List α) : [] ∉ split s c .dropEmpty := by
  rw [c03_drop_empty_filters]; simp

omit [DecidableEq α] in
/-- C04: `join` returns (it never writes outside its buffer, which would be `ub`) the
strings separated by the delimiter. -/
theorem c04_join_result (zero c : α) (strings : List (List α)) :
    join zero strings c = .ok (List.intercalate [c] strings) := join_spec zero strings c

omit [DecidableEq α] in
/-- C04: its length is the total length plus one per gap. -/
theorem c04_join_length (zero c : α) (strings : List (List α)) :
    ∃ r, join zero strings c = .ok r ∧
      r.length = (strings.map List.length).sum + (strings.length - 1) := by
  refine ⟨_, join_spec zero strings c, ?_⟩
  cases strings with
  | nil => simp [List.intercalate]
  | cons s ss =>
    rw [intercalate_eq]
    simp only [List.length_append, List.length_flatten, List.map_map, List.map_cons, List.sum_cons,
      List.length_cons, Nat.add_sub_cancel]
    have : (List.map (List.length ∘ fun s => c :: s) ss).sum = (ss.map (fun s => s.length + 1)).sum := by
      rfl
    rw [this, sum_succ]; omega

/-- C05: joining then splitting restores the pieces. -/
theorem c05_join_then_split (zero c : α) (pieces : List (List α)) (hne : pieces ≠ [])
    (hfree : ∀ p ∈ pieces, c ∉ p) :
    (join zero pieces c >>= fun s => pure (split s c .keepEmpty)) = .ok pieces := by
  rw [join_spec]
  simp [split, splitTo_keep, decomposition_unique c pieces hne hfree]

/-! The hypotheses are met by non-trivial cases; the delimiter here is `,` = 44. -/

example : split [97, 44, 44, 98] 44 .keepEmpty = [[97], [], [98]] := by
  rw [split, splitTo_keep]; decide
example : split [97, 44, 44, 98] 44 .dropEmpty = [[97], [98]] := by
  rw [split, splitTo_drop]; decide
example : Spec.IsFieldDecomposition 44 [97, 44, 44, 98] [[97], [], [98]] :=
  ⟨by decide, by decide, by decide⟩
example : join 0 [[97], [], [98, 99]] 44 = .ok [97, 44, 44, 98, 99] := by decide
example : ([[97], [], [98]] : List (List Nat)) ≠ [] ∧ ∀ p ∈ ([[97], [], [98]] : List (List Nat)), 44 ∉ p := by
  decide

section trim
variable {β : Type v}

/-- C06: `trim_left` returns the string without its longest whitespace prefix, for every
classification `p` of the code units. -/
theorem c06_trim_left_exact (p : β → Bool) (s r : List β) :
    trimLeft (fun c => .ok (p c)) s = .ok r ↔ Spec.IsLeftTrim p s r := by
  rw [trimLeft_total]
  constructor
  · intro h; cases h; exact dropWhile_isLeftTrim p s
  · intro h; rw [isLeftTrim_unique p s r h]

/-- C06: `trim_right` likewise at the other end. -/
theorem c06_trim_right_exact (p : β → Bool) (s r : List β) :
    trimRight (fun c => .ok (p c)) s = .ok r ↔ Spec.IsRightTrim p s r := by
  rw [trimRight_total]
  constructor
  · intro h; cases h; exact rdropWhile_isRightTrim p s
  · intro h; rw [isRightTrim_unique p s r h]

/-- C06: `strip` at both ends. -/
theorem c06_strip_exact (p : β → Bool) (s r : List β) :
    strip (fun c => .ok (p c)) s = .ok r ↔ Spec.IsStrip p s r := by
  rw [strip_total]
  constructor
  · intro h; cases h; exact strip_isStrip p s
  · intro h; rw [isStrip_unique p s r h]

/-- C06: the three functions do return. -/
theorem c06_trims_return (p : β → Bool) (s : List β) :
    (∃ r, trimLeft (fun c => .ok (p c)) s = .ok r) ∧ (∃ r, trimRight (fun c => .ok (p c)) s = .ok r) ∧
    (∃ r, strip (fun c => .ok (p c)) s = .ok r) :=
  ⟨⟨_, trimLeft_total p s⟩, ⟨_, trimRight_total p s⟩, ⟨_, strip_total p s⟩⟩

/-- C06: `strip` of an all-whitespace string is empty. -/
theorem c06_strip_all_whitespace (p : β → Bool) (s : List β) (h : ∀ x ∈ s, p x = true) :
    strip (fun c => .ok (p c)) s = .ok [] := by
  rw [c06_strip_exact]
  exact ⟨⟨s, [], by simp, h, by simp⟩, by simp, by simp⟩

example : strip (fun c => .ok (cLocale c)) [32, 9, 97, 32, 98, 10] = .ok [97, 32, 98] := by decide
example : ∀ x ∈ [32, 9, 10], cLocale x = true := by decide
example : Spec.IsStrip cLocale [32, 9, 97, 32, 98, 10] [97, 32, 98] :=
  (c06_strip_exact _ _ _).1 (by decide)

/-- C07: `trim_left` twice is `trim_left` once. -/
theorem c07_trim_left_idempotent (p : β → Bool) (s : List β) :
    (trimLeft (fun c => .ok (p c)) s >>= trimLeft (fun c => .ok (p c)))
      = trimLeft (fun c => .ok (p c)) s := by
  obtain ⟨r, hr⟩ := (c06_trims_return p s).1
  rw [hr, Outcome.bind_ok]
  obtain ⟨_, hh⟩ := (c06_trim_left_exact p s r).1 hr
  exact (c06_trim_left_exact p r r).2 ⟨⟨[], by simp, by simp⟩, hh⟩

/-- C07: `trim_right` twice is `trim_right` once. -/
theorem c07_trim_right_idempotent (p : β → Bool) (s : List β) :
    (trimRight (fun c => .ok (p c)) s >>= trimRight (fun c => .ok (p c)))
      = trimRight (fun c => .ok (p c)) s := by
  obtain ⟨r, hr⟩ := (c06_trims_return p s).2.1
  rw [hr, Outcome.bind_ok]
  obtain ⟨_, hh⟩ := (c06_trim_right_exact p s r).1 hr
  exact (c06_trim_right_exact p r r).2 ⟨⟨[], by simp, by simp⟩, hh⟩

/-- C07: `strip` twice is `strip` once. -/
theorem c07_strip_idempotent (p : β → Bool) (s : List β) :
    (strip (fun c => .ok (p c)) s >>= strip (fun c => .ok (p c)))
      = strip (fun c => .ok (p c)) s := by
  obtain ⟨r, hr⟩ := (c06_trims_return p s).2.2
  rw [hr, Outcome.bind_ok]
  obtain ⟨_, hh⟩ := (c06_strip_exact p s r).1 hr
  exact (c06_strip_exact p r r).2 ⟨⟨[], [], by simp, by simp, by simp⟩, hh⟩

/-- C07: `strip` is `trim_left` after `trim_right`. -/
theorem c07_strip_is_left_of_right (p : β → Bool) (s : List β) :
    strip (fun c => .ok (p c)) s
      = (trimRight (fun c => .ok (p c)) s >>= trimLeft (fun c => .ok (p c))) := rfl

/-- C07: and also `trim_right` after `trim_left`. -/
theorem c07_strip_is_right_of_left (p : β → Bool) (s : List β) :
    strip (fun c => .ok (p c)) s
      = (trimLeft (fun c => .ok (p c)) s >>= trimRight (fun c => .ok (p c))) := by
  obtain ⟨l, hl⟩ := (c06_trims_return p s).1
  rw [hl, Outcome.bind_ok]
  obtain ⟨r, hr⟩ := (c06_trims_return p l).2.1
  rw [hr]
  obtain ⟨⟨pre, hs, hpre⟩, hh⟩ := (c06_trim_left_exact p s l).1 hl
  obtain ⟨⟨post, hl', hpost⟩, hlast⟩ := (c06_trim_right_exact p l r).1 hr
  apply (c06_strip_exact p s r).2
  refine ⟨⟨pre, post, by rw [hs, hl']; simp, hpre, hpost⟩, ?_, hlast⟩
  intro x hx
  apply hh x
  rw [hl', List.head?_append, hx]; rfl

end trim

/-- C08 is false: a `char` string containing a byte above 0x7F (here 0xE9, the signed
`char` -23) makes `trim_left` undefined, whatever the locale. -/
theorem c08_refuted_trim_of_non_ascii (ctype : Nat → Bool) :
    trimLeft (isspaceSigned ctype) [-23] = .ub ∧ trimRight (isspaceSigned ctype) [-23] = .ub ∧
    strip (isspaceSigned ctype) [-23] = .ub := by
  refine ⟨?_, ?_, ?_⟩ <;> simp [trimLeft, trimRight, strip, findNotSpace, isspaceSigned]

theorem findNotSpace_signed (ctype : Nat → Bool) (s : List Int) (h : ∀ c ∈ s, 0 ≤ c ∧ c ≤ 127) :
    findNotSpace (isspaceSigned ctype) s = .ok (s.dropWhile (fun c => ctype c.toNat)) := by
  induction s with
  | nil => simp [findNotSpace]
  | cons x xs ih =>
    have hx := h x (by simp)
    have h1 : isspaceSigned ctype x = .ok (ctype x.toNat) := by
      unfold isspaceSigned
      rw [if_neg (by omega), if_pos (by omega)]
    simp only [findNotSpace, h1, List.dropWhile_cons]
    cases hc : ctype x.toNat
    · simp
    · simpa using ih (fun c hc => h c (by simp [hc]))

/-- C08, the part that holds: for strings of characters 0..127 the three functions return,
and agree with the total classification of C06.  Missing: strings with a negative `char`
other than -1 that a scan can reach, where the code is undefined (see the refutation). -/
theorem c08_trim_of_ascii_partial (ctype : Nat → Bool) (s : List Int)
    (h : ∀ c ∈ s, 0 ≤ c ∧ c ≤ 127) :
    trimLeft (isspaceSigned ctype) s = trimLeft (fun c => .ok (ctype c.toNat)) s ∧
    trimRight (isspaceSigned ctype) s = trimRight (fun c => .ok (ctype c.toNat)) s ∧
    strip (isspaceSigned ctype) s = strip (fun c => .ok (ctype c.toNat)) s := by
  have hl : ∀ t : List Int, (∀ c ∈ t, 0 ≤ c ∧ c ≤ 127) →
      trimLeft (isspaceSigned ctype) t = trimLeft (fun c => .ok (ctype c.toNat)) t := by
    intro t ht
    rw [trimLeft_total]; exact findNotSpace_signed ctype t ht
  have hr : trimRight (isspaceSigned ctype) s = trimRight (fun c => .ok (ctype c.toNat)) s := by
    rw [trimRight_total]
    simp [trimRight, findNotSpace_signed ctype s.reverse (by simpa using h)]
  refine ⟨hl s h, hr, ?_⟩
  simp only [strip, hr, trimRight_total, Outcome.bind_ok]
  apply hl
  intro c hc
  apply h c
  simpa using (List.dropWhile_suffix (l := s.reverse) (fun c => ctype c.toNat)).subset
    (List.mem_reverse.1 hc)

/-- C08: in the "C" locale, for strings of ASCII characters, `strip` takes off exactly the tabs, line feeds, vertical tabs, form
feeds, carriage returns and spaces at both ends. -/
theorem c08_c_locale_partial (s r : List Int) (h : ∀ c ∈ s, 0 ≤ c ∧ c ≤ 127) :
    strip (isspaceSigned cLocale) s = .ok r ↔
      (∃ pre post, s = pre ++ r ++ post ∧ ∀ c, c ∈ pre ∨ c ∈ post → c = 9 ∨ c = 10 ∨ c = 11 ∨ c = 12 ∨ c = 13 ∨ c = 32) ∧
      ∀ c, r.head? = some c ∨ r.getLast? = some c → c ≠ 9 ∧ c ≠ 10 ∧ c ≠ 11 ∧ c ≠ 12 ∧ c ≠ 13 ∧ c ≠ 32 := by
  have hw : ∀ c : Int, 0 ≤ c → (cLocale c.toNat = true ↔ c = 9 ∨ c = 10 ∨ c = 11 ∨ c = 12 ∨ c = 13 ∨ c = 32) := by
    intro c hc
    simp only [cLocale, Bool.or_eq_true, Bool.and_eq_true, beq_iff_eq, decide_eq_true_eq]
    omega
  have hw' : ∀ c : Int, 0 ≤ c → (cLocale c.toNat = false ↔ c ≠ 9 ∧ c ≠ 10 ∧ c ≠ 11 ∧ c ≠ 12 ∧ c ≠ 13 ∧ c ≠ 32) := by
    intro c hc
    rw [← Bool.not_eq_true, hw c hc]
    omega
  rw [(c08_trim_of_ascii_partial cLocale s h).2.2, c06_strip_exact]
  constructor
  · rintro ⟨⟨pre, post, rfl, h1, h2⟩, h3, h4⟩
    refine ⟨⟨pre, post, rfl, ?_⟩, ?_⟩
    · rintro c (hc | hc)
      · exact (hw c (h c (by simp [hc])).1).1 (h1 c hc)
      · exact (hw c (h c (by simp [hc])).1).1 (h2 c hc)
    · rintro c (hc | hc)
      · exact (hw' c (h c (by simp [List.mem_of_mem_head? hc])).1).1 (h3 c hc)
      · exact (hw' c (h c (by simp [List.mem_of_getLast? hc])).1).1 (h4 c hc)
  · rintro ⟨⟨pre, post, rfl, h1⟩, h2⟩
    refine ⟨⟨pre, post, rfl, ?_, ?_⟩, ?_, ?_⟩
    · intro c hc
      exact (hw c (h c (by simp [hc])).1).2 (h1 c (.inl hc))
    · intro c hc
      exact (hw c (h c (by simp [hc])).1).2 (h1 c (.inr hc))
    · intro c hc
      exact (hw' c (h c (by simp [List.mem_of_mem_head? hc])).1).2 (h2 c (.inl hc))
    · intro c hc
      exact (hw' c (h c (by simp [List.mem_of_getLast? hc])).1).2 (h2 c (.inr hc))

example : strip (isspaceSigned cLocale) [32, 11, 97, 32, 98, 12] = .ok [97, 32, 98] := by decide

/-- C08, exactly when the scan is defined: `trim_left` is undefined iff the first
character not classified as whitespace is one that `isspace` may not be given. -/
theorem c08_trim_left_undefined_iff (ctype : Nat → Bool) (s : List Int) :
    trimLeft (isspaceSigned ctype) s = .ub ↔
      ∃ pre c post, s = pre ++ c :: post ∧ (∀ x ∈ pre, 0 ≤ x ∧ x ≤ 255 ∧ ctype x.toNat = true) ∧
        (c < -1 ∨ 255 < c) := by
  unfold trimLeft
  induction s with
  | nil => simp [findNotSpace]
  | cons x xs ih =>
    unfold findNotSpace
    constructor
    · intro h
      by_cases hm1 : x = -1
      · simp [isspaceSigned, hm1] at h
      · by_cases hr : 0 ≤ x ∧ x ≤ 255
        · have h1 : isspaceSigned ctype x = .ok (ctype x.toNat) := by
            unfold isspaceSigned; rw [if_neg hm1, if_pos hr]
          rw [h1] at h
          cases hc : ctype x.toNat with
          | false => simp [hc] at h
          | true =>
            rw [hc] at h
            obtain ⟨pre, c, post, he, hp, hcc⟩ := ih.1 h
            refine ⟨x :: pre, c, post, by simp [he], ?_, hcc⟩
            intro y hy
            simp only [List.mem_cons] at hy
            rcases hy with rfl | hy
            · exact ⟨hr.1, hr.2, hc⟩
            · exact hp y hy
        · exact ⟨[], x, xs, rfl, by simp, by omega⟩
    · rintro ⟨pre, c, post, he, hp, hcc⟩
      cases pre with
      | nil =>
        simp at he
        have : isspaceSigned ctype x = .ub := by
          unfold isspaceSigned; rw [if_neg (by omega), if_neg (by omega)]
        rw [this]
      | cons y ys =>
        simp at he
        obtain ⟨rfl, he⟩ := he
        have hx := hp x (by simp)
        have h1 : isspaceSigned ctype x = .ok (ctype x.toNat) := by
          unfold isspaceSigned; rw [if_neg (by omega), if_pos ⟨hx.1, hx.2.1⟩]
        rw [h1, hx.2.2]
        exact ih.2 ⟨ys, c, post, he, fun z hz => hp z (by simp [hz]), hcc⟩

example : ∀ c ∈ ([32, 97, 9] : List Int), 0 ≤ c ∧ c ≤ 127 := by decide

/-- C95: the pointer overloads of `split`: a null pointer gives no pieces. -/
theorem c95_split_null (delim : Nat) (b : Behaviour) :
    splitToPtr none delim b = .ok [] ∧ splitPtr none = .ok [] := ⟨rfl, rfl⟩

/-- C95: a NUL-terminated pointer gives the pieces of the text before the first NUL,
whatever lies behind the NUL. -/
theorem c95_split_c_string (text behind : List Nat) (delim : Nat) (b : Behaviour) (h : 0 ∉ text) :
    splitToPtr (some (text ++ 0 :: behind)) delim b = .ok (split text delim b) ∧
    splitPtr (some (text ++ 0 :: behind)) = .ok (split text 32 .dropEmpty) := by
  have hv : viewOfPtr (text ++ 0 :: behind) = .ok text := by
    unfold viewOfPtr
    rw [if_pos (by simp)]
    congr 1
    induction text with
    | nil => simp
    | cons x xs ih =>
      simp only [List.mem_cons, not_or] at h
      simp [Ne.symm h.1, ih h.2]
  constructor
  · simp [splitToPtr, hv, split]
  · simp [splitPtr, hv]

/-- C95: a pointer into an object without a NUL is undefined behaviour. -/
theorem c95_split_unterminated (m : List Nat) (delim : Nat) (b : Behaviour) (h : 0 ∉ m) :
    splitToPtr (some m) delim b = .ub ∧ splitPtr (some m) = .ub := by
  simp [splitToPtr, splitPtr, viewOfPtr, h]

example : (0 : Nat) ∉ [97, 32, 98] := by decide

/-- C115 for a pointer that is not null: the pointer overloads of the trimming functions remove exactly the outer
whitespace of the text before the first NUL, whatever lies behind it.  Missing: the null pointer, which `split`
accepts. -/
theorem c115_c_string_partial (p : Nat → Bool) (text behind r : List Nat) (h : 0 ∉ text) :
    (trimLeftPtr (fun c => .ok (p c)) (some (text ++ 0 :: behind)) = .ok r ↔ Spec.IsLeftTrim p text r) ∧
    (trimRightPtr (fun c => .ok (p c)) (some (text ++ 0 :: behind)) = .ok r ↔ Spec.IsRightTrim p text r) ∧
    (stripPtr (fun c => .ok (p c)) (some (text ++ 0 :: behind)) = .ok r ↔ Spec.IsStrip p text r) := by
  have hv : viewOfPtr (text ++ 0 :: behind) = .ok text := by
    unfold viewOfPtr
    rw [if_pos (by simp)]
    congr 1
    induction text with
    | nil => simp
    | cons x xs ih =>
      simp only [List.mem_cons, not_or] at h
      simp [Ne.symm h.1, ih h.2]
  simp only [trimLeftPtr, trimRightPtr, stripPtr, hv, Outcome.bind_ok]
  exact ⟨c06_trim_left_exact p text r, c06_trim_right_exact p text r, c06_strip_exact p text r⟩

/-- C115: without a NUL inside the object the call is undefined. -/
theorem c115_unterminated (isspace : Nat → Outcome Bool) (m : List Nat) (h : 0 ∉ m) :
    trimLeftPtr isspace (some m) = .ub ∧ trimRightPtr isspace (some m) = .ub ∧ stripPtr isspace (some m) = .ub := by
  simp [trimLeftPtr, trimRightPtr, stripPtr, viewOfPtr, h]

/-- C115 is false of the null pointer: `split(nullptr)` returns no pieces, the trimming functions are undefined. -/
theorem c115_refuted_null (isspace : Nat → Outcome Bool) :
    splitPtr none = .ok [] ∧ trimLeftPtr isspace none = .ub ∧ trimRightPtr isspace none = .ub ∧
      stripPtr isspace none = .ub := ⟨rfl, rfl, rfl, rfl⟩

example : stripPtr (fun c => .ok (cLocale c)) (some [32, 97, 32, 98, 9, 0, 32, 120]) = .ok [97, 32, 98] ∧
    trimLeftPtr (fun c => .ok (cLocale c)) (some [32, 97, 32, 0, 7]) = .ok [97, 32] ∧
    trimRightPtr (fun c => .ok (cLocale c)) (some [32, 97, 32, 0, 7]) = .ok [32, 97] := by decide

end Wite.Props
