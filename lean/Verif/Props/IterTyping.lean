import Verif.Model.IterTyping

/-!
# Property C193: what compiles with the library's iterators
-/

namespace Wite.Props

open Wite.IterTyping

/-- The expressions that the standard requires of a mutable or constant random access iterator `a` (and `b` of the same class, a number
`n`), with their types: the tables of [iterator.iterators], [input.iterators], [forward.iterators], [bidirectional.iterators] and
[random.access.iterators]. -/
def randomAccess (c : IterCls) (m : Bool) : List (IExpr × ETy) :=
  let a := IExpr.var c
  let n := IExpr.num
  [(.dflt c, .it c false), (.make c a, .it c false), (.bin .assign a a, .it c true), (.bin .swap a a, .void),
   (.un .deref a, .elem m), (.un .arrow a, .ptr m),
   (.un .preInc a, .it c true), (.un .postInc a, .it c false), (.un .deref (.un .postInc a), .elem m),
   (.un .preDec a, .it c true), (.un .postDec a, .it c false), (.un .deref (.un .postDec a), .elem m),
   (.bin .addAssign a n, .it c true), (.bin .subAssign a n, .it c true),
   (.bin .plus a n, .it c false), (.bin .plus n a, .it c false), (.bin .minus a n, .it c false), (.bin .minus a a, .num),
   (.bin .subscript a n, .elem m),
   (.bin .eq a a, .bool), (.bin .ne a a, .bool), (.bin .lt a a, .bool), (.bin .gt a a, .bool), (.bin .le a a, .bool), (.bin .ge a a, .bool)]

/-- Whether elements can be written through the iterators of the class. -/
def writable : IterCls → Bool
  | .vecIter => true
  | .collIter => true
  | _ => false

/-- What is missing of the requirements. -/
def missingExprs (c : IterCls) : List IExpr :=
  let a := IExpr.var c
  let n := IExpr.num
  match c with
  | .vecConst => [.bin .swap a a, .bin .plus n a]
  | .vecIter => [.bin .swap a a, .bin .plus n a]
  | .collConst => [.bin .swap a a, .bin .plus n a, .bin .subscript a n]
  | .collIter => [.bin .swap a a, .bin .plus n a, .bin .subscript a n]
  | .frag => [.dflt c, .bin .assign a a, .bin .swap a a, .un .arrow a, .un .postInc a, .un .deref (.un .postInc a), .un .postDec a,
      .un .deref (.un .postDec a), .bin .plus n a, .bin .subscript a n]

/-- C193, exactly what compiles: of what the standard requires of random access iterators everything has the required type
except for the expressions in `missingExprs`, which do not compile: `swap` and `n + a` for iterators of a `static_vector`,
also `a[n]` for those of a collection, and ten for those of a fragment string. -/
theorem c193_exact_partial (c : IterCls) : ∀ r ∈ randomAccess c (writable c),
    (r.1 ∉ missingExprs c → typeOf r.1 = some r.2) ∧ (r.1 ∈ missingExprs c → typeOf r.1 = none) := by
  cases c <;> decide +kernel

/-- C193 is false: no number can stand before an iterator in a sum, whatever the iterator and whatever the number; the standard
requires `n + a` of random access iterators. -/
theorem c193_refuted (e e' : IExpr) (c : IterCls) (l : Bool) (he : typeOf e = some .num) (he' : typeOf e' = some (.it c l)) :
    typeOf (.bin .plus e e') = none := by
  simp [typeOf, he, he', binTy, numbers, ofLeft]

/-- C193 is false: two iterators can never be swapped by an unqualified call of `swap`, which the standard requires of all iterators and
algorithms use; with `std::swap` exactly those of the containers can. -/
theorem c193_refuted_swap (e e' : IExpr) :
    typeOf (.bin .swap e e') = none ∧
    (typeOf (.bin .stdSwap e e') = some .void ↔
      ∃ c, c ≠ .frag ∧ typeOf e = some (.it c true) ∧ typeOf e' = some (.it c true)) := by
  constructor
  · simp only [typeOf]
    cases typeOf e with
    | none => rfl
    | some s =>
      cases typeOf e' with
      | none => rfl
      | some t => rcases s with ⟨_ | _ | _ | _ | _, _ | _⟩ | _ | _ | _ | _ | _ | _ <;> rcases t with ⟨_ | _ | _ | _ | _, _ | _⟩ | _ | _ | _ | _ | _ | _ <;> rfl
  · simp only [typeOf]
    cases typeOf e with
    | none => simp
    | some s =>
      cases typeOf e' with
      | none => simp
      | some t =>
        simp only [Option.bind_some, binTy, stdSwapTy]
        constructor
        · intro h
          split at h
          · rename_i c c'
            split at h
            · rename_i hc
              obtain ⟨rfl, hr⟩ := hc
              exact ⟨c, by simpa [regular] using hr, rfl, rfl⟩
            · cases h
          · cases h
        · rintro ⟨c, hc, hs, ht⟩
          cases hs
          cases ht
          simp [regular, hc]

/-- C193 is false for fragment strings: no expression assigns to an iterator, advances one with `a++` or `a--`, or indexes it. An algorithm
that keeps a position in a variable and changes it other than by `++`, `--`, `+=` and `-=` does not compile. -/
theorem c193_refuted_fragments (e e' : IExpr) (l : Bool) (he : typeOf e = some (.it .frag l)) :
    typeOf (.bin .assign e e') = none ∧ typeOf (.un .postInc e) = none ∧ typeOf (.un .postDec e) = none ∧
      typeOf (.bin .subscript e e') = none ∧ typeOf (.un .arrow e) = none ∧ typeOf (.dflt .frag) = none := by
  refine ⟨?_, ?_, ?_, ?_, ?_, by decide⟩ <;> simp only [typeOf, he, Option.bind_some]
  · cases typeOf e' <;> rfl
  · rfl
  · rfl
  · cases typeOf e' <;> rfl
  · rfl

/-- C193, iterators of collections: no element is reached with `[]`. -/
theorem c193_refuted_collections (e e' : IExpr) (c : IterCls) (l : Bool) (hc : c = .collConst ∨ c = .collIter)
    (he : typeOf e = some (.it c l)) : typeOf (.bin .subscript e e') = none := by
  simp only [typeOf, he, Option.bind_some]
  rcases hc with rfl | rfl <;> cases typeOf e' with
  | none => rfl
  | some t => rcases t with ⟨_ | _ | _ | _ | _, _ | _⟩ | _ | _ | _ | _ | _ | _ <;> rfl

/-- The containers that iterators belong to. -/
def sameContainer : IterCls → IterCls → Bool
  | .vecConst, .vecConst => true
  | .vecConst, .vecIter => true
  | .vecIter, .vecConst => true
  | .vecIter, .vecIter => true
  | .collConst, .collConst => true
  | .collConst, .collIter => true
  | .collIter, .collConst => true
  | .collIter, .collIter => true
  | .frag, .frag => true
  | _, _ => false

/-- C193, `iterator` and `const_iterator` together: they can be compared in either order, and iterators of different kinds of
containers cannot be compared; but their distance exists only if the left one is a `const_iterator` or both are `iterator`s:
`iterator - const_iterator` does not compile. -/
theorem c193_mixed (e e' : IExpr) (c c' : IterCls) (l l' : Bool) (he : typeOf e = some (.it c l)) (he' : typeOf e' = some (.it c' l')) :
    (∀ op ∈ [BinOp.eq, .ne, .lt, .le, .gt, .ge], typeOf (.bin op e e') = if sameContainer c c' then some .bool else none) ∧
    (typeOf (.bin .minus e e') = if sameContainer c c' ∧ ¬(writable c ∧ ¬writable c') then some .num else none) := by
  simp only [typeOf, he, he', Option.bind_some]
  constructor
  · intro op hop
    simp only [List.mem_cons, List.not_mem_nil, or_false] at hop
    rcases hop with rfl | rfl | rfl | rfl | rfl | rfl <;> cases c <;> cases c' <;> cases l <;> cases l' <;> rfl
  · cases c <;> cases c' <;> cases l <;> cases l' <;> rfl

/-- The class whose objects can be written through in place of a class. -/
def mutatedCls : IterCls → IterCls
  | .vecConst => .vecIter
  | .collConst => .collIter
  | c => c

/-- An expression with every `const_iterator` replaced by `iterator`. -/
def mutated : IExpr → IExpr
  | .var c => .var (mutatedCls c)
  | .num => .num
  | .dflt c => .dflt (mutatedCls c)
  | .make c e => .make (mutatedCls c) (mutated e)
  | .un op e => .un op (mutated e)
  | .bin op a b => .bin op (mutated a) (mutated b)
  | .put e => .put (mutated e)

/-- How types of expressions may change with it: iterators become `iterator`s, elements stay writable or become so. -/
def becomes : ETy → ETy → Bool
  | .it c l, t => t = .it (mutatedCls c) l
  | .elem m, .elem m' => !m || m'
  | .ptr m, .ptr m' => !m || m'
  | s, t => s = t

private def allTys : List ETy :=
  [.it .vecConst true, .it .vecConst false, .it .vecIter true, .it .vecIter false, .it .collConst true, .it .collConst false,
   .it .collIter true, .it .collIter false, .it .frag true, .it .frag false, .num, .elem true, .elem false, .ptr true, .ptr false, .order,
   .bool, .void]

private theorem mem_allTys (t : ETy) : t ∈ allTys := by
  rcases t with ⟨_ | _ | _ | _ | _, _ | _⟩ | _ | ⟨_ | _⟩ | ⟨_ | _⟩ | _ | _ | _ <;> decide

private def keeps (o o' : Option ETy) : Bool :=
  match o, o' with
  | none, _ => true
  | some t, some t' => becomes t t'
  | some _, none => false

private theorem of_keeps {o o' : Option ETy} {t : ETy} (h : keeps o o' = true) (ho : o = some t) : ∃ t', o' = some t' ∧ becomes t t' := by
  subst ho
  cases o' with
  | none => cases h
  | some t' => exact ⟨t', rfl, h⟩

private theorem un_keeps (op : UnOp) (s s' : ETy) (h : becomes s s' = true) : keeps (unTy op s) (unTy op s') = true := by
  have all : ∀ op ∈ [UnOp.deref, .arrow, .preInc, .postInc, .preDec, .postDec, .neg], ∀ s ∈ allTys, ∀ s' ∈ allTys,
      becomes s s' = true → keeps (unTy op s) (unTy op s') = true := by decide +kernel
  exact all op (by cases op <;> decide) s (mem_allTys s) s' (mem_allTys s') h

private theorem bin_keeps (op : BinOp) (s s' t t' : ETy) (h : becomes s s' = true) (h' : becomes t t' = true) :
    keeps (binTy op s t) (binTy op s' t') = true := by
  have all : ∀ op ∈ [BinOp.plus, .minus, .addAssign, .subAssign, .subscript, .eq, .ne, .lt, .le, .gt, .ge, .spaceship, .assign, .swap,
      .stdSwap], ∀ s ∈ allTys, ∀ s' ∈ allTys, becomes s s' = true → ∀ t ∈ allTys, ∀ t' ∈ allTys, becomes t t' = true →
      keeps (binTy op s t) (binTy op s' t') = true := by decide +kernel
  exact all op (by cases op <;> decide) s (mem_allTys s) s' (mem_allTys s') h t (mem_allTys t) t' (mem_allTys t') h'

private theorem make_keeps (c : IterCls) (s s' : ETy) (h : becomes s s' = true) (hc : initialises c s = true) :
    initialises (mutatedCls c) s' = true := by
  have all : ∀ c ∈ [IterCls.vecConst, .vecIter, .collConst, .collIter, .frag], ∀ s ∈ allTys, ∀ s' ∈ allTys,
      becomes s s' = true → initialises c s = true → initialises (mutatedCls c) s' = true := by decide +kernel
  exact all c (by cases c <;> decide) s (mem_allTys s) s' (mem_allTys s') h hc

/-- C193, `iterator` in place of `const_iterator`: every expression that compiles, with iterators of any kinds, compiles with all
`const_iterator`s replaced by `iterator`s, with the corresponding type. -/
theorem c193_substitute (e : IExpr) : ∀ t, typeOf e = some t → ∃ t', typeOf (mutated e) = some t' ∧ becomes t t' := by
  induction e with
  | var c => intro t h; cases h; exact ⟨_, rfl, by cases c <;> decide⟩
  | num => intro t h; cases h; exact ⟨_, rfl, by decide⟩
  | dflt c =>
    intro t h
    cases c <;> simp [typeOf, regular] at h <;> subst h <;> exact ⟨_, rfl, by decide⟩
  | make c e ih =>
    intro t h
    simp only [typeOf, Option.bind_eq_some_iff] at h
    obtain ⟨s, hs, h⟩ := h
    obtain ⟨s', hs', hb⟩ := ih s hs
    by_cases hi : initialises c s = true
    · rw [if_pos hi] at h
      cases h
      refine ⟨.it (mutatedCls c) false, ?_, by cases c <;> decide⟩
      simp only [mutated, typeOf, hs', Option.bind_some]
      exact if_pos (make_keeps c s s' hb hi)
    · rw [if_neg hi] at h
      cases h
  | un op e ih =>
    intro t h
    simp only [typeOf, Option.bind_eq_some_iff] at h
    obtain ⟨s, hs, h⟩ := h
    obtain ⟨s', hs', hb⟩ := ih s hs
    obtain ⟨t', ht', hb'⟩ := of_keeps (un_keeps op s s' hb) h
    exact ⟨t', by simp only [mutated, typeOf, hs', Option.bind_some, ht'], hb'⟩
  | bin op a b iha ihb =>
    intro t h
    simp only [typeOf, Option.bind_eq_some_iff] at h
    obtain ⟨s, hs, u, hu, h⟩ := h
    obtain ⟨s', hs', hb⟩ := iha s hs
    obtain ⟨u', hu', hb2⟩ := ihb u hu
    obtain ⟨t', ht', hb'⟩ := of_keeps (bin_keeps op s s' u u' hb hb2) h
    exact ⟨t', by simp only [mutated, typeOf, hs', hu', Option.bind_some, ht'], hb'⟩
  | put e ih =>
    intro t h
    simp only [typeOf, Option.bind_eq_some_iff] at h
    obtain ⟨s, hs, h⟩ := h
    obtain ⟨s', hs', hb⟩ := ih s hs
    by_cases hi : s = .elem true
    · rw [if_pos hi] at h
      cases h
      subst hi
      have : s' = .elem true := by
        rcases s' with _ | _ | ⟨_ | _⟩ | _ | _ | _ | _ <;> first | rfl | (simp [becomes] at hb)
      subst this
      exact ⟨.elem true, by simp [mutated, typeOf, hs'], by decide⟩
    · rw [if_neg hi] at h
      cases h

/-- C193, writing: what is not an `iterator` of a container never gives an element to write to; `*a = v` compiles exactly for those. -/
theorem c193_write (e : IExpr) (c : IterCls) (l : Bool) (he : typeOf e = some (.it c l)) :
    typeOf (.put (.un .deref e)) = if writable c then some (.elem true) else none := by
  simp only [typeOf, he, Option.bind_some]
  cases c <;> rfl

/-- C193, conversions: an `iterator` can be copied into a `const_iterator` of its container and assigned to one, never the other way round,
and nothing else converts; so no `iterator` is ever made of a `const_iterator`. -/
theorem c193_conversions (e e' : IExpr) (c c' : IterCls) (l l' : Bool) (he : typeOf e = some (.it c l))
    (he' : typeOf e' = some (.it c' l')) :
    (typeOf (.make c e') = if sameContainer c c' ∧ (writable c → writable c') then some (.it c false) else none) ∧
    (typeOf (.bin .assign e e') =
      if c ≠ .frag ∧ sameContainer c c' ∧ (writable c → writable c') then some (.it c true) else none) := by
  simp only [typeOf, he, he', Option.bind_some]
  constructor <;> cases c <;> cases c' <;> cases l <;> cases l' <;> rfl

/- The middle of two positions as `std::lower_bound` takes it, `first + (last - first)`, compiles for all iterators; the assignment of it
to `first` does not for those of a fragment string. -/
example : typeOf (.bin .plus (.var .frag) (.bin .minus (.var .frag) (.var .frag))) = some (.it .frag false) ∧
    typeOf (.bin .assign (.var .frag) (.bin .plus (.var .frag) (.bin .minus (.var .frag) (.var .frag)))) = none ∧
    typeOf (.bin .assign (.var .vecIter) (.bin .plus (.var .vecIter) (.bin .minus (.var .vecIter) (.var .vecIter)))) =
      some (.it .vecIter true) := by decide

/- An `iterator` minus a `const_iterator`, and the other way round. -/
example : typeOf (.bin .minus (.var .vecIter) (.var .vecConst)) = none ∧
    typeOf (.bin .minus (.var .vecConst) (.var .vecIter)) = some .num ∧
    typeOf (.bin .eq (.var .vecIter) (.var .vecConst)) = some .bool := by decide

/- `*a++` of a `const_iterator` reads, that of an `iterator` can be written. -/
example : typeOf (.un .deref (.un .postInc (.var .vecConst))) = some (.elem false) ∧
    typeOf (mutated (.un .deref (.un .postInc (.var .vecConst)))) = some (.elem true) := by decide

end Wite.Props
