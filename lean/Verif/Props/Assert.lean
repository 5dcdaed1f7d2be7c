import Verif.Lemmas.BuildsAll
import Verif.Lemmas.IntTy

/-!
# Property C161: the three builds do the same as long as no assertion fails

Every function that asserts something is compared in three builds: the debug build the library's own tests use, in which a
failed assertion throws; the debug build anybody else gets, in which it stops the program; and the release build, which does
not look.  `Builds.Aborting f` says that `f` in the second build stops where it throws a failed assertion in the first
build, and otherwise does the same.  `Builds.Releasing f` says that `f` in the release build does the same as in the
first, unless an assertion failed there.
-/

namespace Wite.Props

open Wite Wite.Builds Wite.Collections Wite.Maths

/-! ## Indices -/

section
open Wite.Index

private theorem aborting_of {α : Type} {f : Build → Outcome α} (h : f .aborting = aborts (f .debug)) : Aborting f := h

private theorem agree_inc (i : Nat) : Agree (fun b => inc b i) ∧ Agree (fun b => incPost b i) ∧ Agree (fun b => dec b i) ∧
    Agree (fun b => decPost b i) :=
  ⟨agree_bind (agree_assert _ _) fun _ => agree_pure _, agree_bind (agree_assert _ _) fun _ => agree_pure _,
    agree_bind (agree_assert _ _) fun _ => agree_pure _, agree_bind (agree_assert _ _) fun _ => agree_pure _⟩

private theorem agree_addAssign {k : Int} (hk : k ≠ -2 ^ 63) (i : Nat) : Agree (fun b => addAssign b i k) := by
  have hn : negate k = .ok (-k) := if_neg hk
  by_cases hp : k > 0
  · have h : (fun b => addAssign b i k) = fun b => debugAssert b (decide (i ≤ (maxValue + (modulus - toUnsigned k)) % modulus))
        "Index overflow" >>= fun _ => pure ((i + toUnsigned k) % modulus) := by
      funext b
      cases b <;> simp [addAssign, hp, debugAssert]
    rw [h]
    exact agree_bind (agree_assert _ _) fun _ => agree_pure _
  · have h : (fun b => addAssign b i k) = fun b => debugAssert b (decide (i ≥ toUnsigned (-k)))
        "Index underflow" >>= fun _ => pure ((i + toUnsigned k) % modulus) := by
      funext b
      cases b <;> simp [addAssign, hp, hn, debugAssert]
    rw [h]
    exact agree_bind (agree_assert _ _) fun _ => agree_pure _

private theorem agree_subAssign {k : Int} (hk : k ≠ -2 ^ 63) (i : Nat) : Agree (fun b => subAssign b i k) := by
  have hn : negate k = .ok (-k) := if_neg hk
  by_cases hp : k > 0
  · have h : (fun b => subAssign b i k) = fun b => debugAssert b (decide (i ≥ toUnsigned k))
        "Index underflow" >>= fun _ => pure ((i + (modulus - toUnsigned k)) % modulus) := by
      funext b
      cases b <;> simp [subAssign, hp, debugAssert]
    rw [h]
    exact agree_bind (agree_assert _ _) fun _ => agree_pure _
  · have h : (fun b => subAssign b i k) = fun b => debugAssert b (decide (i ≤ (maxValue + (modulus - toUnsigned (-k))) % modulus))
        "Index overflow" >>= fun _ => pure ((i + (modulus - toUnsigned k)) % modulus) := by
      funext b
      cases b <;> simp [subAssign, hp, hn, debugAssert]
    rw [h]
    exact agree_bind (agree_assert _ _) fun _ => agree_pure _

private theorem least {i : Nat} : (∀ b, b ≠ .release → addAssign b i (-2 ^ 63) = .ub ∧ subAssign b i (-2 ^ 63) = .ub) ∧
    addAssign .release i (-2 ^ 63) = .ok ((i + 2 ^ 63) % 2 ^ 64) ∧
    subAssign .release i (-2 ^ 63) = .ok ((i + 2 ^ 63) % 2 ^ 64) := by
  have hn : negate (-2 ^ 63) = .ub := if_pos rfl
  have hp : ¬ ((-2 ^ 63 : Int) > 0) := by decide
  have hu : toUnsigned (-2 ^ 63) = 2 ^ 63 := by decide +kernel
  refine ⟨fun b hb => ?_, ?_, ?_⟩
  · cases b with
    | release => exact absurd rfl hb
    | debug => constructor <;> simp only [addAssign, subAssign, if_neg hp, hn] <;> rfl
    | aborting => constructor <;> simp only [addAssign, subAssign, if_neg hp, hn] <;> rfl
  · simp only [addAssign, hu]; rfl
  · simp only [subAssign, hu]; rfl

/-- C161: in a debug build without exceptions, the operations of `index`. -/
theorem c161_index_aborting_partial (i : Nat) (k : Int) :
    Aborting (fun b => inc b i) ∧ Aborting (fun b => incPost b i) ∧ Aborting (fun b => dec b i) ∧
      Aborting (fun b => decPost b i) ∧ Aborting (fun b => addAssign b i k) ∧ Aborting (fun b => subAssign b i k) ∧
      Aborting (fun b => Index.add b i k) ∧ Aborting (fun b => Index.sub b i k) := by
  have ha : Aborting (fun b => addAssign b i k) := by
    by_cases hk : k = -2 ^ 63
    · subst hk
      refine aborting_of ?_
      show addAssign .aborting i (-2 ^ 63) = aborts (addAssign .debug i (-2 ^ 63))
      rw [(least.1 .aborting (by decide)).1, (least.1 .debug (by decide)).1]; rfl
    · exact (agree_addAssign hk i).1
  have hs : Aborting (fun b => subAssign b i k) := by
    by_cases hk : k = -2 ^ 63
    · subst hk
      refine aborting_of ?_
      show subAssign .aborting i (-2 ^ 63) = aborts (subAssign .debug i (-2 ^ 63))
      rw [(least.1 .aborting (by decide)).2, (least.1 .debug (by decide)).2]; rfl
    · exact (agree_subAssign hk i).1
  exact ⟨(agree_inc i).1.1, (agree_inc i).2.1.1, (agree_inc i).2.2.1.1, (agree_inc i).2.2.2.1, ha, hs, ha, hs⟩

/-- C161: in the release build, the operations of `index`, for every offset but the least. -/
theorem c161_index_releasing_partial (i : Nat) (k : Int) (hk : k ≠ -2 ^ 63) :
    Releasing (fun b => inc b i) ∧ Releasing (fun b => incPost b i) ∧ Releasing (fun b => dec b i) ∧
      Releasing (fun b => decPost b i) ∧ Releasing (fun b => addAssign b i k) ∧ Releasing (fun b => subAssign b i k) ∧
      Releasing (fun b => Index.add b i k) ∧ Releasing (fun b => Index.sub b i k) :=
  ⟨(agree_inc i).1.2, (agree_inc i).2.1.2, (agree_inc i).2.2.1.2, (agree_inc i).2.2.2.2, (agree_addAssign hk i).2,
    (agree_subAssign hk i).2, (agree_addAssign hk i).2, (agree_subAssign hk i).2⟩

/-- C161 is false for the least offset: the check negates it, which is undefined, while the release build computes the
result. -/
theorem c161_refuted_index (i : Nat) :
    addAssign .debug i (-2 ^ 63) = .ub ∧ addAssign .aborting i (-2 ^ 63) = .ub ∧
      addAssign .release i (-2 ^ 63) = .ok ((i + 2 ^ 63) % 2 ^ 64) ∧
    subAssign .debug i (-2 ^ 63) = .ub ∧ subAssign .aborting i (-2 ^ 63) = .ub ∧
      subAssign .release i (-2 ^ 63) = .ok ((i + 2 ^ 63) % 2 ^ 64) :=
  ⟨(least.1 .debug (by decide)).1, (least.1 .aborting (by decide)).1, least.2.1, (least.1 .debug (by decide)).2,
    (least.1 .aborting (by decide)).2, least.2.2⟩

example : inc .debug (2 ^ 64 - 1) = .throw (.assertion "Index overflow") ∧ inc .aborting (2 ^ 64 - 1) = .terminate ∧
    inc .release (2 ^ 64 - 1) = .ok 0 ∧ addAssign .debug 3 5 = .ok 8 ∧ addAssign .aborting 3 5 = .ok 8 ∧
    addAssign .release 3 5 = .ok 8 := by decide +kernel

end

/-! ## Iterators of `static_vector` and `identifiable_item_collection` -/

section
variable {α ι : Type}

/-- The iterator operations that compute positions, in one of the three builds each. -/
private theorem agree_iterator (slots : Nat) (x y : DerefIter) (d : Int) (k : Nat) (u : DerefIter → DerefIter → Ordering) :
    Agree (fun b => DerefIter.incr b slots x) ∧ Agree (fun b => DerefIter.decr b slots x) ∧
    Agree (fun b => DerefIter.addAssign b slots d x) ∧ Agree (fun b => DerefIter.subAssign b slots d x) ∧
    Agree (fun b => DerefIter.plus b slots x d) ∧ Agree (fun b => DerefIter.minus b slots x d) ∧
    Agree (fun b => DerefIter.distance b x y) ∧ Agree (fun b => DerefIter.cmp b u x y) ∧
    Agree (fun b => DerefIter.incrs b slots k x) ∧ Agree (fun b => DerefIter.decrs b slots k x) :=
  ⟨agree_derefIncr _ _, agree_derefDecr _ _, agree_derefAddAssign _ _ _, agree_derefSubAssign _ _ _, agree_derefPlus _ _ _,
    agree_derefMinus _ _ _, agree_derefDistance _ _, agree_derefCmp _ _ _, agree_derefIncrs _ _ _, agree_derefDecrs _ _ _⟩

/-- C161: in a debug build without exceptions, moving, comparing and subtracting iterators, and loops over a `static_vector`. -/
theorem c161_iterators_aborting_partial (slots : Nat) (x y : DerefIter) (d : Int) (k : Nat) (u : DerefIter → DerefIter → Ordering)
    (v : StaticVector α) :
    Aborting (fun b => DerefIter.incr b slots x) ∧ Aborting (fun b => DerefIter.decr b slots x) ∧
    Aborting (fun b => DerefIter.addAssign b slots d x) ∧ Aborting (fun b => DerefIter.subAssign b slots d x) ∧
    Aborting (fun b => DerefIter.plus b slots x d) ∧ Aborting (fun b => DerefIter.minus b slots x d) ∧
    Aborting (fun b => DerefIter.distance b x y) ∧ Aborting (fun b => DerefIter.cmp b u x y) ∧
    Aborting (fun b => DerefIter.incrs b slots k x) ∧ Aborting (fun b => DerefIter.decrs b slots k x) ∧
    Aborting (fun b => DerefIter.loop b v y k x) := by
  obtain ⟨h1, h2, h3, h4, h5, h6, h7, h8, h9, h10⟩ := agree_iterator slots x y d k u
  exact ⟨h1.1, h2.1, h3.1, h4.1, h5.1, h6.1, h7.1, h8.1, h9.1, h10.1, (agree_derefLoop _ _ _ _).1⟩

/-- C161: the same, in the release build. -/
theorem c161_iterators_releasing_partial (slots : Nat) (x y : DerefIter) (d : Int) (k : Nat) (u : DerefIter → DerefIter → Ordering)
    (v : StaticVector α) :
    Releasing (fun b => DerefIter.incr b slots x) ∧ Releasing (fun b => DerefIter.decr b slots x) ∧
    Releasing (fun b => DerefIter.addAssign b slots d x) ∧ Releasing (fun b => DerefIter.subAssign b slots d x) ∧
    Releasing (fun b => DerefIter.plus b slots x d) ∧ Releasing (fun b => DerefIter.minus b slots x d) ∧
    Releasing (fun b => DerefIter.distance b x y) ∧ Releasing (fun b => DerefIter.cmp b u x y) ∧
    Releasing (fun b => DerefIter.incrs b slots k x) ∧ Releasing (fun b => DerefIter.decrs b slots k x) ∧
    Releasing (fun b => DerefIter.loop b v y k x) := by
  obtain ⟨h1, h2, h3, h4, h5, h6, h7, h8, h9, h10⟩ := agree_iterator slots x y d k u
  exact ⟨h1.2, h2.2, h3.2, h4.2, h5.2, h6.2, h7.2, h8.2, h9.2, h10.2, (agree_derefLoop _ _ _ _).2⟩

/-- Reverse iterators: moving them, reading through them and loops, for a `static_vector` and for a collection. -/
private theorem agree_reverse (slots : Nat) (read : Nat → Outcome α) (hr : ∀ i, plain (read i)) (x last : RevIter) (d : Int)
    (k : Nat) :
    Agree (fun b => RevIter.incr b slots x) ∧ Agree (fun b => RevIter.decr b slots x) ∧
    Agree (fun b => RevIter.plus b slots x d) ∧ Agree (fun b => RevIter.minus b slots x d) ∧
    Agree (fun b => RevIter.addAssign b slots d x) ∧ Agree (fun b => RevIter.subAssign b slots d x) ∧
    Agree (fun b => RevIter.deref b slots read x) ∧ Agree (fun b => RevIter.subscript b slots read x d) ∧
    Agree (fun b => RevIter.loop b slots read last k x) :=
  ⟨agree_revIncr _ _, agree_revDecr _ _, agree_revPlus _ _ _, agree_revMinus _ _ _, agree_revAddAssign _ _ _,
    agree_revSubAssign _ _ _, agree_revDeref _ hr _, agree_revSubscript _ hr _ _, agree_revLoop _ hr _ _ _⟩

/-- C161 for reverse iterators of a `static_vector`. -/
theorem c161_reverse_partial (v : StaticVector α) (x last : RevIter) (d : Int) (k : Nat) :
    Agree (fun b => RevIter.incr b v.data.length x) ∧ Agree (fun b => RevIter.decr b v.data.length x) ∧
    Agree (fun b => RevIter.plus b v.data.length x d) ∧ Agree (fun b => RevIter.minus b v.data.length x d) ∧
    Agree (fun b => RevIter.addAssign b v.data.length d x) ∧ Agree (fun b => RevIter.subAssign b v.data.length d x) ∧
    Agree (fun b => RevIter.deref b v.data.length v.index x) ∧
    Agree (fun b => RevIter.subscript b v.data.length v.index x d) ∧
    Agree (fun b => RevIter.loop b v.data.length v.index last k x) :=
  agree_reverse _ _ (plain_index v) x last d k

/-- C161 for reverse iterators of a collection. -/
theorem c161_reverse_items_partial (s : ItemCollection ι α) (x last : RevIter) (d : Int) (k : Nat) :
    Agree (fun b => RevIter.deref b s.ordered.length (RevIter.readItem s) x) ∧
    Agree (fun b => RevIter.subscript b s.ordered.length (RevIter.readItem s) x d) ∧
    Agree (fun b => RevIter.loop b s.ordered.length (RevIter.readItem s) last k x) :=
  (agree_reverse _ _ (plain_readItem s) x last d k).2.2.2.2.2.2

/-- C161 for iterators into collections that are moved. -/
theorem c161_moved_iterators_partial {n : Nat} (s : Arrays n ι α) (x y : CollIter n) (k : Nat)
    (u : CollIter n → CollIter n → Ordering) :
    Agree (fun b => CollIter.incr b s x) ∧ Agree (fun b => CollIter.distance b x y) ∧ Agree (fun b => CollIter.cmp b u x y) ∧
      Agree (fun b => CollIter.loop b s y k x) :=
  ⟨agree_collIncr _ _, agree_collDistance _ _, agree_collCmp _ _ _, agree_collLoop _ _ _ _⟩

/-- C161 for `it[n]`, when the slot there holds an element or does not exist. -/
theorem c161_subscript_partial (v : StaticVector α) (it : DerefIter) (d : Int)
    (h : v.data[((it.pos : Int) + d).toNat]? ≠ some none) : Agree (fun b => DerefIter.subscript b v it d) := by
  rcases ptrAdd_cases v.data.length it.pos d with ⟨q, hq⟩ | hq
  · have hq' : q = ((it.pos : Int) + d).toNat := by
      unfold DerefIter.ptrAdd at hq
      split at hq <;> cases hq
      rfl
    rw [← hq'] at h
    simp only [DerefIter.subscript, hq, assertPtr_ok, Outcome.bind_ok]
    refine agree_bind (agree_assert _ _) fun _ => agree_bind (agree_assert _ _) fun _ => ?_
    rcases hs : v.data[q]? with _ | _ | y
    · exact agree_ub
    · exact absurd hs h
    · exact agree_ok y
  · by_cases hd : 0 ≤ d
    · refine agree_all_ub fun b => ?_
      simp only [DerefIter.subscript, hq, hd, decide_true]
      cases b <;> rfl
    · have hf : decide (0 ≤ d) = false := decide_eq_false hd
      constructor
      · show DerefIter.subscript .aborting v it d = aborts (DerefIter.subscript .debug v it d)
        simp only [DerefIter.subscript, hf]; rfl
      · right; right
        refine ⟨"static_vector::operator[]: negative indices are invalid", ?_⟩
        simp only [DerefIter.subscript, hf]; rfl

/-- C161 is false for `it[n]` at an empty slot before the end the iterator remembers, as after the vector has
shrunk: the debug build the tests use throws, the others end the program. -/
theorem c161_refuted_subscript (v : StaticVector α) (it : DerefIter) (n : Nat) (h1 : it.pos + n < it.parentEnd)
    (h2 : v.data[it.pos + n]? = some none) :
    DerefIter.subscript .debug v it n = .throw (.logicError "bad optional access") ∧
      DerefIter.subscript .aborting v it n = .terminate ∧ DerefIter.subscript .release v it n = .terminate := by
  have hl : it.pos + n < v.data.length := by
    rcases Nat.lt_or_ge (it.pos + n) v.data.length with h | h
    · exact h
    · rw [List.getElem?_eq_none h] at h2; cases h2
  have hq : DerefIter.ptrAdd v.data.length it.pos n = .ok (it.pos + n) := by
    unfold DerefIter.ptrAdd
    rw [if_pos ⟨by omega, by omega⟩]
    congr 1
  have hn : decide (0 ≤ (n : Int)) = true := by simp
  have ha : ∀ b m, debugAssert b (decide (0 ≤ (n : Int))) m = .ok () := by
    intro b m; rw [hn]; cases b <;> rfl
  have hb : ∀ b m, debugAssert b (decide (it.pos + n < it.parentEnd)) m = .ok () := by
    intro b m; rw [decide_eq_true h1]; cases b <;> rfl
  refine ⟨?_, ?_, ?_⟩ <;>
    simp only [DerefIter.subscript, hq, assertPtr_ok, ha, hb, Outcome.bind_ok, h2]

example : -- three elements, an iterator to the second, then one element is left: it[1]
    DerefIter.subscript .debug (⟨[some 'a', none, none, none], 1⟩ : StaticVector Char) ⟨1, 0, 3⟩ 1 =
      .throw (.logicError "bad optional access") ∧
    DerefIter.subscript .aborting (⟨[some 'a', none, none, none], 1⟩ : StaticVector Char) ⟨1, 0, 3⟩ 1 = .terminate ∧
    DerefIter.incr .debug 4 ⟨3, 0, 3⟩ = .throw (.assertion "static_vector::operator++: incrementing past end") ∧
    DerefIter.incr .aborting 4 ⟨3, 0, 3⟩ = .terminate ∧ DerefIter.incr .release 4 ⟨3, 0, 3⟩ = .ok ⟨4, 0, 3⟩ ∧
    DerefIter.incr .aborting 4 ⟨2, 0, 3⟩ = .ok ⟨3, 0, 3⟩ := by decide

end

/-! ## Fragment strings -/

section
variable {C : Type}
open Wite.Str

/-- C161: iterators of a fragment string and access to its characters. -/
theorem c161_fragment_access_partial (fs : FragStr C) (it : It) (d : Int) (pos n : Nat) :
    Agree (fun b => Str.deref b fs it) ∧ Agree (fun b => Str.incr b fs it) ∧ Agree (fun b => Str.decr b fs it) ∧
    Agree (fun b => Str.plus b fs it d) ∧ Agree (fun b => Str.minus b fs it d) ∧ Agree (fun b => Str.index b fs pos) ∧
    Agree (fun b => Str.at' b fs pos) ∧ Agree (fun b => Str.front b fs) ∧ Agree (fun b => Str.back b fs) ∧
    Agree (fun b => Str.substr b fs pos n) ∧ Agree (fun b => Str.copy b fs n pos) :=
  ⟨agree_strDeref _ _, agree_strIncr _ _, agree_strDecr _ _, agree_strPlus _ _ _, agree_strMinus _ _ _, agree_strIndex _ _,
    agree_strAt _ _, agree_front _, agree_back _, agree_substr _ _ _, agree_copy _ _ _⟩

/-- C161: comparing and searching fragment strings. -/
theorem c161_fragment_search_partial [LinearOrder C] [Zero C] (fs gs : FragStr C) (s mem : List C) (c : C) (pos : Nat) :
    Agree (fun b => compareView b fs s) ∧ Agree (fun b => comparePtr b fs mem) ∧ Agree (fun b => compareFs b fs gs) ∧
    Agree (fun b => startsWithChar b fs c) ∧ Agree (fun b => startsWithView b fs s) ∧ Agree (fun b => startsWithPtr b fs mem) ∧
    Agree (fun b => startsWithFs b fs gs) ∧
    Agree (fun b => endsWithChar b fs c) ∧ Agree (fun b => endsWithView b fs s) ∧ Agree (fun b => endsWithPtr b fs mem) ∧
    Agree (fun b => endsWithFs b fs gs) ∧
    Agree (fun b => findView b fs s pos) ∧ Agree (fun b => containsView b fs s) ∧ Agree (fun b => containsPtr b fs mem) ∧
    Agree (fun b => containsFs b fs gs) :=
  ⟨agree_compareIter fs (agreeI_view s) _ _, agree_compareIter fs (agreeI_view (cstr mem)) _ _, agree_compareFs _ _,
    agree_startsWithChar _ _, agree_startsWithView _ _, agree_startsWithView _ _, agree_startsWithFs _ _,
    agree_endsWithChar _ _, agree_endsWithView _ _, agree_endsWithView _ _, agree_endsWithFs _ _,
    agree_findView _ _ _, agree_containsView _ _, agree_containsView _ _, agree_containsFs _ _⟩

/-- C161: the same over memory that may have changed or gone. -/
theorem c161_fragment_live_partial (mem : FragLive.Mem C) (fs : FragLive.FragStr) (it : It) (pos n : Nat) :
    Agree (fun b => FragLive.deref mem b fs it) ∧ Agree (fun b => FragLive.index mem b fs pos) ∧
    Agree (fun b => FragLive.at' mem b fs pos) ∧ Agree (fun b => FragLive.substr mem b fs pos n) ∧
    Agree (fun b => FragLive.copy mem b fs n pos) ∧ Agree (fun b => FragLive.forEach mem b fs) :=
  ⟨agree_liveDeref _ _ _, agree_liveIndex _ _ _, agree_liveAt _ _ _, agree_liveSubstr _ _ _ _, agree_liveCopy _ _ _ _,
    agree_liveForEach _ _⟩

example : Str.front .debug [(none : Option (List Char))] = .throw (.assertion "accessing fragment_string beyond end of string") ∧
    Str.front .aborting [(none : Option (List Char))] = .terminate ∧ Str.front .release [(none : Option (List Char))] = .ub ∧
    Str.front .aborting [some ['x']] = .ok 'x' ∧
    -- `operator[]` is `noexcept`: the tests' debug build ends here too
    Str.index .debug [some ['x']] 1 = .terminate ∧ Str.index .aborting [some ['x']] 1 = .terminate ∧
    Str.index .release [some ['x']] 1 = .ub := by decide

end

/-! ## Ranges of values -/

section
variable {α : Type} {lb hb : Boundary}

/-- C161: making ranges and computing with them. -/
theorem c161_ranges_partial [LT α] [DecidableLT α] [LE α] [DecidableLE α] (x y : α) (rest xs : List α)
    (r s : ValueRange α lb hb) (rs : List (ValueRange α lb hb)) :
    Agree (fun b => (ValueRange.make b x y : Outcome (ValueRange α lb hb))) ∧ Agree (fun b => ValueRange.overlap b r s) ∧
    Agree (fun b => ValueRange.envelopeV b x y rest) ∧ Agree (fun b => ValueRange.envelopeL b xs) ∧
    Agree (fun b => ValueRange.envelopeR b r s rs) :=
  ⟨agree_make _ _, agree_overlap _ _, agree_envelopeV _ _ _, agree_envelopeL _, agree_envelopeR _ _ _⟩

/-- C161: sizes and middles, and bounded values. -/
theorem c161_numbers_partial (t : IntTy) (r : ValueRange Int lb hb) {F : Fmt} (q : ValueRange (Flt F) lb hb) (x : Int) (y : Flt F) :
    Agree (fun b => r.sizeInt t b) ∧ Agree (fun b => r.midInt t b) ∧ Agree (fun b => q.sizeFlt b) ∧ Agree (fun b => q.midFlt b) ∧
    Agree (fun b => (BoundedValue.makeInt b t x : Outcome (BoundedValue Int lb hb))) ∧
    Agree (fun b => (BoundedValue.makeFlt b y : Outcome (BoundedValue (Flt F) lb hb))) :=
  ⟨agree_sizeInt _ _, agree_midInt _ _, agree_sizeFlt _, agree_midFlt _, agree_makeInt _ _, agree_makeFlt _⟩

variable [LT α] [DecidableLT α] [LE α] [DecidableLE α]

/-- C161: the setters, when the neighbour they look at for an open bound exists. -/
theorem c161_setters_partial (next prev : α → Outcome α) (x y z : α) (hn : lb = .opened → next x = .ok y)
    (hp : hb = .opened → prev x = .ok z) :
    AgreeS (fun b => (ValueRange.setMin next b x : St (ValueRange α lb hb) PUnit)) ∧
      AgreeS (fun b => (ValueRange.setMax prev b x : St (ValueRange α lb hb) PUnit)) := by
  constructor
  · have h : (fun b => (ValueRange.setMin next b x : St (ValueRange α lb hb) PUnit)) = fun b => (do
        let r ← St.get
        St.lift (debugAssert b (!r.aboveMax (match lb with | .closed => x | .opened => y)) "value_range setting min > max")
        St.set { r with lo := x }) := by
      funext b s
      cases lb with
      | closed => cases b <;> rfl
      | opened =>
        have hn' := hn rfl
        cases b with
        | release => rfl
        | debug =>
          simp only [ValueRange.setMin, hn']
          rfl
        | aborting =>
          simp only [ValueRange.setMin, hn']
          rfl
    rw [h]
    exact agreeS_bind agreeS_get fun r => agreeS_bind (agreeS_lift (agree_assert _ _)) fun _ => agreeS_set _
  · have h : (fun b => (ValueRange.setMax prev b x : St (ValueRange α lb hb) PUnit)) = fun b => (do
        let r ← St.get
        St.lift (debugAssert b (!r.belowMin (match hb with | .closed => x | .opened => z)) "value_range setting max < min")
        St.set { r with hi := x }) := by
      funext b s
      cases hb with
      | closed => cases b <;> rfl
      | opened =>
        have hp' := hp rfl
        cases b with
        | release => rfl
        | debug =>
          simp only [ValueRange.setMax, hp']
          rfl
        | aborting =>
          simp only [ValueRange.setMax, hp']
          rfl
    rw [h]
    exact agreeS_bind agreeS_get fun r => agreeS_bind (agreeS_lift (agree_assert _ _)) fun _ => agreeS_set _

/-- C161 is false for the setters of open bounds at the ends of a signed type of 32 bits or more: the check looks at the
neighbour, which does not exist, while the release build sets the bound. -/
theorem c161_refuted_setters (t : IntTy) (hs : t.signed = true) (hb32 : 32 ≤ t.bits) :
    (∀ r : ValueRange Int .opened hb,
      ((ValueRange.setMin (nextInt t) .debug t.maxValue).run r).1 = .ub ∧
      ((ValueRange.setMin (nextInt t) .aborting t.maxValue).run r).1 = .ub ∧
      (ValueRange.setMin (nextInt t) .release t.maxValue).run r = (.ok ⟨⟩, ⟨t.maxValue, r.hi⟩)) ∧
    (∀ r : ValueRange Int lb .opened,
      ((ValueRange.setMax (prevInt t) .debug t.minValue).run r).1 = .ub ∧
      ((ValueRange.setMax (prevInt t) .aborting t.minValue).run r).1 = .ub ∧
      (ValueRange.setMax (prevInt t) .release t.minValue).run r = (.ok ⟨⟩, ⟨r.lo, t.minValue⟩)) := by
  have hn : nextInt t t.maxValue = .ub := by
    unfold nextInt IntTy.add
    rw [IntTy.promote_wide hb32, IntTy.result_ub hs (by intro h; have := h.2; omega)]
    rfl
  have hp : prevInt t t.minValue = .ub := by
    unfold prevInt IntTy.sub
    rw [IntTy.promote_wide hb32, IntTy.result_ub hs (by intro h; have := h.1; omega)]
    rfl
  refine ⟨fun r => ⟨?_, ?_, rfl⟩, fun r => ⟨?_, ?_, rfl⟩⟩
  · simp only [ValueRange.setMin, hn]; rfl
  · simp only [ValueRange.setMin, hn]; rfl
  · simp only [ValueRange.setMax, hp]; rfl
  · simp only [ValueRange.setMax, hp]; rfl

example : ((ValueRange.setMin (nextInt ⟨32, true⟩) .aborting 7).run (⟨0, 5⟩ : ValueRange Int .closed .closed)).1 = .terminate ∧
    (ValueRange.setMin (nextInt ⟨32, true⟩) .aborting 4).run (⟨0, 5⟩ : ValueRange Int .opened .closed) = (.ok ⟨⟩, ⟨4, 5⟩) ∧
    (ValueRange.setMin (nextInt ⟨32, true⟩) .release 7).run (⟨0, 5⟩ : ValueRange Int .closed .closed) = (.ok ⟨⟩, ⟨7, 5⟩) ∧
    (ValueRange.make .aborting (3 : Int) 1 : Outcome (ValueRange Int .closed .closed)) = .terminate := by decide

end

/-! ## Collections of items -/

section
variable {ι α : Type} [DecidableEq ι]

/-- C161: every call on a collection, whatever memory does. -/
theorem c161_collections_partial (mem : Site → Nat → Bool) (idOf : α → ι) (op : ItemCollection.Op ι α) :
    AgreeS (fun b => ItemCollection.step b mem idOf op) :=
  agreeS_step mem idOf op

/-- C161: whole programs on collections that are moved, with memory that may run out: if in the tests' debug
build no call fails an assertion or is undefined, then in the other builds every call returns and throws the same and leaves the
same. -/
theorem c161_programs_partial {n : Nat} (mem : Site → Nat → Bool) (idOf : α → ι) (ops : List (Colls.Op n ι α)) (w : Colls n ι α)
    (h : ∀ o ∈ (St.outcomes (Colls.step .debug mem idOf) ops w).1, o ≠ .ub ∧ ¬ stopped o) :
    St.outcomes (Colls.step .aborting mem idOf) ops w = St.outcomes (Colls.step .debug mem idOf) ops w ∧
      St.outcomes (Colls.step .release mem idOf) ops w = St.outcomes (Colls.step .debug mem idOf) ops w :=
  outcomes_agree (step := fun b => Colls.step b mem idOf) (agreeS_collsStep mem idOf) ops w h

/-- C161: whole programs whose items, ids and comparisons throw exceptions of their own. -/
theorem c161_throwing_programs_partial (o : ItemCollection.Oracle) (ho : ∀ ev n m, o ev n ≠ some (.assertion m)) (idOf : α → ι)
    (ops : List (ItemCollection.Form × ItemCollection.Op ι α)) (s : ItemCollection ι α)
    (h : ∀ r ∈ (St.outcomes (ItemCollection.stepT .debug o idOf) ops s).1, r ≠ .ub ∧ ¬ stopped r) :
    St.outcomes (ItemCollection.stepT .aborting o idOf) ops s = St.outcomes (ItemCollection.stepT .debug o idOf) ops s ∧
      St.outcomes (ItemCollection.stepT .release o idOf) ops s = St.outcomes (ItemCollection.stepT .debug o idOf) ops s :=
  outcomes_agree (step := fun b => ItemCollection.stepT b o idOf) (agreeS_stepT ho idOf) ops s h

example : -- no memory for the vector of pointers at the first insertion: the second one finds the sizes different
    (St.outcomes (ItemCollection.step .debug (fun site n => !(site == .order && n == 2)) Prod.fst)
      [.insert (1, 'a'), .insert (2, 'b')] (ItemCollection.empty : ItemCollection Nat (Nat × Char))).1 =
        [.throw .badAlloc, .throw (.assertion "item container size mismatch")] ∧
    (St.outcomes (ItemCollection.step .aborting (fun site n => !(site == .order && n == 2)) Prod.fst)
      [.insert (1, 'a'), .insert (2, 'b')] (ItemCollection.empty : ItemCollection Nat (Nat × Char))).1 =
        [.throw .badAlloc, .terminate] ∧
    (St.outcomes (ItemCollection.step .release (fun site n => !(site == .order && n == 2)) Prod.fst)
      [.insert (1, 'a'), .insert (2, 'b')] (ItemCollection.empty : ItemCollection Nat (Nat × Char))).1 =
        [.throw .badAlloc, .ok .unit] := by decide

end

end Wite.Props
