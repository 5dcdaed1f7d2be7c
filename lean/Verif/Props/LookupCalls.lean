import Verif.Model.LookupCalls
import Verif.Lemmas.NumTy
import Verif.Props.StaticLookup

/-!
# Property C184: `static_lookup` with numbers of several types
-/

namespace Wite.Props

open Wite Wite.Maths Wite.Collections Wite.Collections.LookupCalls

/-- The number the key of an argument stands for. -/
def PairArg.keyNum (a : PairArg) : Option ℚ := a.ty.first.num a.key

/-- The number the value of an argument stands for. -/
def PairArg.valueNum (a : PairArg) : Option ℚ := a.ty.second.num a.value

/-! ## C184 -/

/-- C184: which calls compile.  The types of the third and later arguments of `make_static_lookup`, and of the second and later
arguments of the constructor, do not matter; `make_static_lookup` of one mapping does not compile. -/
theorem c184_compiles (k v : NumTy) (n : Nat) (ts : List PairTy) :
    (ctorAccepts k v n ts ↔ ts.length = n ∧ ∃ others, ts = ⟨k, v⟩ :: others) ∧
    ((deduced ts).isSome ↔ ts ≠ []) ∧
    (makeAccepts ts ↔ ∃ t others, ts = t :: t :: others) := by
  refine ⟨?_, ?_, ?_⟩
  · cases ts with
    | nil => simp [ctorAccepts, commonType]
    | cons t ts => simp [ctorAccepts, commonType]; exact and_comm
  · cases ts <;> simp [deduced, commonType]
  · cases ts with
    | nil => simp [makeAccepts]
    | cons t ts =>
      cases ts with
      | nil => simp [makeAccepts, commonType]
      | cons u us =>
        simp only [makeAccepts, commonType, Option.some_inj]
        constructor
        · rintro rfl; exact ⟨_, _, rfl⟩
        · rintro ⟨t', o, h⟩; injection h with h1 h2; injection h2 with h2 _; rw [h1, h2]

/-- `std::pair<int, double>` may be mixed with pairs of `int`s as long as it comes third. -/
example : makeAccepts [⟨.int .int, .int .int⟩, ⟨.int .int, .int .int⟩, ⟨.int .int, .flt .double⟩] ∧
    ¬ makeAccepts [⟨.int .int, .int .int⟩] ∧ ¬ makeAccepts [⟨.int .int, .int .int⟩, ⟨.int .int, .flt .double⟩] := by
  refine ⟨rfl, by simp [makeAccepts, commonType], by simp [makeAccepts, commonType]⟩

private theorem all_ok (k v : NumTy) : ∀ args : List PairArg,
    (∀ a ∈ args, ∃ p q, PairArg.keyNum a = some p ∧ k.Holds p ∧ PairArg.valueNum a = some q ∧ v.Holds q) →
    ∃ ps, convertAll k v args = .ok ps ∧ ps.length = args.length ∧
      ∀ (i : Nat) a, args[i]? = some a → ∃ x : k.Val × v.Val, ps[i]? = some x ∧ k.num x.1 = PairArg.keyNum a ∧ v.num x.2 = PairArg.valueNum a := by
  intro args
  induction args with
  | nil => intro _; exact ⟨[], rfl, rfl, by simp⟩
  | cons a as ih =>
    intro h
    obtain ⟨p, q, h1, h2, h3, h4⟩ := h a (List.mem_cons_self ..)
    obtain ⟨ps, h5, h6, h7⟩ := ih (fun b hb => h b (List.mem_cons_of_mem _ hb))
    obtain ⟨x, hx1, hx2, _⟩ := NumTy.convert_num _ k a.key p h1 h2
    obtain ⟨y, hy1, hy2, _⟩ := NumTy.convert_num _ v a.value q h3 h4
    refine ⟨(x, y) :: ps, ?_, by simp [h6], ?_⟩
    · simp only [convertAll, convertPair, hx1, hy1, h5]; rfl
    · intro i b hb
      cases i with
      | zero =>
        simp only [List.getElem?_cons_zero, Option.some_inj] at hb
        subst hb
        exact ⟨(x, y), rfl, hx2.trans h1.symm, hy2.trans h3.symm⟩
      | succ i => exact h7 i b (by simpa using hb)

private theorem find_first {α : Type} (f : α → Bool) : ∀ (l : List α) (i : Nat) (x : α), l[i]? = some x → f x = true →
    (∀ j y, j < i → l[j]? = some y → f y = false) → l.find? f = some x := by
  intro l
  induction l with
  | nil => intro i x h; simp at h
  | cons a l ih =>
    intro i x h hx hj
    cases i with
    | zero =>
      simp only [List.getElem?_cons_zero, Option.some_inj] at h
      subst h; simp [hx]
    | succ i =>
      rw [List.find?_cons_of_neg (by simp [hj 0 a (by omega) rfl])]
      exact ih i x (by simpa using h) hx (fun j y hj' hy => hj (j + 1) y (by omega) (by simpa using hy))

/-- C184, the part that holds: if the types of the lookup have all the numbers given, in the pairs and as argument, then `at`
finds the value of the first pair whose key is the same number, and throws if there is none; and `with` the other way round. -/
theorem c184_same_numbers_partial (k v s : NumTy) (blank : k.Val × v.Val) (args : List PairArg)
    (hargs : ∀ a ∈ args, ∃ p q, PairArg.keyNum a = some p ∧ k.Holds p ∧ PairArg.valueNum a = some q ∧ v.Holds q)
    (x : s.Val) (r : ℚ) (hx : s.num x = some r) :
    ∃ t, construct k v blank args = .ok t ∧
      (k.Holds r →
        (∀ (i : Nat) a, args[i]? = some a → PairArg.keyNum a = some r →
          (∀ (j : Nat) b, j < i → args[j]? = some b → PairArg.keyNum b ≠ some r) →
          ∃ y, atArg k v s t x = .ok y ∧ v.num y = PairArg.valueNum a) ∧
        ((∀ a ∈ args, PairArg.keyNum a ≠ some r) → atArg k v s t x = .throw (.outOfRange "Invalid item"))) ∧
      (v.Holds r →
        (∀ (i : Nat) a, args[i]? = some a → PairArg.valueNum a = some r →
          (∀ (j : Nat) b, j < i → args[j]? = some b → PairArg.valueNum b ≠ some r) →
          ∃ y, withArg k v s t x = .ok y ∧ k.num y = PairArg.keyNum a) ∧
        ((∀ a ∈ args, PairArg.valueNum a ≠ some r) → withArg k v s t x = .throw (.outOfRange "Invalid item"))) := by
  obtain ⟨ps, h1, h2, h3⟩ := all_ok k v args hargs
  have hitems := (c68_make blank ps).1
  have hat : ∀ i, i < args.length → ∃ a, args[i]? = some a := fun i hi => ⟨args[i], List.getElem?_eq_getElem hi⟩
  -- a pair of the table is the conversion of an argument
  have hback : ∀ (i : Nat) z, ps[i]? = some z → ∃ a, args[i]? = some a ∧ k.num z.1 = PairArg.keyNum a ∧ v.num z.2 = PairArg.valueNum a := by
    intro i z hz
    have hi : i < ps.length := by
      by_contra hc
      rw [List.getElem?_eq_none (by omega)] at hz; cases hz
    obtain ⟨a, ha⟩ := hat i (by omega)
    obtain ⟨z', hz', h4, h5⟩ := h3 i a ha
    rw [hz] at hz'; cases hz'
    exact ⟨a, ha, h4, h5⟩
  refine ⟨StaticLookup.make blank ps, ?_, ?_, ?_⟩
  · simp only [construct, h1]; rfl
  · intro hr
    obtain ⟨y, hy1, hy2, _⟩ := NumTy.convert_num s k x r hx hr
    have hstep : atArg k v s (StaticLookup.make blank ps) x = StaticLookup.at' k.eqv (StaticLookup.make blank ps) y := by
      simp only [atArg, hy1]; rfl
    have heq : ∀ (i : Nat) z a, ps[i]? = some z → args[i]? = some a → k.num z.1 = PairArg.keyNum a → (k.eqv z.1 y = true ↔ PairArg.keyNum a = some r) := by
      intro i z a _ ha hk
      obtain ⟨p, q, hp, _⟩ := hargs a (List.mem_of_getElem? ha)
      rw [NumTy.eqv_num k z.1 y p r (hk.trans hp) hy2, hp, Option.some_inj]
    refine ⟨?_, ?_⟩
    · intro i a ha hkey hfirst
      obtain ⟨z, hz, hz1, hz2⟩ := h3 i a ha
      refine ⟨z.2, ?_, hz2⟩
      rw [hstep, StaticLookup.at', StaticLookup.get, hitems, find_first _ ps i z hz ((heq i z a hz ha hz1).2 hkey)]
      intro j w hj hw
      obtain ⟨b, hb, hb1, _⟩ := hback j w hw
      exact Bool.eq_false_iff.2 fun hc => hfirst j b hj hb ((heq j w b hw hb hb1).1 hc)
    · intro hnone
      rw [hstep, StaticLookup.at', StaticLookup.get, hitems, List.find?_eq_none.2]
      intro w hw hc
      obtain ⟨j, hj⟩ := List.getElem?_of_mem hw
      obtain ⟨b, hb, hb1, _⟩ := hback j w hj
      exact hnone b (List.mem_of_getElem? hb) ((heq j w b hj hb hb1).1 hc)
  · intro hr
    obtain ⟨y, hy1, hy2, _⟩ := NumTy.convert_num s v x r hx hr
    have hstep : withArg k v s (StaticLookup.make blank ps) x = StaticLookup.with' v.eqv (StaticLookup.make blank ps) y := by
      simp only [withArg, hy1]; rfl
    have heq : ∀ (i : Nat) z a, ps[i]? = some z → args[i]? = some a → v.num z.2 = PairArg.valueNum a → (v.eqv z.2 y = true ↔ PairArg.valueNum a = some r) := by
      intro i z a _ ha hk
      obtain ⟨p, q, _, _, hq, _⟩ := hargs a (List.mem_of_getElem? ha)
      rw [NumTy.eqv_num v z.2 y q r (hk.trans hq) hy2, hq, Option.some_inj]
    refine ⟨?_, ?_⟩
    · intro i a ha hkey hfirst
      obtain ⟨z, hz, hz1, hz2⟩ := h3 i a ha
      refine ⟨z.1, ?_, hz1⟩
      rw [hstep, StaticLookup.with', StaticLookup.get, hitems, find_first _ ps i z hz ((heq i z a hz ha hz2).2 hkey)]
      intro j w hj hw
      obtain ⟨b, hb, _, hb2⟩ := hback j w hw
      exact Bool.eq_false_iff.2 fun hc => hfirst j b hj hb ((heq j w b hw hb hb2).1 hc)
    · intro hnone
      rw [hstep, StaticLookup.with', StaticLookup.get, hitems, List.find?_eq_none.2]
      intro w hw hc
      obtain ⟨j, hj⟩ := List.getElem?_of_mem hw
      obtain ⟨b, hb, _, hb2⟩ := hback j w hj
      exact hnone b (List.mem_of_getElem? hb) ((heq j w b hj hb hb2).1 hc)

/-- Pairs of `int`s and a pair of `long`s and a `short` argument. -/
example : (do
    let t ← construct (.int .int) (.int .int) ((0 : Int), (0 : Int))
      [⟨⟨.int .int, .int .int⟩, (1 : Int), (10 : Int)⟩, ⟨⟨.int ⟨64, true⟩, .int ⟨64, true⟩⟩, (2 : Int), (20 : Int)⟩]
    atArg (.int .int) (.int .int) (.int ⟨16, true⟩) t (2 : Int)) = .ok (20 : Int) := by rfl

/-- C184 fails for arguments the key type does not have: with integer keys of any type, `at` of any other integer does what `at`
does with its remainder, so every key is found under infinitely many numbers. -/
theorem c184_refuted_argument (t s : IntTy) (v : NumTy) (table : StaticLookup Int v.Val) (key m : Int) (hb : 0 < t.bits) (hk : t.holds key) :
    atArg (.int t) v (.int s) table (key + m * 2 ^ t.bits : Int) = StaticLookup.at' (NumTy.eqv (.int t)) table key ∧
    (m ≠ 0 → ¬ t.holds (key + m * 2 ^ t.bits)) := by
  have hw : t.wrap (key + m * 2 ^ t.bits) = key := by
    have h := IntTy.wrap_of_holds hb hk
    unfold IntTy.wrap at h ⊢
    rw [show key + m * 2 ^ t.bits - t.minValue = (key - t.minValue) + m * 2 ^ t.bits by ring, Int.add_mul_emod_self_right]
    exact h
  refine ⟨?_, ?_⟩
  · show (StaticLookup.at' (NumTy.eqv (.int t)) table (t.wrap (key + m * 2 ^ t.bits)) : Outcome v.Val) = _
    rw [hw]
  · intro hm hc
    rw [IntTy.wrap_of_holds hb hc] at hw
    have hp : (0 : Int) < 2 ^ t.bits := Int.pow_pos (by omega)
    have : m * 2 ^ t.bits = 0 := by linarith
    rcases Int.mul_eq_zero.1 this with h | h
    · exact hm h
    · omega

/-- `at(4294967297)` finds the key 1 of a lookup with `int` keys. -/
example : (do
    let t ← construct (.int .int) (.int .int) ((0 : Int), (0 : Int)) [⟨⟨.int .int, .int .int⟩, (1 : Int), (10 : Int)⟩]
    atArg (.int .int) (.int .int) (.int ⟨64, true⟩) t (4294967297 : Int)) = .ok (10 : Int) := by rfl

/-- C184 fails for fractions: with integer keys of any type, `at` of a floating-point number does what `at` does with the number
without its fraction, and is undefined when the key type does not have that. -/
theorem c184_refuted_fraction (t : IntTy) (F : Fmt) (v : NumTy) (table : StaticLookup Int v.Val) (x : Flt F) (hx : x.finite) :
    atArg (.int t) v (.flt F) table x =
      if t.holds (Int.tdiv x.value.num x.value.den) then StaticLookup.at' (NumTy.eqv (.int t)) table (Int.tdiv x.value.num x.value.den) else .ub := by
  show (truncFlt t x >>= fun key => (StaticLookup.at' (NumTy.eqv (.int t)) table key : Outcome v.Val)) = _
  unfold truncFlt truncTo
  rw [if_pos hx]
  simp only
  split <;> rfl

private def atOneAndAHalf : Outcome Int :=
  construct (.int .int) (.int .int) ((0 : Int), (0 : Int)) [⟨⟨.int .int, .int .int⟩, (1 : Int), (10 : Int)⟩] >>= fun t =>
    atArg (.int .int) (.int .int) (.flt .double) t (⟨false, 0x3ff8000000000000⟩ : Flt .double)

/-- `at(1.5)` finds the key 1. -/
example : atOneAndAHalf = .ok 10 := by decide +kernel

/-- C184 fails for values the value type does not have: with integer values of any type, the second pair's value comes back as
its remainder, which is a different number, whenever the type does not have it. -/
theorem c184_refuted_value (k : NumTy) (t s : IntTy) (blank : k.Val × Int) (k₁ k₂ : k.Val) (v₁ v₂ : Int) (p q : ℚ)
    (h₁ : k.num k₁ = some p) (h₂ : k.num k₂ = some q) (ok₁ : k.ok k₁) (ok₂ : k.ok k₂) (hpq : p ≠ q) (hb : 0 < t.bits) (hv : ¬ t.holds v₂) :
    ctorAccepts k (.int t) 2 [⟨k, .int t⟩, ⟨k, .int s⟩] ∧
    ∃ w : Int, (construct k (.int t) blank [⟨⟨k, .int t⟩, k₁, v₁⟩, ⟨⟨k, .int s⟩, k₂, v₂⟩] >>= fun table => atArg k (.int t) k table k₂) = .ok w ∧
      w ≠ v₂ ∧ (2 ^ t.bits : Int) ∣ w - v₂ := by
  obtain ⟨x₁, a1, a2, _⟩ := NumTy.convert_num k k k₁ p h₁ ⟨k₁, ok₁, h₁⟩
  obtain ⟨x₂, b1, b2, _⟩ := NumTy.convert_num k k k₂ q h₂ ⟨k₂, ok₂, h₂⟩
  refine ⟨⟨rfl, rfl⟩, t.wrap v₂, ?_, fun hc => hv (hc ▸ IntTy.holds_wrap hb v₂), ?_⟩
  · have e1 : convertAll k (.int t) [⟨⟨k, .int t⟩, k₁, v₁⟩, ⟨⟨k, .int s⟩, k₂, v₂⟩] = .ok [(x₁, t.wrap v₁), (x₂, t.wrap v₂)] := by
      simp only [convertAll, convertPair, a1, b1]; rfl
    have e2 := (c68_make (κ := k.Val) (ν := Int) blank [(x₁, t.wrap v₁), (x₂, t.wrap v₂)]).1
    have n1 : k.eqv x₁ x₂ = false := Bool.eq_false_iff.2 fun hc => hpq ((NumTy.eqv_num k x₁ x₂ p q a2 b2).1 hc)
    have n2 : k.eqv x₂ x₂ = true := (NumTy.eqv_num k x₂ x₂ q q b2 b2).2 rfl
    have e3 : StaticLookup.at' (κ := k.Val) (ν := Int) k.eqv (StaticLookup.make blank [(x₁, t.wrap v₁), (x₂, t.wrap v₂)]) x₂ = .ok (t.wrap v₂) := by
      rw [StaticLookup.at', StaticLookup.get, e2]
      simp [n1, n2]
    unfold construct atArg
    rw [e1, b1]
    exact e3
  · unfold IntTy.wrap
    have := Int.emod_add_mul_ediv (v₂ - t.minValue) (2 ^ t.bits)
    exact ⟨-((v₂ - t.minValue) / 2 ^ t.bits), by linarith⟩

/-- The value 300 in a lookup of `unsigned char`s comes back as 44. -/
example : (do
    let t ← construct (.int .int) (.int ⟨8, false⟩) ((0 : Int), (0 : Int))
      [⟨⟨.int .int, .int ⟨8, false⟩⟩, (1 : Int), (10 : Int)⟩, ⟨⟨.int .int, .int .int⟩, (2 : Int), (300 : Int)⟩]
    atArg (.int .int) (.int ⟨8, false⟩) (.int .int) t (2 : Int)) = .ok (44 : Int) := by rfl

/-- C184 fails for keys the key type does not have: the key of the second pair becomes that of the first whenever the two differ
by a multiple of the size of the type, and the second pair's value cannot be looked up: both keys give the first pair's. -/
theorem c184_refuted_key (t s : IntTy) (v : NumTy) (blank : Int × v.Val) (key m : Int) (v₁ v₂ : v.Val) (r₁ r₂ : ℚ)
    (hb : 0 < t.bits) (hk : t.holds key) (hv₁ : v.num v₁ = some r₁) (ok₁ : v.ok v₁) (hv₂ : v.num v₂ = some r₂) (ok₂ : v.ok v₂) :
    ctorAccepts (.int t) v 2 [⟨.int t, v⟩, ⟨.int s, v⟩] ∧
    ∀ n : Int, ∃ w : v.Val, v.num w = some r₁ ∧
      (construct (.int t) v blank [⟨⟨.int t, v⟩, key, v₁⟩, ⟨⟨.int s, v⟩, (key + m * 2 ^ t.bits : Int), v₂⟩] >>= fun table =>
        atArg (.int t) v (.int s) table (key + n * 2 ^ t.bits : Int)) = .ok w := by
  refine ⟨⟨rfl, rfl⟩, fun n => ?_⟩
  have hw : ∀ j : Int, t.wrap (key + j * 2 ^ t.bits) = key := by
    intro j
    have h := IntTy.wrap_of_holds hb hk
    unfold IntTy.wrap at h ⊢
    rw [show key + j * 2 ^ t.bits - t.minValue = (key - t.minValue) + j * 2 ^ t.bits by ring, Int.add_mul_emod_self_right]
    exact h
  obtain ⟨x₁, a1, a2, _⟩ := NumTy.convert_num v v v₁ r₁ hv₁ ⟨v₁, ok₁, hv₁⟩
  obtain ⟨x₂, b1, _, _⟩ := NumTy.convert_num v v v₂ r₂ hv₂ ⟨v₂, ok₂, hv₂⟩
  refine ⟨x₁, a2, ?_⟩
  have e1 : convertAll (.int t) v [⟨⟨.int t, v⟩, key, v₁⟩, ⟨⟨.int s, v⟩, (key + m * 2 ^ t.bits : Int), v₂⟩] = .ok [(t.wrap key, x₁), (t.wrap (key + m * 2 ^ t.bits), x₂)] := by
    simp only [convertAll, convertPair, a1, b1]; rfl
  have e2 := (c68_make (κ := Int) (ν := v.Val) blank [(key, x₁), (key, x₂)]).1
  have e3 : StaticLookup.at' (κ := Int) (ν := v.Val) (NumTy.eqv (.int t)) (StaticLookup.make blank [(key, x₁), (key, x₂)]) key = .ok x₁ := by
    have : NumTy.eqv (.int t) key key = true := decide_eq_true (rfl : key = key)
    unfold StaticLookup.at' StaticLookup.get
    rw [e2]
    simp [this]
  rw [hw m, IntTy.wrap_of_holds hb hk] at e1
  unfold construct
  rw [e1]
  show (StaticLookup.at' (κ := Int) (ν := v.Val) (NumTy.eqv (.int t)) (StaticLookup.make blank [(key, x₁), (key, x₂)]) (t.wrap (key + n * 2 ^ t.bits))) = _
  rw [hw n]
  exact e3

/-- The keys 1 and 257 in a lookup with `unsigned char` keys. -/
example : (do
    let t ← construct (.int ⟨8, false⟩) (.int .int) ((0 : Int), (0 : Int))
      [⟨⟨.int ⟨8, false⟩, .int .int⟩, (1 : Int), (10 : Int)⟩, ⟨⟨.int .int, .int .int⟩, (257 : Int), (20 : Int)⟩]
    atArg (.int ⟨8, false⟩) (.int .int) (.int .int) t (257 : Int)) = .ok (10 : Int) := by rfl

end Wite.Props
