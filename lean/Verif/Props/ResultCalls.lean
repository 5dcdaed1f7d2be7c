import Verif.Model.ResultCalls
import Verif.Lemmas.NumTy

/-!
# Property C188: results and numbers of other types
-/

namespace Wite.Props

open Wite Wite.Maths Wite.ResultCalls

/-- The number an object of a value or error type stands for, if it is a number. -/
def AltTy.number : (a : AltTy) → a.Val → Option ℚ
  | .num t, x => t.num x
  | .other _, _ => none

/-- The number a result holds, as value or as error. -/
def heldNumber (v e : AltTy) : Result v.Val e.Val → Option ℚ
  | .value x => AltTy.number v x
  | .error x => AltTy.number e x

private theorem promoted_holds (s : NumTy) (q : ℚ) (h : s.Holds q) : (promoted s).Holds q := by
  cases s with
  | int t =>
    obtain ⟨v, h1, h2, h3⟩ := NumTy.holds_int.1 h
    exact NumTy.holds_int.2 ⟨v, IntTy.promote_pos h1, IntTy.promote_holds h2, h3⟩
  | flt F =>
    show NumTy.Holds (.flt (if F = .single then .double else F)) q
    by_cases hF : F = .single
    · subst hF
      rw [if_pos rfl]
      obtain ⟨x, h1, h2⟩ := NumTy.holds_flt.1 h
      have := Flt.convert_exact (F := .single) (G := .double) (by unfold Flt.Wider; decide) h1
      exact NumTy.holds_flt.2 ⟨_, this.1, this.2.trans h2⟩
    · rw [if_neg hF]; exact h

private theorem narrowing_holds {s t : NumTy} (ht : ∃ y, t.ok y) (h : narrowing s t = false) (q : ℚ) (hq : s.Holds q) :
    t.Holds q := by
  cases s with
  | int s =>
    cases t with
    | int t =>
      obtain ⟨v, h1, h2, h3⟩ := NumTy.holds_int.1 hq
      simp only [narrowing, Bool.not_eq_false', decide_eq_true_eq] at h
      have hb : 0 < t.bits := ht.choose_spec.1
      exact NumTy.holds_int.2 ⟨v, hb, ⟨h.1.trans h2.1, h2.2.trans h.2⟩, h3⟩
    | flt G => simp [narrowing] at h
  | flt F =>
    cases t with
    | int t => simp [narrowing] at h
    | flt G =>
      simp only [narrowing, Bool.not_eq_false', decide_eq_true_eq] at h
      obtain ⟨x, h1, h2⟩ := NumTy.holds_flt.1 hq
      have := Flt.convert_exact (F := F) (G := G) h h1
      exact NumTy.holds_flt.2 ⟨_, this.1, this.2.trans h2⟩

private theorem narrowing_self (s : NumTy) : narrowing s s = false := by cases s <;> simp [narrowing]

private theorem narrowing_promoted (s : NumTy) : narrowing s (promoted s) = false := by
  cases s with
  | int t =>
    have hb : t.promote = t ∨ t.promote = .int ∧ t.bits < 32 := by
      unfold IntTy.promote
      by_cases h : t.bits < IntTy.int.bits
      · rw [if_pos h]; exact Or.inr ⟨rfl, h⟩
      · rw [if_neg h]; exact Or.inl rfl
    simp only [narrowing, promoted, Bool.not_eq_false', decide_eq_true_eq]
    exact ⟨(IntTy.promote_holds ⟨le_rfl, (IntTy.minValue_nonpos t).trans (IntTy.maxValue_nonneg t)⟩).1,
      (IntTy.promote_holds ⟨(IntTy.minValue_nonpos t).trans (IntTy.maxValue_nonneg t), le_rfl⟩).2⟩
  | flt F =>
    show narrowing (.flt F) (.flt (if F = .single then .double else F)) = false
    by_cases hF : F = .single
    · subst hF; rw [if_pos rfl]; rfl
    · rw [if_neg hF]; exact narrowing_self _

private theorem rank_le (s t : NumTy) : rank s t ≤ 2 := by
  unfold rank; split
  · omega
  · split <;> omega

private theorem rank_low {s t : NumTy} (h : rank s t < 2) : s = t ∨ promoted s = t := by
  unfold rank at h
  by_cases h1 : s = t
  · exact Or.inl h1
  · rw [if_neg h1] at h
    by_cases h2 : promoted s = t
    · exact Or.inr h2
    · rw [if_neg h2] at h; omega

private theorem rank_zero {s t : NumTy} : rank s t = 0 ↔ s = t := by
  unfold rank
  by_cases h1 : s = t
  · simp [h1]
  · rw [if_neg h1]; simp only [h1, iff_false]; split <;> omega

private theorem rank_two {s t : NumTy} (h1 : s ≠ t) (h2 : promoted s ≠ t) : rank s t = 2 := by
  unfold rank; rw [if_neg h1, if_neg h2]

private theorem rank_one {s t : NumTy} (h1 : s ≠ t) (h2 : promoted s = t) : rank s t = 1 := by
  unfold rank; rw [if_neg h1, if_pos h2]

/-- The call is decided: the parameter, and what is constructed. -/
private theorem decided (s v e : NumTy) (x : s.Val) :
    (rank s v < rank s e ∧ parameter s (.num v) (.num e) = some v ∧
      construct s (.num v) (.num e) x = (s.convert v x >>= fun y => .ok (.value y))) ∨
    (rank s e < rank s v ∧ parameter s (.num v) (.num e) = some e ∧
      construct s (.num v) (.num e) x = (s.convert e x >>= fun y => .ok (.error y))) ∨
    (rank s v = rank s e ∧ parameter s (.num v) (.num e) = none) := by
  have hp : picks s (.num v) (.num e) = if rank s v < rank s e then .value else if rank s e < rank s v then .error else .neither := rfl
  rcases Nat.lt_trichotomy (rank s v) (rank s e) with h | h | h
  · rw [if_pos h] at hp
    refine Or.inl ⟨h, ?_, ?_⟩
    · simp only [parameter, hp]
    · simp only [construct, hp]
  · rw [if_neg (by omega), if_neg (by omega)] at hp
    refine Or.inr (Or.inr ⟨h, ?_⟩)
    simp only [parameter, hp]
  · rw [if_neg (by omega), if_pos h] at hp
    refine Or.inr (Or.inl ⟨h, ?_, ?_⟩)
    · simp only [parameter, hp]
    · simp only [construct, hp]

private theorem not_narrowing {s t : NumTy} (h : rank s t < 2) : narrowing s t = false := by
  rcases rank_low h with rfl | rfl
  · exact narrowing_self _
  · exact narrowing_promoted _

private theorem low_holds {s t : NumTy} (h : rank s t < 2) (q : ℚ) (hq : s.Holds q) : t.Holds q := by
  rcases rank_low h with rfl | rfl
  · exact hq
  · exact promoted_holds _ _ hq

private theorem construct_kept (s v e : NumTy) (x : s.Val) (q : ℚ) (hok : s.ok x) (hq : s.num x = some q)
    (hne : rank s v ≠ rank s e) :
    ∃ r, construct s (.num v) (.num e) x = .ok r ∧ heldNumber (.num v) (.num e) r = some q := by
  have := rank_le s v
  have := rank_le s e
  rcases decided s v e x with ⟨h, _, h2⟩ | ⟨h, _, h2⟩ | ⟨h, _⟩
  · obtain ⟨y, h3, h4, _⟩ := NumTy.convert_num s v x q hq (low_holds (by omega) q ⟨x, hok, hq⟩)
    exact ⟨.value y, by rw [h2, h3]; rfl, h4⟩
  · obtain ⟨y, h3, h4, _⟩ := NumTy.convert_num s e x q hq (low_holds (by omega) q ⟨x, hok, hq⟩)
    exact ⟨.error y, by rw [h2, h3]; rfl, h4⟩
  · exact absurd h hne

private theorem compiles_iff (s v e : NumTy) (form : Form) :
    compiles form s (.num v) (.num e) = true ↔ rank s v ≠ rank s e := by
  have h1 := rank_le s v
  have h2 := rank_le s e
  unfold compiles
  by_cases hn : rank s v < rank s e
  · have hp : parameter s (.num v) (.num e) = some v := by
      simp only [parameter, picks, if_pos hn]
    rw [hp]
    simp only [not_narrowing (show rank s v < 2 by omega), Bool.not_false, Bool.or_true, true_iff]
    omega
  · by_cases hn' : rank s e < rank s v
    · have hp : parameter s (.num v) (.num e) = some e := by
        simp only [parameter, picks, if_neg hn, if_pos hn']
      rw [hp]
      simp only [not_narrowing (show rank s e < 2 by omega), Bool.not_false, Bool.or_true, true_iff]
      omega
    · have hp : parameter s (.num v) (.num e) = none := by
        simp only [parameter, picks, if_neg hn, if_neg hn']
      rw [hp]
      simp only [Bool.false_eq_true, false_iff]
      omega

/-! ## C188 -/

/-- C188: a number of the value type becomes a value, and one of the error type an error; the number is the same. -/
theorem c188_own_types (v e : NumTy) (hve : v ≠ e) (form : Form) :
    (∀ x q, v.ok x → v.num x = some q →
      ∃ y : v.Val, build form v (.num v) (.num e) x = some (.ok (.value y)) ∧ v.num y = some q) ∧
    (∀ x q, e.ok x → e.num x = some q →
      ∃ y : e.Val, build form e (.num v) (.num e) x = some (.ok (.error y)) ∧ e.num y = some q) := by
  have hv : rank v v = 0 := rank_zero.2 rfl
  have he : rank e e = 0 := rank_zero.2 rfl
  have hv' : rank v e ≠ 0 := fun h => hve (rank_zero.1 h)
  have he' : rank e v ≠ 0 := fun h => hve (rank_zero.1 h).symm
  constructor
  · intro x q hok hq
    obtain ⟨y, h3, h4, _⟩ := NumTy.convert_num v v x q hq ⟨x, hok, hq⟩
    refine ⟨y, ?_, h4⟩
    rw [build, if_pos ((compiles_iff v v e form).2 (by omega))]
    rcases decided v v e x with ⟨h, _, h2⟩ | ⟨h, _, h2⟩ | ⟨h, _⟩
    · rw [h2, h3]; rfl
    · omega
    · omega
  · intro x q hok hq
    obtain ⟨y, h3, h4, _⟩ := NumTy.convert_num e e x q hq ⟨x, hok, hq⟩
    refine ⟨y, ?_, h4⟩
    rw [build, if_pos ((compiles_iff e v e form).2 (by omega))]
    rcases decided e v e x with ⟨h, _, h2⟩ | ⟨h, _, h2⟩ | ⟨h, _⟩
    · omega
    · rw [h2, h3]; rfl
    · omega

/-- C188, a part that holds: with number types as value and error types, whatever number is given in whatever type, if the call
compiles then the result holds this number; also through `and_then` and `or_else`. -/
theorem c188_number_kept_partial (s v e : NumTy) (x : s.Val) (q : ℚ) (hok : s.ok x) (hq : s.num x = some q) :
    (∀ form o, build form s (.num v) (.num e) x = some o →
      ∃ r, o = .ok r ∧ heldNumber (.num v) (.num e) r = some q) ∧
    (∀ (w : v.Val) (fn : v.Val → Outcome s.Val) o, fn w = .ok x →
      andThenNum s (.num v) (.num e) (.value w) fn = some o → ∃ r, o = .ok r ∧ heldNumber (.num v) (.num e) r = some q) ∧
    (∀ (w : e.Val) (fn : e.Val → Outcome s.Val) o, fn w = .ok x →
      orElseNum s (.num v) (.num e) (.error w) fn = some o → ∃ r, o = .ok r ∧ heldNumber (.num v) (.num e) r = some q) := by
  refine ⟨?_, ?_, ?_⟩
  · intro form o h
    unfold build at h
    split at h
    · rename_i hc
      obtain ⟨r, h1, h2⟩ := construct_kept s v e x q hok hq ((compiles_iff s v e form).1 hc)
      exact ⟨r, by cases h; exact h1, h2⟩
    · cases h
  · intro w fn o hfn h
    unfold andThenNum at h
    split at h
    · rename_i hc
      obtain ⟨r, h1, h2⟩ := construct_kept s v e x q hok hq ((compiles_iff s v e .braces).1 hc)
      refine ⟨r, ?_, h2⟩
      rw [← Option.some_inj.1 h]
      show (fn w >>= construct s (.num v) (.num e)) = _
      rw [hfn]; exact h1
    · cases h
  · intro w fn o hfn h
    unfold orElseNum at h
    split at h
    · rename_i hc
      obtain ⟨r, h1, h2⟩ := construct_kept s v e x q hok hq ((compiles_iff s v e .braces).1 hc)
      refine ⟨r, ?_, h2⟩
      rw [← Option.some_inj.1 h]
      show (fn w >>= construct s (.num v) (.num e)) = _
      rw [hfn]; exact h1
    · cases h

/-- C188 fails at compile time: exactly the numbers whose type is, or is promoted to, the value type or the error type can be
given; for every other type the call is ambiguous, though both types may have all its numbers. -/
theorem c188_refuted_ambiguous (s v e : NumTy) (hve : v ≠ e) (form : Form) :
    ((∀ x, build form s (.num v) (.num e) x ≠ none) ↔ s = v ∨ s = e ∨ promoted s = v ∨ promoted s = e) ∧
    ((∀ x, build form s (.num v) (.num e) x = none) ↔ s ≠ v ∧ s ≠ e ∧ promoted s ≠ v ∧ promoted s ≠ e) ∧
    (∀ r fn, andThenNum s (.num v) (.num e) r fn = none ↔ s ≠ v ∧ s ≠ e ∧ promoted s ≠ v ∧ promoted s ≠ e) := by
  have key : rank s v ≠ rank s e ↔ s = v ∨ s = e ∨ promoted s = v ∨ promoted s = e := by
    constructor
    · intro h
      have := rank_le s v
      have := rank_le s e
      by_cases hlt : rank s v < 2
      · rcases rank_low hlt with h' | h'
        · exact Or.inl h'
        · exact Or.inr (Or.inr (Or.inl h'))
      · rcases rank_low (show rank s e < 2 by omega) with h' | h'
        · exact Or.inr (Or.inl h')
        · exact Or.inr (Or.inr (Or.inr h'))
    · intro h hc
      by_cases h1 : s = v
      · exact hve (h1.symm.trans (rank_zero.1 (hc ▸ rank_zero.2 h1)))
      · by_cases h2 : s = e
        · exact h1 (rank_zero.1 (hc.trans (rank_zero.2 h2)))
        · rcases h with h | h | h | h
          · exact h1 h
          · exact h2 h
          · have a := rank_one h1 h
            have b := rank_two h2 (fun h' => hve (h.symm.trans h'))
            omega
          · have a := rank_one h2 h
            have b := rank_two h1 (fun h' => hve (h'.symm.trans h))
            omega
  have hz : s.Val := match s with
    | .int _ => (0 : Int)
    | .flt F => (⟨false, 0⟩ : Flt F)
  have hc := compiles_iff s v e form
  have hb := compiles_iff s v e .braces
  refine ⟨?_, ?_, ?_⟩
  · rw [← key, ← hc]
    unfold build
    constructor
    · intro h; by_contra h'; exact h hz (if_neg h')
    · intro h x; rw [if_pos h]; simp
  · have : (s ≠ v ∧ s ≠ e ∧ promoted s ≠ v ∧ promoted s ≠ e) ↔ ¬ (rank s v ≠ rank s e) := by rw [key]; push Not; rfl
    rw [this, ← hc]
    unfold build
    constructor
    · intro h h'; have := h hz; rw [if_pos h'] at this; cases this
    · intro h x; exact if_neg h
  · intro r fn
    have : (s ≠ v ∧ s ≠ e ∧ promoted s ≠ v ∧ promoted s ≠ e) ↔ ¬ (rank s v ≠ rank s e) := by rw [key]; push Not; rfl
    rw [this, ← hb]
    unfold andThenNum
    constructor
    · intro h h'; rw [if_pos h'] at h; cases h
    · intro h; exact if_neg h

/-- C188 fails for values of small types when the error type is `int`: for every value type other than `int` and every other
integer type narrower than `int`, every number becomes an error, also what a function given to `and_then` returns. -/
theorem c188_refuted_promoted (v : NumTy) (s : IntTy) (hs : s.bits < 32) (hv : v ≠ .int .int) (hsv : v ≠ .int s)
    (x : Int) (hx : 0 < s.bits ∧ s.holds x) (form : Form) :
    build form (.int s) (.num v) (.num (.int .int)) x = some (.ok (.error x)) ∧
    ∀ (w : v.Val) (fn : v.Val → Outcome Int), fn w = .ok x →
      andThenNum (.int s) (.num v) (.num (.int .int)) (.value w) fn = some (.ok (.error x)) := by
  have hpr : promoted (.int s) = .int .int := by
    show NumTy.int s.promote = _
    rw [IntTy.promote, if_pos (show s.bits < IntTy.int.bits from hs)]
  have h1 : rank (.int s) (.int .int) = 1 :=
    rank_one (fun h => by injection h with h; rw [h] at hs; exact absurd hs (by decide)) hpr
  have h2 : rank (.int s) v = 2 := rank_two (fun h => hsv h.symm) (fun h => hv (h.symm.trans hpr))
  have hh : IntTy.int.holds x := by
    have := IntTy.promote_holds hx.2
    rwa [IntTy.promote, if_pos (show s.bits < IntTy.int.bits from hs)] at this
  have hcon : construct (.int s) (.num v) (.num (.int .int)) x = .ok (.error x) := by
    rcases decided (.int s) v (.int .int) x with ⟨h, _, _⟩ | ⟨h, _, h3⟩ | ⟨h, _⟩
    · omega
    · rw [h3]
      show (Outcome.ok (IntTy.int.wrap x) >>= fun y => (Outcome.ok (.error y) : Outcome (Result v.Val Int))) = _
      rw [IntTy.wrap_of_holds (by decide) hh]; rfl
    · omega
  refine ⟨?_, ?_⟩
  · exact (if_pos ((compiles_iff _ _ _ form).2 (by omega))).trans (congrArg some hcon)
  · intro w fn hfn
    refine (if_pos ((compiles_iff _ _ _ .braces).2 (by omega))).trans (congrArg some ?_)
    show (fn w >>= construct (.int s) (.num v) (.num (.int .int))) = _
    rw [hfn]
    exact hcon

/-! ### Results whose error is not a number -/

private theorem compiles_other (form : Form) (s v : NumTy) (O : Type) :
    compiles form s (.num v) (.other O) = (decide (form = .plain) || !narrowing s v) := rfl

private theorem construct_other (s v : NumTy) (O : Type) (x : s.Val) :
    construct s (.num v) (.other O) x = (s.convert v x >>= fun y => .ok (.value y)) := rfl

/-- C188, a part that holds: in braces, and through `and_then`, a number that compiles is kept when the error is not a number. -/
theorem c188_braces_partial (s v : NumTy) (O : Type) (hv : ∃ y, v.ok y) (x : s.Val) (q : ℚ) (hok : s.ok x) (hq : s.num x = some q) :
    (∀ o, build .braces s (.num v) (.other O) x = some o →
      ∃ y : v.Val, o = .ok (.value y) ∧ v.num y = some q) ∧
    (∀ (w : v.Val) (fn : v.Val → Outcome s.Val) o, fn w = .ok x → andThenNum s (.num v) (.other O) (.value w) fn = some o →
      ∃ y : v.Val, o = .ok (.value y) ∧ v.num y = some q) := by
  refine ⟨?_, ?_⟩
  · intro o h
    unfold build at h
    split at h
    · rename_i hc
      rw [compiles_other] at hc
      obtain ⟨y, h3, h4, _⟩ := NumTy.convert_num s v x q hq (narrowing_holds hv (by simpa using hc) q ⟨x, hok, hq⟩)
      refine ⟨y, ?_, h4⟩
      rw [← Option.some_inj.1 h, construct_other, h3]; rfl
    · cases h
  · intro w fn o hfn h
    unfold andThenNum at h
    split at h
    · rename_i hc
      rw [compiles_other] at hc
      obtain ⟨y, h3, h4, _⟩ := NumTy.convert_num s v x q hq (narrowing_holds hv (by simpa using hc) q ⟨x, hok, hq⟩)
      refine ⟨y, ?_, h4⟩
      rw [← Option.some_inj.1 h]
      show (fn w >>= construct s (.num v) (.other O)) = _
      rw [hfn]
      show construct s (.num v) (.other O) x = _
      rw [construct_other, h3]; rfl
    · cases h

/-- C188 fails for integers and floating-point values in braces: such a call never compiles, neither does `and_then` with a function
that returns an integer, although the same number without braces is taken. -/
theorem c188_refuted_braces (s : IntTy) (F : Fmt) (O : Type) (x : Int) :
    build .braces (.int s) (.num (.flt F)) (.other O) x = none ∧
    (∀ r fn, andThenNum (.int s) (.num (.flt F)) (.other O) r fn = none) ∧
    build .plain (.int s) (.num (.flt F)) (.other O) x = some (.ok (.value (Flt.ofInt F x))) :=
  ⟨rfl, fun _ _ => rfl, rfl⟩

private theorem wrap_shift (t : IntTy) (hb : 0 < t.bits) (n m : Int) (hn : t.holds n) : t.wrap (n + m * 2 ^ t.bits) = n := by
  have h := IntTy.wrap_of_holds hb hn
  unfold IntTy.wrap at h ⊢
  rw [show n + m * 2 ^ t.bits - t.minValue = (n - t.minValue) + m * 2 ^ t.bits by ring, Int.add_mul_emod_self_right]
  exact h

/-- C188 fails for numbers the value type does not have: returned from a function or given in parentheses, and as default of
`value_or`, they become their remainder. -/
theorem c188_refuted_wrap (t s : IntTy) (O : Type) (err : O) (n m : Int) (hb : 0 < t.bits) (hn : t.holds n) :
    build .plain (.int s) (.num (.int t)) (.other O) (n + m * 2 ^ t.bits : Int) = some (.ok (.value n)) ∧
    valueOrNum (E := O) (.int s) (.int t) (.error err) (n + m * 2 ^ t.bits : Int) = .ok n := by
  have hw := wrap_shift t hb n m hn
  constructor
  · show some (Outcome.ok (Result.value (t.wrap (n + m * 2 ^ t.bits))) : Outcome (Result Int O)) = some (.ok (.value n))
    rw [hw]
  · show Outcome.ok (t.wrap (n + m * 2 ^ t.bits)) = Outcome.ok n
    rw [hw]

/-- C188 fails for fractions: the default of `value_or` loses its fraction, and is undefined if the value type does not have the rest. -/
theorem c188_refuted_fraction (t : IntTy) (F : Fmt) (O : Type) (err : O) (x : Flt F) (hx : x.finite) :
    valueOrNum (E := O) (.flt F) (.int t) (.error err) x =
      if t.holds (Int.tdiv x.value.num x.value.den) then .ok (Int.tdiv x.value.num x.value.den) else .ub := by
  show truncFlt t x = _
  unfold truncFlt truncTo
  rw [if_pos hx]
  rfl

/-- C188, a part that holds: `value_or` gives the value if there is one, and otherwise the number given if the value type has it. -/
theorem c188_value_or_partial (s v : NumTy) (O : Type) (x : s.Val) (q : ℚ) (hq : s.num x = some q) :
    (∀ w : v.Val, valueOrNum (E := O) s v (.value w) x = .ok w) ∧
    (v.Holds q → ∀ err : O, ∃ y, valueOrNum s v (.error err) x = .ok y ∧ v.num y = some q) := by
  refine ⟨fun w => rfl, fun h err => ?_⟩
  obtain ⟨y, h1, h2, _⟩ := NumTy.convert_num s v x q hq h
  exact ⟨y, h1, h2⟩

/-! `result<double, int>` from a `short` is an error; `result<long, double>` cannot be made from an `int`;
`result<unsigned char, E>.value_or(300)` is 44; 1.5 as the default of an `int` is 1. -/

example : build .braces (.int ⟨16, true⟩) (.num (.flt .double)) (.num (.int .int)) (5 : Int) = some (.ok (.error (5 : Int))) :=
  (c188_refuted_promoted (.flt .double) ⟨16, true⟩ (by decide) nofun nofun 5 (by decide) .braces).1
example (x : Int) : build .plain (.int .int) (.num (.int ⟨64, true⟩)) (.num (.flt .double)) x = none :=
  ((c188_refuted_ambiguous (.int .int) (.int ⟨64, true⟩) (.flt .double) nofun .plain).2.1.2 (by decide)) x
example : valueOrNum (E := Unit) (.int .int) (.int ⟨8, false⟩) (.error ()) (300 : Int) = .ok (44 : Int) := by rfl
private def halves : Outcome Int := valueOrNum (E := Unit) (.flt .double) (.int .int) (.error ()) (⟨false, 0x3ff8000000000000⟩ : Flt .double)
example : halves = .ok 1 := by decide +kernel

end Wite.Props
