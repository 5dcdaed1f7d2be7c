import Verif.Model.StringMem
import Verif.Lemmas.Strings
import Mathlib.Logic.Function.Iterate
import Mathlib.Order.Nat

/-!
# C153: the string functions when memory runs out
-/

namespace Wite.Props

open Wite.StringMem

variable {α : Type} [DecidableEq α]

/-- The texts too long to be kept inside a string object. -/
def longOnes (lib : Lib) (texts : List (List α)) : Nat := (texts.filter fun t => decide (lib.sso < t.length)).length

/-- The allocations for the pieces themselves: views make none. -/
def pieceAllocs (lib : Lib) (kind : Piece) (texts : List (List α)) : Nat :=
  match kind with
  | .string => longOnes lib texts
  | .view => 0

/-- The allocations left to make for pieces to come, the vector having `len` elements and room for `cap`. -/
private def need (lib : Lib) (kind : Piece) : List (List α) → Nat → Nat → Nat
  | [], _, _ => 0
  | t :: ts, len, cap =>
    pieceAllocs lib kind [t] +
      if len = cap then 1 + need lib kind ts (len + 1) (lib.grow cap) else need lib kind ts (len + 1) cap

private theorem longOnes_cons (lib : Lib) (t : List α) (ts : List (List α)) :
    longOnes lib (t :: ts) = longOnes lib [t] + longOnes lib ts := by
  simp only [longOnes, List.filter_cons, List.filter_nil]
  split <;> simp <;> omega

private theorem pieceAllocs_cons (lib : Lib) (kind : Piece) (t : List α) (ts : List (List α)) :
    pieceAllocs lib kind (t :: ts) = pieceAllocs lib kind [t] + pieceAllocs lib kind ts := by
  cases kind with
  | string => exact longOnes_cons lib t ts
  | view => rfl

private theorem pieceAllocs_nil_text (lib : Lib) (kind : Piece) : pieceAllocs lib kind [([] : List α)] = 0 := by
  cases kind <;> simp [pieceAllocs, longOnes]

/-- The number of allocations in closed form. -/
private theorem need_eq (lib : Lib) (kind : Piece) (ts : List (List α)) (len cap m : Nat) (hc : len ≤ cap)
    (hm : len + ts.length ≤ lib.grow^[m] cap) (hmin : ∀ j < m, lib.grow^[j] cap < len + ts.length)
    (hg : ∀ c, c < lib.grow c) :
    need lib kind ts len cap = pieceAllocs lib kind ts + m := by
  induction ts generalizing len cap m with
  | nil =>
    have h0 : m = 0 := by
      cases m with
      | zero => rfl
      | succ m =>
        have := hmin 0 (by omega)
        simp at this
        omega
    subst h0
    cases kind <;> rfl
  | cons t ts ih =>
    rw [need, pieceAllocs_cons lib kind t ts]
    simp only [List.length_cons] at hm hmin
    split
    · rename_i he
      cases m with
      | zero => simp at hm; omega
      | succ m =>
        rw [ih (len + 1) (lib.grow cap) m (by have := hg cap; omega)
          (by rw [Function.iterate_succ_apply] at hm; omega)
          (by
            intro j hj
            have := hmin (j + 1) (by omega)
            rw [Function.iterate_succ_apply] at this; omega)]
        omega
    · rw [ih (len + 1) cap m (by omega) (by omega) (by intro j hj; have := hmin j hj; omega)]
      omega

private theorem alloc_run (plan : Nat → Bool) (k : Nat) :
    (alloc plan).run k = (if plan k then .throw .badAlloc else .ok (), k + 1) := rfl

private theorem makeString_run (plan : Nat → Bool) (lib : Lib) (t : List α) (k : Nat) :
    (makeString plan lib t).run k =
      if lib.sso < t.length then
        if plan k then (.throw .badAlloc, k + 1) else (.ok t, k + 1)
      else (.ok t, k) := by
  rw [makeString, St.run_ite]
  split
  · rw [St.run_bind, alloc_run]
    cases plan k <;> rfl
  · rfl

private theorem nox_run {β : Type} (x : St Nat β) (k : Nat) : (nox x).run k = (noexcept (x.run k).1, (x.run k).2) := rfl

private theorem firstToken_run (plan : Nat → Bool) (lib : Lib) (kind : Piece) (s : List α) (delim : α)
    (b : Split.Behaviour) (k : Nat) :
    (firstToken plan lib kind s delim b).run k =
      if pieceAllocs lib kind [(Split.firstToken s delim b).1] = 0 then (.ok (Split.firstToken s delim b), k)
      else if plan k then (.terminate, k + 1) else (.ok (Split.firstToken s delim b), k + 1) := by
  rw [firstToken, nox_run]
  cases kind with
  | view => rfl
  | string =>
    simp only [pieceAllocs, longOnes, List.filter_cons, List.filter_nil]
    rw [St.run_bind, makeString_run]
    by_cases h : lib.sso < (Split.firstToken s delim b).1.length
    · cases plan k <;> simp [h, noexcept]
    · simp [h, noexcept]

private theorem pieceAllocs_le (lib : Lib) (kind : Piece) (t : List α) :
    pieceAllocs lib kind [t] = 0 ∨ pieceAllocs lib kind [t] = 1 := by
  cases kind with
  | view => exact .inl rfl
  | string =>
    simp only [pieceAllocs, longOnes, List.filter_cons, List.filter_nil]
    split <;> simp

private theorem pushBack_run (plan : Nat → Bool) (lib : Lib) (v : Vec α) (t : List α) (k : Nat) :
    (pushBack plan lib v t).run k =
      if v.items.length = v.capacity then
        if plan k then (.throw .badAlloc, k + 1) else (.ok ⟨v.items ++ [t], lib.grow v.capacity⟩, k + 1)
      else (.ok ⟨v.items ++ [t], v.capacity⟩, k) := by
  rw [pushBack, St.run_ite]
  split
  · rw [St.run_bind, alloc_run]
    cases plan k <;> rfl
  · rfl

/-- One turn of the loop up to the decision whether to go on. -/
private def turn (plan : Nat → Bool) (lib : Lib) (kind : Piece) (s : List α) (delim : α) (b : Split.Behaviour)
    (out : Vec α) : St Nat (Vec α) := do
  let (token, _, _) ← firstToken plan lib kind s delim b
  if b = .keepEmpty ∨ (b = .dropEmpty ∧ token ≠ []) then pushBack plan lib out token else pure out

/-- The pieces one turn adds. -/
private def here (s : List α) (delim : α) (b : Split.Behaviour) : List (List α) :=
  if b = .keepEmpty ∨ (b = .dropEmpty ∧ (Split.firstToken s delim b).1 ≠ []) then [(Split.firstToken s delim b).1]
  else []

private theorem loop_turn (plan : Nat → Bool) (lib : Lib) (kind : Piece) (s : List α) (delim : α)
    (b : Split.Behaviour) (out : Vec α) (k : Nat) :
    (splitLoop plan lib kind s delim b out).run k =
      (turn plan lib kind s delim b out >>= fun out' =>
        if (Split.firstToken s delim b).2.2 = true then
          splitLoop plan lib kind (Split.firstToken s delim b).2.1 delim b out'
        else pure out').run k := by
  rw [splitLoop]
  simp only [St.run_bind, turn, firstToken_run, dite_eq_ite]
  split <;> rename_i h
  · split at h
    · cases h
      by_cases hc : b = .keepEmpty ∨ (b = .dropEmpty ∧ (Split.firstToken s delim b).1 ≠ [])
      · simp only [if_pos hc]; rfl
      · simp only [if_neg hc]; rfl
    · split at h
      · cases h
      · cases h
        by_cases hc : b = .keepEmpty ∨ (b = .dropEmpty ∧ (Split.firstToken s delim b).1 ≠ [])
        · simp only [if_pos hc]; rfl
        · simp only [if_neg hc]; rfl
  · split at h
    · cases h
    · split at h <;> cases h
  · split at h
    · cases h
    · split at h <;> cases h
  · rfl
  · split at h
    · cases h
    · split at h <;> cases h

private theorem splitTo_eq (s : List α) (delim : α) (b : Split.Behaviour) :
    Split.splitTo s delim b = here s delim b ++
      if (Split.firstToken s delim b).2.2 = true then Split.splitTo (Split.firstToken s delim b).2.1 delim b else [] := by
  rw [Split.splitTo]
  simp only [here]
  split <;> simp

/-- What a turn does: it makes the allocations for the pieces it adds, or fails at the first that is refused. -/
private theorem turn_run (plan : Nat → Bool) (lib : Lib) (kind : Piece) (s : List α) (delim : α)
    (b : Split.Behaviour) (out : Vec α) (k : Nat) (rest : List (List α)) :
    ∃ (n : Nat) (cap : Nat),
      need lib kind (here s delim b ++ rest) out.items.length out.capacity =
        n + need lib kind rest (out.items ++ here s delim b).length cap ∧
      ((∀ i < n, plan (k + i) = false) →
        (turn plan lib kind s delim b out).run k = (.ok ⟨out.items ++ here s delim b, cap⟩, k + n)) ∧
      ((∃ i < n, plan (k + i) = true) →
        ∃ k', (turn plan lib kind s delim b out).run k = (.throw .badAlloc, k') ∨
          (turn plan lib kind s delim b out).run k = (.terminate, k')) := by
  obtain ⟨items, cap⟩ := out
  have hp := pieceAllocs_le lib kind (Split.firstToken s delim b).1
  by_cases hh : b = .keepEmpty ∨ (b = .dropEmpty ∧ (Split.firstToken s delim b).1 ≠ [])
  · have hhere : here s delim b = [(Split.firstToken s delim b).1] := by rw [here, if_pos hh]
    by_cases hf : items.length = cap
    · refine ⟨pieceAllocs lib kind [(Split.firstToken s delim b).1] + 1, lib.grow cap, ?_, ?_, ?_⟩
      · rw [hhere]; simp only [List.singleton_append, need, List.length_append, List.length_singleton]
        rw [if_pos hf]; omega
      · intro hall
        rw [turn, St.run_bind, firstToken_run]
        rcases hp with hp | hp
        · have h0 := hall 0 (by omega)
          simp only [hp, if_true, Nat.add_zero] at h0 ⊢
          rw [if_pos hh, pushBack_run, if_pos hf, h0, hhere]; simp
        · have h0 := hall 0 (by omega)
          have h1 := hall 1 (by omega)
          simp only [hp, Nat.add_zero] at h0 ⊢
          rw [if_neg (by omega), h0]
          simp only [Bool.false_eq_true, if_false]
          rw [if_pos hh, pushBack_run, if_pos hf, h1, hhere]; simp [Nat.add_assoc]
      · rintro ⟨i, hi, hx⟩
        rw [turn, St.run_bind, firstToken_run]
        rcases hp with hp | hp
        · have : i = 0 := by omega
          subst this
          simp only [hp, if_true, Nat.add_zero] at hx ⊢
          refine ⟨k + 1, .inl ?_⟩
          rw [if_pos hh, pushBack_run, if_pos hf, hx]; simp
        · simp only [hp]
          rw [if_neg (by omega)]
          by_cases h0 : plan k = true
          · exact ⟨_, .inr (by rw [h0]; rfl)⟩
          · have : i = 1 := by
              rcases Nat.lt_or_ge i 1 with h | h
              · have : i = 0 := by omega
                subst this
                exact absurd hx h0
              · omega
            subst this
            have h0 : plan k = false := by simpa using h0
            refine ⟨k + 1 + 1, .inl ?_⟩
            rw [h0]
            simp only [Bool.false_eq_true, if_false]
            rw [if_pos hh, pushBack_run, if_pos hf, hx]; simp
    · refine ⟨pieceAllocs lib kind [(Split.firstToken s delim b).1], cap, ?_, ?_, ?_⟩
      · rw [hhere]; simp only [List.singleton_append, need, List.length_append, List.length_singleton]
        rw [if_neg hf]
      · intro hall
        rw [turn, St.run_bind, firstToken_run]
        rcases hp with hp | hp
        · simp only [hp, if_true]
          rw [if_pos hh, pushBack_run, if_neg hf, hhere]; simp
        · have h0 := hall 0 (by omega)
          simp only [hp, Nat.add_zero] at h0 ⊢
          rw [if_neg (by omega), h0]
          simp only [Bool.false_eq_true, if_false]
          rw [if_pos hh, pushBack_run, if_neg hf, hhere]
      · rintro ⟨i, hi, hx⟩
        rw [turn, St.run_bind, firstToken_run]
        rcases hp with hp | hp
        · omega
        · have : i = 0 := by omega
          subst this
          simp only [Nat.add_zero] at hx
          simp only [hp]
          rw [if_neg (by omega), hx]
          exact ⟨_, .inr rfl⟩
  · have hhere : here s delim b = [] := by rw [here, if_neg hh]
    have hemp : (Split.firstToken s delim b).1 = [] := by
      cases b with
      | keepEmpty => exact absurd (.inl rfl) hh
      | dropEmpty =>
        by_contra hne
        exact hh (.inr ⟨rfl, hne⟩)
    refine ⟨0, cap, by rw [hhere]; simp, ?_, ?_⟩
    · intro _
      rw [turn, St.run_bind, firstToken_run, hemp, pieceAllocs_nil_text]
      simp only [if_true]
      rw [if_neg hh, hhere]
      simp
    · rintro ⟨i, hi, _⟩
      omega

private theorem loop_run (plan : Nat → Bool) (lib : Lib) (kind : Piece) (delim : α) (b : Split.Behaviour) (n : Nat) :
    ∀ (s : List α) (out : Vec α) (k : Nat), s.length ≤ n →
      ((∀ i < need lib kind (Split.splitTo s delim b) out.items.length out.capacity, plan (k + i) = false) →
        ∃ cap, (splitLoop plan lib kind s delim b out).run k =
          (.ok ⟨out.items ++ Split.splitTo s delim b, cap⟩,
            k + need lib kind (Split.splitTo s delim b) out.items.length out.capacity)) ∧
      ((∃ i < need lib kind (Split.splitTo s delim b) out.items.length out.capacity, plan (k + i) = true) →
        ∃ k', (splitLoop plan lib kind s delim b out).run k = (.throw .badAlloc, k') ∨
          (splitLoop plan lib kind s delim b out).run k = (.terminate, k')) := by
  induction n with
  | zero =>
    intro s out k hn
    have hs : (Split.firstToken s delim b).2.2 ≠ true := by
      intro h
      have := Split.firstToken_shorter s delim b h
      omega
    rw [splitTo_eq, if_neg hs]
    obtain ⟨m, cap, hneed, hok, hbad⟩ := turn_run plan lib kind s delim b out k []
    rw [hneed]
    simp only [need, Nat.add_zero, List.append_nil]
    constructor
    · intro hall
      refine ⟨cap, ?_⟩
      rw [loop_turn, St.run_bind_ok (hok hall), if_neg hs]
      rfl
    · intro hex
      obtain ⟨k', h | h⟩ := hbad hex
      · exact ⟨k', .inl (by rw [loop_turn, St.run_bind, h])⟩
      · exact ⟨k', .inr (by rw [loop_turn, St.run_bind, h])⟩
  | succ n ih =>
    intro s out k hn
    by_cases hs : (Split.firstToken s delim b).2.2 = true
    · rw [splitTo_eq, if_pos hs]
      have hlt := Split.firstToken_shorter s delim b hs
      obtain ⟨m, cap, hneed, hok, hbad⟩ := turn_run plan lib kind s delim b out k
        (Split.splitTo (Split.firstToken s delim b).2.1 delim b)
      rw [hneed]
      have hrec := ih (Split.firstToken s delim b).2.1 ⟨out.items ++ here s delim b, cap⟩ (k + m) (by omega)
      simp only at hrec
      constructor
      · intro hall
        have h1 := hok (fun i hi => hall i (by omega))
        obtain ⟨cap', h2⟩ := hrec.1 (fun i hi => by
          have := hall (m + i) (by omega)
          rwa [← Nat.add_assoc] at this)
        refine ⟨cap', ?_⟩
        rw [loop_turn, St.run_bind_ok h1, if_pos hs, h2]
        simp [Nat.add_assoc]
      · rintro ⟨i, hi, hx⟩
        by_cases hfirst : ∃ j < m, plan (k + j) = true
        · obtain ⟨k', h | h⟩ := hbad hfirst
          · exact ⟨k', .inl (by rw [loop_turn, St.run_bind, h])⟩
          · exact ⟨k', .inr (by rw [loop_turn, St.run_bind, h])⟩
        · have hall : ∀ j < m, plan (k + j) = false := by
            intro j hj
            by_contra hc
            exact hfirst ⟨j, hj, by simpa using hc⟩
          have him : m ≤ i := by
            by_contra hc
            have := hall i (by omega)
            rw [hx] at this
            cases this
          have h1 := hok hall
          obtain ⟨k', h⟩ := hrec.2 ⟨i - m, by omega, by
            rw [show k + m + (i - m) = k + i by omega]; exact hx⟩
          refine ⟨k', ?_⟩
          rw [loop_turn, St.run_bind_ok h1, if_pos hs]
          exact h
    · rw [splitTo_eq, if_neg hs]
      obtain ⟨m, cap, hneed, hok, hbad⟩ := turn_run plan lib kind s delim b out k []
      rw [hneed]
      simp only [need, Nat.add_zero, List.append_nil]
      constructor
      · intro hall
        refine ⟨cap, ?_⟩
        rw [loop_turn, St.run_bind_ok (hok hall), if_neg hs]
        rfl
      · intro hex
        obtain ⟨k', h | h⟩ := hbad hex
        · exact ⟨k', .inl (by rw [loop_turn, St.run_bind, h])⟩
        · exact ⟨k', .inr (by rw [loop_turn, St.run_bind, h])⟩

/-- The number of times a vector that starts empty grows while `n` elements are appended is `m`: after `m` steps, and
not before, there is room for them. -/
def GrowsTimes (lib : Lib) (n m : Nat) : Prop := n ≤ lib.grow^[m] 0 ∧ ∀ j < m, lib.grow^[j] 0 < n

/-! ## C153 -/

/-- C153: for every number of elements there is exactly one number of times a vector grows, so the theorems below speak
about every text. -/
theorem c153_grows (lib : Lib) (hg : ∀ c, c < lib.grow c) (n : Nat) :
    (∃ m, GrowsTimes lib n m) ∧ ∀ m m', GrowsTimes lib n m → GrowsTimes lib n m' → m = m' := by
  have hge : ∀ j, j ≤ lib.grow^[j] 0 := by
    intro j
    induction j with
    | zero => simp
    | succ j ih =>
      rw [Function.iterate_succ_apply']
      have := hg (lib.grow^[j] 0)
      omega
  refine ⟨⟨Nat.find ⟨n, hge n⟩, Nat.find_spec (p := fun m => n ≤ lib.grow^[m] 0) ⟨n, hge n⟩, ?_⟩, ?_⟩
  · intro j hj
    have := Nat.find_min (p := fun m => n ≤ lib.grow^[m] 0) ⟨n, hge n⟩ hj
    omega
  · intro m m' h h'
    rcases Nat.lt_trichotomy m m' with hl | hl | hl
    · have := h'.2 m hl
      have := h.1
      omega
    · exact hl
    · have := h.2 m' hl
      have := h'.1
      omega

/-- C153 (what holds): `split` and `split_to` make one allocation for every piece that is too long to be kept inside a
string object (none for views) and one each time the vector grows; if none of these is refused the result is what it
is with unlimited memory. -/
theorem c153_split_partial (plan : Nat → Bool) (lib : Lib) (hg : ∀ c, c < lib.grow c) (kind : Piece) (s : List α)
    (delim : α) (b : Split.Behaviour) (k m : Nat) (hm : GrowsTimes lib (Split.splitTo s delim b).length m)
    (hall : ∀ i < pieceAllocs lib kind (Split.splitTo s delim b) + m, plan (k + i) = false) :
    (splitTo plan lib kind s delim b).run k =
      (.ok (Split.splitTo s delim b), k + (pieceAllocs lib kind (Split.splitTo s delim b) + m)) := by
  have hn := need_eq lib kind (Split.splitTo s delim b) 0 0 m (Nat.le_refl 0) (by simpa using hm.1)
    (by simpa using hm.2) hg
  obtain ⟨h1, -⟩ := loop_run plan lib kind delim b s.length s ⟨[], 0⟩ k (Nat.le_refl _)
  simp only [List.length_nil, hn] at h1
  obtain ⟨cap, h1⟩ := h1 hall
  rw [splitTo, nox_run, St.run_bind_ok h1]
  simp [noexcept]

/-- C153 (refuted): if any of these allocations is refused, `split` and `split_to` end the program: they are declared
`noexcept`, and nothing can be caught. -/
theorem c153_refuted_split (plan : Nat → Bool) (lib : Lib) (hg : ∀ c, c < lib.grow c) (kind : Piece) (s : List α)
    (delim : α) (b : Split.Behaviour) (k m : Nat) (hm : GrowsTimes lib (Split.splitTo s delim b).length m)
    (hex : ∃ i < pieceAllocs lib kind (Split.splitTo s delim b) + m, plan (k + i) = true) :
    ((splitTo plan lib kind s delim b).run k).1 = .terminate := by
  have hn := need_eq lib kind (Split.splitTo s delim b) 0 0 m (Nat.le_refl 0) (by simpa using hm.1)
    (by simpa using hm.2) hg
  obtain ⟨-, h1⟩ := loop_run plan lib kind delim b s.length s ⟨[], 0⟩ k (Nat.le_refl _)
  simp only [List.length_nil, hn] at h1
  obtain ⟨k', h | h⟩ := h1 hex
  · rw [splitTo, nox_run, St.run_bind, h]; rfl
  · rw [splitTo, nox_run, St.run_bind, h]; rfl

/-- C153 (what holds): `trim_left` returns the trimmed text, or throws `std::bad_alloc` if that is too long for a string
object and the allocation is refused. -/
theorem c153_trim_left_partial (plan : Nat → Bool) (lib : Lib) (p : α → Bool) (s r : List α)
    (hr : Spec.IsLeftTrim p s r) (k : Nat) :
    ((trimLeft plan lib (fun c => .ok (p c)) s).run k).1 =
      if lib.sso < r.length ∧ plan k = true then .throw .badAlloc else .ok r := by
  rw [trimLeft, St.run_bind, St.run_lift, Trim.findNotSpace_total, Trim.isLeftTrim_unique p s r hr]
  simp only [makeString_run]
  by_cases h : lib.sso < (s.dropWhile p).length <;> cases plan k <;> simp [h]

/-- C153 (what holds): the same for `trim_right`. -/
theorem c153_trim_right_partial (plan : Nat → Bool) (lib : Lib) (p : α → Bool) (s r : List α)
    (hr : Spec.IsRightTrim p s r) (k : Nat) :
    ((trimRight plan lib (fun c => .ok (p c)) s).run k).1 =
      if lib.sso < r.length ∧ plan k = true then .throw .badAlloc else .ok r := by
  rw [trimRight, St.run_bind, St.run_lift, Trim.findNotSpace_total, Trim.isRightTrim_unique p s r hr]
  simp only [makeString_run]
  by_cases h : lib.sso < (s.reverse.dropWhile p).length <;> cases plan k <;> simp [h]

/-- C153 (what holds): `strip` makes a string of the text trimmed on the right and copies the rest out of it; it throws
`std::bad_alloc` exactly when one of the two is too long for a string object and its allocation is refused. -/
theorem c153_strip_partial (plan : Nat → Bool) (lib : Lib) (p : α → Bool) (s r t : List α)
    (hr : Spec.IsRightTrim p s r) (ht : Spec.IsLeftTrim p r t) (k : Nat) :
    ((strip plan lib (fun c => .ok (p c)) s).run k).1 =
      if lib.sso < r.length ∧ (plan k = true ∨ (lib.sso < t.length ∧ plan (k + 1) = true)) then .throw .badAlloc
      else .ok t := by
  have htr : t.length ≤ r.length := by
    obtain ⟨⟨pre, e, -⟩, -⟩ := ht
    rw [e]; simp
  have hrr := Trim.isRightTrim_unique p s r hr
  rw [strip, St.run_bind, trimRight, St.run_bind, St.run_lift, Trim.findNotSpace_total]
  simp only [← hrr, makeString_run]
  have key : ∀ k', ((trimLeft plan lib (fun c => .ok (p c)) r).run k').1 =
      if lib.sso < t.length ∧ plan k' = true then .throw .badAlloc else .ok t :=
    fun k' => c153_trim_left_partial plan lib p r t ht k'
  by_cases h : lib.sso < r.length
  · rw [if_pos h]
    cases hp : plan k with
    | true => simp [h]
    | false => simp [h, key]
  · rw [if_neg h]
    simp only [key, h, false_and, if_false]
    rw [if_neg (by omega)]

/-- C153 (what holds): `join` throws `std::bad_alloc` exactly when the result is too long for a string object and the
allocation is refused, and returns the joined text otherwise. -/
theorem c153_join_partial (plan : Nat → Bool) (lib : Lib) (zero : α) (strings : List (List α)) (delim : α) (k : Nat) :
    ((join plan lib zero strings delim).run k).1 =
      if lib.sso < (List.intercalate [delim] strings).length ∧ plan k = true then .throw .badAlloc
      else .ok (List.intercalate [delim] strings) := by
  have hj := Join.join_spec zero strings delim
  match strings with
  | [] => simp [join, List.intercalate]
  | [s] =>
    rw [join, makeString_run]
    simp only [List.intercalate, List.intersperse, List.flatten_cons, List.flatten_nil, List.append_nil]
    by_cases h : lib.sso < s.length <;> cases plan k <;> simp [h]
  | s :: t :: ts =>
    have hlen : (List.intercalate [delim] (s :: t :: ts)).length = Join.joinSize (s :: t :: ts) := by
      rw [Join.intercalate_eq, Join.joinSize_cons]
      simp [Function.comp_def]
      omega
    simp only [join]
    rw [St.run_bind, makeString_run, hlen, List.length_replicate]
    simp only [Join.join] at hj
    have key : ∀ k', ((do
        let st ← St.lift (Join.copyInto (List.replicate (Join.joinSize (s :: t :: ts)) zero, 0) s)
        let st' ← St.lift (Join.appendAll delim st (t :: ts))
        pure st'.1 : St Nat (List α)).run k').1 = .ok (List.intercalate [delim] (s :: t :: ts)) := by
      intro k'
      revert hj
      simp only [St.run_bind, St.run_lift]
      cases Join.copyInto (List.replicate (Join.joinSize (s :: t :: ts)) zero, 0) s with
      | ok st =>
        simp only [Outcome.bind_ok, St.run_lift]
        cases Join.appendAll delim st (t :: ts) with
        | ok st' => intro h; simpa using h
        | throw e => intro h; cases h
        | ub => intro h; cases h
        | terminate => intro h; cases h
        | diverge => intro h; cases h
      | throw e => intro h; cases h
      | ub => intro h; cases h
      | terminate => intro h; cases h
      | diverge => intro h; cases h
    by_cases h : lib.sso < Join.joinSize (s :: t :: ts)
    · cases hp : plan k
      · simp [h, key]
      · simp [h]
    · simp [h, key]

/-- A library as common ones are: 15 characters fit, vectors double. -/
private def usual : Lib := ⟨15, fun c => if c = 0 then 1 else 2 * c⟩

example : GrowsTimes usual 3 3 := by unfold GrowsTimes usual; decide +kernel
example : Split.splitTo [1, 0, 2, 0, 3] 0 .dropEmpty = [[1], [2], [3]] ∧
    longOnes usual [List.replicate 15 1, List.replicate 16 1] = 1 := by decide +kernel
example : (splitTo (fun _ => false) usual .string [1, 0, 2, 0, 3] 0 .dropEmpty).run 0 = (.ok [[1], [2], [3]], 3) := by
  decide +kernel
example : ((splitTo (fun n => n == 2) usual .view [1, 0, 2, 0, 3] 0 .dropEmpty).run 0).1 = .terminate := by
  decide +kernel
example : ((join (fun _ => true) usual 7 [List.replicate 9 1, List.replicate 6 2] 0).run 0).1 = .throw .badAlloc := by
  decide +kernel
example : ((join (fun _ => true) usual 7 [List.replicate 9 1, List.replicate 5 2] 0).run 0).1 =
    .ok (List.replicate 9 1 ++ [0] ++ List.replicate 5 2) := by decide +kernel
example : ((strip (fun n => n == 1) usual (fun c => .ok (c == 0)) (0 :: List.replicate 16 1)).run 0).1 =
    .throw .badAlloc := by decide +kernel

end Wite.Props
