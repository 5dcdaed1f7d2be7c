import Verif.Model.StaticLookup
import Mathlib.Data.List.Basic

/-!
# Properties C68–C69: `static_lookup` and `make_vector`
-/

namespace Wite.Props

open Wite Wite.Collections

variable {κ ν α : Type}

/-! ## C68 -/

/-- The `i`-th mapping is the first whose `target` component equals `x`. -/
private def FirstMatch {τ : Type} (ms : List (κ × ν)) (eq : τ → τ → Bool) (target : κ × ν → τ) (x : τ) (i : Nat) (p : κ × ν) : Prop :=
  ms[i]? = some p ∧ eq (target p) x = true ∧ ∀ j q, j < i → ms[j]? = some q → eq (target q) x = false

private theorem init_eq (count : Nat) (ms : List (κ × ν)) : ∀ (done rest : List (κ × ν)),
    rest.length = ms.length → done.length + ms.length = count →
    StaticLookup.init count (done ++ rest) ms = done ++ ms := by
  induction ms with
  | nil => intro done rest h _; simp at h; simp [StaticLookup.init, h]
  | cons m ms ih =>
    intro done rest h hc
    cases rest with
    | nil => simp at h
    | cons r rest =>
      simp only [List.length_cons] at h hc
      have : (done ++ r :: rest).set (count - ms.length - 1) m = (done ++ [m]) ++ rest := by
        have hk : count - ms.length - 1 = done.length := by omega
        rw [hk, List.set_append_right _ _ (Nat.le_refl _)]; simp
      rw [StaticLookup.init, this, ih (done ++ [m]) rest (by omega) (by simp; omega)]
      simp

/-- C68: the table consists of the mappings in the order given. -/
theorem c68_make (blank : κ × ν) (ms : List (κ × ν)) :
    (StaticLookup.make blank ms).items = ms ∧ (StaticLookup.make blank ms).size = ms.length := by
  have := init_eq ms.length ms [] (List.replicate ms.length blank) (by simp) (by simp)
  simp only [List.nil_append] at this
  simp [StaticLookup.make, StaticLookup.size, this]

private theorem get_iff {τ ρ : Type} (eq : τ → τ → Bool) (target : κ × ν → τ) (result : κ × ν → ρ) (t : StaticLookup κ ν) (x : τ) :
    (∀ y, StaticLookup.get eq target result t x = .ok y ↔ ∃ i p, FirstMatch t.items eq target x i p ∧ result p = y) ∧
    (StaticLookup.get eq target result t x = .throw (.outOfRange "Invalid item") ↔ ∀ p ∈ t.items, eq (target p) x = false) := by
  have hfind : ∀ (ms : List (κ × ν)) p, ms.find? (fun q => eq (target q) x) = some p ↔ ∃ i, FirstMatch ms eq target x i p := by
    intro ms p
    induction ms with
    | nil => simp [FirstMatch]
    | cons m ms ih =>
      by_cases hm : eq (target m) x = true
      · rw [List.find?_cons_of_pos (by simpa using hm)]
        constructor
        · intro h; cases h
          exact ⟨0, rfl, hm, fun j q hj => absurd hj (by omega)⟩
        · rintro ⟨i, h1, h2, h3⟩
          cases i with
          | zero => simpa using h1
          | succ i => rw [h3 0 m (by omega) rfl] at hm; cases hm
      · rw [List.find?_cons_of_neg (by simpa using hm), ih]
        constructor
        · rintro ⟨i, h1, h2, h3⟩
          refine ⟨i + 1, by simpa using h1, h2, fun j q hj hq => ?_⟩
          cases j with
          | zero => simp at hq; subst hq; simpa using hm
          | succ j => exact h3 j q (by omega) (by simpa using hq)
        · rintro ⟨i, h1, h2, h3⟩
          cases i with
          | zero => simp at h1; subst h1; exact absurd h2 hm
          | succ i =>
            exact ⟨i, by simpa using h1, h2, fun j q hj hq => h3 (j + 1) q (by omega) (by simpa using hq)⟩
  constructor
  · intro y
    simp only [StaticLookup.get]
    rcases hf : t.items.find? (fun q => eq (target q) x) with _ | p
    · simp only [reduceCtorEq, false_iff]
      rintro ⟨i, p, hp, _⟩
      have := (hfind t.items p).2 ⟨i, hp⟩
      rw [hf] at this; cases this
    · simp only [Outcome.ok.injEq]
      constructor
      · intro h
        obtain ⟨i, hi⟩ := (hfind t.items p).1 hf
        exact ⟨i, p, hi, h⟩
      · rintro ⟨i, q, hq, hy⟩
        have := (hfind t.items q).2 ⟨i, hq⟩
        rw [hf] at this; cases this; exact hy
  · simp only [StaticLookup.get]
    rcases hf : t.items.find? (fun q => eq (target q) x) with _ | p
    · simp only [true_iff]
      intro p hp
      have := (List.find?_eq_none.1 hf) p hp
      simpa using this
    · simp only [reduceCtorEq, false_iff]
      intro h
      have h1 := List.mem_of_find?_eq_some hf
      have h2 := List.find?_some hf
      rw [h p h1] at h2; cases h2

/-- C68: `at(k)` returns the value of the first mapping with key `k`, and throws exactly if there is none, for
every table and every `==`. -/
theorem c68_at (eq : κ → κ → Bool) (blank : κ × ν) (ms : List (κ × ν)) (k : κ) :
    (∀ v, (StaticLookup.make blank ms).at' eq k = .ok v ↔
      ∃ (i : Nat) (k' : κ), ms[i]? = some (k', v) ∧ eq k' k = true ∧ ∀ j (q : κ × ν), j < i → ms[j]? = some q → eq q.1 k = false) ∧
    ((StaticLookup.make blank ms).at' eq k = .throw (.outOfRange "Invalid item") ↔ ∀ p ∈ ms, eq p.1 k = false) := by
  have h := get_iff eq Prod.fst Prod.snd (StaticLookup.make blank ms) k
  rw [(c68_make blank ms).1] at h
  refine ⟨fun v => (h.1 v).trans ⟨?_, ?_⟩, h.2⟩
  · rintro ⟨i, p, ⟨h1, h2, h3⟩, rfl⟩
    exact ⟨i, p.1, h1, h2, h3⟩
  · rintro ⟨i, k', h1, h2, h3⟩
    exact ⟨i, (k', v), ⟨h1, h2, h3⟩, rfl⟩

/-- C68: `with(v)` returns the key of the first mapping with value `v`, and throws exactly if there is none. -/
theorem c68_with (eq : ν → ν → Bool) (blank : κ × ν) (ms : List (κ × ν)) (v : ν) :
    (∀ k, (StaticLookup.make blank ms).with' eq v = .ok k ↔
      ∃ (i : Nat) (v' : ν), ms[i]? = some (k, v') ∧ eq v' v = true ∧ ∀ j (q : κ × ν), j < i → ms[j]? = some q → eq q.2 v = false) ∧
    ((StaticLookup.make blank ms).with' eq v = .throw (.outOfRange "Invalid item") ↔ ∀ p ∈ ms, eq p.2 v = false) := by
  have h := get_iff eq Prod.snd Prod.fst (StaticLookup.make blank ms) v
  rw [(c68_make blank ms).1] at h
  refine ⟨fun k => (h.1 k).trans ⟨?_, ?_⟩, h.2⟩
  · rintro ⟨i, p, ⟨h1, h2, h3⟩, rfl⟩
    exact ⟨i, p.2, h1, h2, h3⟩
  · rintro ⟨i, v', h1, h2, h3⟩
    exact ⟨i, (k, v'), ⟨h1, h2, h3⟩, rfl⟩

/-- C68: with distinct keys and distinct values the two lookups are inverse to each other. -/
theorem c68_inverse [DecidableEq κ] [DecidableEq ν] (blank : κ × ν) (ms : List (κ × ν))
    (hk : (ms.map Prod.fst).Nodup) (hv : (ms.map Prod.snd).Nodup) (k : κ) (v : ν) :
    (StaticLookup.make blank ms).at' (fun a b => decide (a = b)) k = .ok v ↔
    (StaticLookup.make blank ms).with' (fun a b => decide (a = b)) v = .ok k := by
  rw [(c68_at _ blank ms k).1, (c68_with _ blank ms v).1]
  constructor
  · rintro ⟨i, k', h1, h2, _⟩
    have h2 : k' = k := by simpa using h2
    subst h2
    refine ⟨i, v, h1, by simp, fun j q hj hq => ?_⟩
    have hi : (ms.map Prod.snd)[i]? = some v := by simp [h1]
    have hj' : (ms.map Prod.snd)[j]? = some q.2 := by simp [hq]
    simp only [decide_eq_false_iff_not]
    intro he
    have hjl : j < (ms.map Prod.snd).length := (List.getElem?_eq_some_iff.1 hj').1
    have := ((List.getElem?_inj hjl hv).1 (hj'.trans (by rw [he, hi])))
    omega
  · rintro ⟨i, v', h1, h2, _⟩
    have h2 : v' = v := by simpa using h2
    subst h2
    refine ⟨i, k, h1, by simp, fun j q hj hq => ?_⟩
    have hi : (ms.map Prod.fst)[i]? = some k := by simp [h1]
    have hj' : (ms.map Prod.fst)[j]? = some q.1 := by simp [hq]
    simp only [decide_eq_false_iff_not]
    intro he
    have hjl : j < (ms.map Prod.fst).length := (List.getElem?_eq_some_iff.1 hj').1
    have := ((List.getElem?_inj hjl hk).1 (hj'.trans (by rw [he, hi])))
    omega

/-- C68: assigning through `at(k)` changes the value of the first mapping with key `k` and no other, and the
keys stay. -/
theorem c68_assign (eq : κ → κ → Bool) (t : StaticLookup κ ν) (k : κ) (v : ν) :
    let r := StaticLookup.setAt eq k v t
    (r.1 = .ok () ↔ ∃ p ∈ t.items, eq p.1 k = true) ∧
    r.2.items.map Prod.fst = t.items.map Prod.fst ∧
    (r.1 = .ok () → r.2.at' eq k = .ok v) ∧
    (∀ k', (∀ a, eq a k = true → eq a k' = false) → r.2.at' eq k' = t.at' eq k') := by
  obtain ⟨ms⟩ := t
  simp only [StaticLookup.setAt]
  induction ms with
  | nil => simp
  | cons m ms ih =>
    simp only [List.findIdx?_cons]
    by_cases hm : eq m.1 k = true
    · simp only [hm, if_true]
      refine ⟨⟨fun _ => ⟨m, by simp, hm⟩, fun _ => trivial⟩, by simp [List.modify_cons], ?_, ?_⟩
      · intro _
        simp [StaticLookup.at', StaticLookup.get, List.modify_cons, hm]
      · intro k' h2
        simp [StaticLookup.at', StaticLookup.get, List.modify_cons, h2 _ hm]
    · simp only [Bool.not_eq_true] at hm
      simp only [hm, Bool.false_eq_true, if_false]
      rcases hf : ms.findIdx? (fun p => eq p.1 k) with _ | i
      · simp only [hf] at ih
        simp only [hf, Option.map_none]
        refine ⟨?_, trivial, by simp, fun _ _ => trivial⟩
        simpa [hm] using ih.1
      · simp only [hf] at ih
        simp only [hf, Option.map_some]
        obtain ⟨h1, h2, h3, h4⟩ := ih
        refine ⟨?_, ?_, ?_, ?_⟩
        · simpa [hm] using h1
        · simpa [List.modify_succ_cons] using h2
        · intro _
          have := h3 trivial
          simpa [StaticLookup.at', StaticLookup.get, List.modify_succ_cons, List.find?_cons, hm] using this
        · intro k' b
          have := h4 k' b
          simp only [StaticLookup.at', StaticLookup.get, List.modify_succ_cons, List.find?_cons] at this ⊢
          cases eq m.1 k' <;> simp [this]

example : (StaticLookup.make (0, 0) [(1, 10), (2, 20), (1, 30)]).at' (fun a b => decide (a = b)) 1 = .ok 10 := by decide
example : (StaticLookup.make (0, 0) [(1, 10), (2, 20), (1, 30)]).with' (fun a b => decide (a = b)) 30 = .ok 1 := by decide
example : (StaticLookup.make (0, 0) [(1, 10), (2, 20)]).at' (fun a b => decide (a = b)) 0 =
    .throw (.outOfRange "Invalid item") := by decide

/-! ## C69 -/

/-- What the arguments ask of the contents: reserves do not matter. -/
private def wanted : List α → List (VecArg α) → List α
  | l, [] => l
  | l, .reserve _ :: as => wanted l as
  | l, .size n x :: as => wanted (l.take n ++ List.replicate (n - l.length) x) as

/-- The number of elements an argument mentions. -/
private def amount : VecArg α → Nat
  | .reserve n => n
  | .size n _ => n

private theorem applyArgs_spec (g : Vec.Growth) (maxSize : Nat) (args : List (VecArg α)) : ∀ (v : Vec α),
    v.contents.length ≤ v.capacity →
    (∀ a ∈ args, amount a ≤ maxSize) →
    ∃ w, Vec.applyArgs g maxSize v args = .ok w ∧ w.contents = wanted v.contents args ∧
      w.contents.length ≤ w.capacity ∧ v.capacity ≤ w.capacity ∧ ∀ a ∈ args, amount a ≤ w.capacity := by
  induction args with
  | nil => intro v h _; exact ⟨v, rfl, rfl, h, Nat.le_refl _, by simp⟩
  | cons a as ih =>
    intro v h hm
    have ha := hm a (by simp)
    have hens : ∀ n, n ≤ maxSize → ∃ c, Vec.ensure g maxSize n v = .ok ⟨v.contents, c⟩ ∧ v.capacity ≤ c ∧ n ≤ c := by
      intro n hn
      unfold Vec.ensure
      rw [if_neg (by omega)]
      split
      · have := g.enough v.capacity n
        exact ⟨_, rfl, by omega, this⟩
      · exact ⟨v.capacity, rfl, Nat.le_refl _, by omega⟩
    cases a with
    | reserve n =>
      obtain ⟨c, h1, h2, h3⟩ := hens n ha
      obtain ⟨w, h4, h5, h6, h7, h8⟩ := ih ⟨v.contents, c⟩ (by simp only; omega) (fun b hb => hm b (by simp [hb]))
      refine ⟨w, ?_, h5, h6, by simp only at h7; omega, ?_⟩
      · simp only [Vec.applyArgs, Vec.applyArg, h1, Outcome.bind_ok, h4]
      · intro b hb
        simp only [List.mem_cons] at hb
        rcases hb with rfl | hb
        · simp only [amount] at *; omega
        · exact h8 b hb
    | size n x =>
      obtain ⟨c, h1, h2, h3⟩ := hens n ha
      obtain ⟨w, h4, h5, h6, h7, h8⟩ := ih ⟨v.contents.take n ++ List.replicate (n - v.contents.length) x, c⟩
        (by simp; omega) (fun b hb => hm b (by simp [hb]))
      refine ⟨w, ?_, h5, h6, by simp only at h7; omega, ?_⟩
      · simp only [Vec.applyArgs, Vec.applyArg, Vec.resize, h1, Outcome.bind_ok, Outcome.pure_eq, h4]
      · intro b hb
        simp only [List.mem_cons] at hb
        rcases hb with rfl | hb
        · simp only [amount] at *; omega
        · exact h8 b hb

/-- C69: the two orders of a reserve and a size argument give the same contents, `size` copies of the initial
value, and a capacity of at least the reserve and the size. -/
theorem c69_order (g : Vec.Growth) (maxSize r n : Nat) (x : α) (hr : r ≤ maxSize) (hn : n ≤ maxSize) :
    ∃ v w, Vec.make g maxSize [.reserve r, .size n x] = .ok v ∧ Vec.make g maxSize [.size n x, .reserve r] = .ok w ∧
      v.contents = List.replicate n x ∧ w.contents = List.replicate n x ∧
      r ≤ v.capacity ∧ r ≤ w.capacity ∧ n ≤ v.capacity ∧ n ≤ w.capacity := by
  obtain ⟨v, h1, h2, -, -, h3⟩ := applyArgs_spec g maxSize [.reserve r, .size n x] ⟨[], 0⟩ (by simp) (by simp [amount]; omega)
  obtain ⟨w, h4, h5, -, -, h6⟩ := applyArgs_spec g maxSize [.size n x, .reserve r] ⟨[], 0⟩ (by simp) (by simp [amount]; omega)
  simp [amount] at h3 h6
  simp [wanted] at h2 h5
  exact ⟨v, w, h1, h4, h2, h5, h3.1, h6.2, h3.2, h6.1⟩

/-- C69: for any number of arguments, inserting a reserve anywhere does not change the contents, and the
capacity covers every amount mentioned. -/
theorem c69_reserve_anywhere (g : Vec.Growth) (maxSize r : Nat) (as bs : List (VecArg α)) (hr : r ≤ maxSize)
    (h : ∀ a ∈ as ++ bs, match a with | .reserve n => n ≤ maxSize | .size n _ => n ≤ maxSize) :
    ∃ v w, Vec.make g maxSize (as ++ bs) = .ok v ∧ Vec.make g maxSize (as ++ .reserve r :: bs) = .ok w ∧
      v.contents = w.contents ∧ r ≤ w.capacity ∧
      ∀ a ∈ as ++ bs, match a with | .reserve n => n ≤ w.capacity | .size n _ => n ≤ w.capacity := by
  have h' : ∀ a ∈ as ++ bs, amount a ≤ maxSize := by
    intro a ha; have := h a ha; cases a <;> exact this
  obtain ⟨v, h1, h2, -, -, -⟩ := applyArgs_spec g maxSize (as ++ bs) ⟨[], 0⟩ (by simp) h'
  obtain ⟨w, h4, h5, -, -, h6⟩ := applyArgs_spec g maxSize (as ++ .reserve r :: bs) ⟨[], 0⟩ (by simp) (by
    intro a ha
    simp only [List.mem_append, List.mem_cons] at ha
    rcases ha with ha | rfl | ha
    · exact h' a (by simp [ha])
    · exact hr
    · exact h' a (by simp [ha]))
  refine ⟨v, w, h1, h4, ?_, h6 (.reserve r) (by simp), ?_⟩
  · rw [h2, h5]
    have : ∀ (l : List α) as, wanted l (as ++ bs) = wanted l (as ++ VecArg.reserve r :: bs) := by
      intro l as
      induction as generalizing l with
      | nil => rfl
      | cons a as ih => cases a <;> simp [wanted, ih]
    exact this _ _
  · intro a ha
    have := h6 a (by
      simp only [List.mem_append, List.mem_cons] at ha ⊢
      rcases ha with ha | ha <;> simp [ha])
    cases a <;> exact this

/-- C69: it throws exactly if some argument exceeds what a vector can hold, whatever the order. -/
theorem c69_throws (g : Vec.Growth) (maxSize : Nat) (args : List (VecArg α)) :
    Vec.make g maxSize args = .throw (.lengthError "vector") ↔
      ∃ a ∈ args, match a with | .reserve n => n > maxSize | .size n _ => n > maxSize := by
  have hgo : ∀ (args : List (VecArg α)) (v : Vec α), (∃ a ∈ args, amount a > maxSize) →
      Vec.applyArgs g maxSize v args = .throw (.lengthError "vector") := by
    intro args
    induction args with
    | nil => rintro v ⟨a, h, -⟩; simp at h
    | cons a as ih =>
      rintro v ⟨b, hb, hbig⟩
      by_cases ha : amount a > maxSize
      · cases a <;> simp only [amount] at ha <;>
          simp [Vec.applyArgs, Vec.applyArg, Vec.resize, Vec.ensure, ha]
      · have hb' : b ∈ as := by
          simp only [List.mem_cons] at hb
          rcases hb with rfl | hb
          · exact absurd hbig ha
          · exact hb
        have hstep : ∃ v', Vec.applyArg g maxSize v a = .ok v' := by
          cases a <;> simp only [amount] at ha <;> simp only [Vec.applyArg, Vec.resize, Vec.ensure, if_neg ha] <;>
            split <;> exact ⟨_, rfl⟩
        obtain ⟨v', hv'⟩ := hstep
        simp only [Vec.applyArgs, hv', Outcome.bind_ok]
        exact ih v' ⟨b, hb', hbig⟩
  constructor
  · intro h
    by_cases hbig : ∃ a ∈ args, amount a > maxSize
    · obtain ⟨a, h1, h2⟩ := hbig
      exact ⟨a, h1, by cases a <;> exact h2⟩
    · obtain ⟨w, h1, -⟩ := applyArgs_spec g maxSize args ⟨[], 0⟩ (by simp) (by
        intro a ha
        exact Nat.le_of_not_lt fun hlt => hbig ⟨a, ha, hlt⟩)
      have : Vec.make g maxSize args = .ok w := h1
      rw [this] at h; cases h
  · rintro ⟨a, h1, h2⟩
    exact hgo args _ ⟨a, h1, by cases a <;> exact h2⟩

example : Vec.make ⟨fun _ n => n, fun _ _ => Nat.le_refl _⟩ 100 [.size 2 'x', .reserve 10] = .ok ⟨['x', 'x'], 10⟩ := by decide

end Wite.Props
