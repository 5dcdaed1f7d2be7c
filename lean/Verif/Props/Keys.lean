import Verif.Model.Keys
import Verif.Props.Point
import Verif.Props.Uuid
import Verif.Props.Index
import Mathlib.Data.List.Basic
import Mathlib.Data.Int.Order.Basic
import Mathlib.Tactic.ByContra

/-!
# Property C206: the library's types as keys of the standard's containers
-/

namespace Wite.Props

open Wite Wite.Keys

variable {κ ν σ : Type}

/-! ## What a user expects of a map -/

/-- What calls on a map should return, where `f` says what is in it under every key and `same` which keys are one: an entry goes in if
there is none under that key, is found under it from then on, and until it is erased. -/
def dictionary (same : κ → κ → Bool) : (κ → Option (κ × ν)) → List (Call κ ν) → List (Reply κ ν)
  | _, [] => []
  | f, .insert k v :: cs =>
    match f k with
    | some _ => .done false :: dictionary same f cs
    | none => .done true :: dictionary same (fun q => if same q k then some (k, v) else f q) cs
  | f, .find k :: cs => .found (f k) :: dictionary same f cs
  | f, .erase k :: cs =>
    match f k with
    | some _ => .done true :: dictionary same (fun q => if same q k then none else f q) cs
    | none => .done false :: dictionary same f cs

/-- The key of a call. -/
def keyOf : Call κ ν → κ
  | .insert k _ => k
  | .find k => k
  | .erase k => k

/-- Neither is less. -/
def neither (less : κ → κ → Bool) (a b : κ) : Bool := !less a b && !less b a

/-- What the standard requires of `<` on the keys that are used: irreflexive, transitive, and "neither is less" is transitive. -/
structure StrictWeakOn (P : κ → Prop) (less : κ → κ → Bool) : Prop where
  irrefl : ∀ a, P a → less a a = false
  trans : ∀ a b c, P a → P b → P c → less a b = true → less b c = true → less a c = true
  incomp : ∀ a b c, P a → P b → P c → neither less a b = true → neither less b c = true → neither less a c = true

namespace StrictWeakOn

variable {P : κ → Prop} {less : κ → κ → Bool}

private theorem asymm (H : StrictWeakOn P less) {a b : κ} (ha : P a) (hb : P b) (h : less a b = true) : less b a = false := by
  by_contra h'
  have := H.trans a b a ha hb ha h (by simpa using h')
  rw [H.irrefl a ha] at this
  cases this

private theorem symm {a b : κ} (h : neither less a b = true) : neither less b a = true := by
  unfold neither at *; rw [Bool.and_comm]; exact h

/-- `a < b`, and `c` not less than `b`: `a < c`. -/
private theorem lt_of_lt_of_not (H : StrictWeakOn P less) {a b c : κ} (ha : P a) (hb : P b) (hc : P c) (h : less a b = true)
    (h' : less c b = false) : less a c = true := by
  by_cases hbc : less b c = true
  · exact H.trans a b c ha hb hc h hbc
  · by_contra hac
    have hbc : less b c = false := by simpa using hbc
    have hac : less a c = false := by simpa using hac
    by_cases hca : less c a = true
    · have := H.trans c a b hc ha hb hca h
      rw [h'] at this; cases this
    · have hca : less c a = false := by simpa using hca
      have := H.incomp a c b ha hc hb (by simp [neither, hac, hca]) (by simp [neither, h', hbc])
      simp [neither, h] at this

/-- `a` not less than `b`, and `c < b`... : `b` not less than `a` and `b < c` give `a < c`. -/
private theorem lt_of_not_of_lt (H : StrictWeakOn P less) {a b c : κ} (ha : P a) (hb : P b) (hc : P c) (h : less b a = false)
    (h' : less b c = true) : less a c = true := by
  by_cases hab : less a b = true
  · exact H.trans a b c ha hb hc hab h'
  · by_contra hac
    have hab : less a b = false := by simpa using hab
    have hac : less a c = false := by simpa using hac
    by_cases hca : less c a = true
    · have := H.trans b c a hb hc ha h' hca
      rw [h] at this; cases this
    · have hca : less c a = false := by simpa using hca
      have := H.incomp b a c hb ha hc (by simp [neither, h, hab]) (by simp [neither, hac, hca])
      simp [neither, h'] at this

end StrictWeakOn

section Maps

variable {P : κ → Prop} {less : κ → κ → Bool}

/-- The entries of a map in order: every key less than those after it, and all of the keys that are used. -/
private def Good (P : κ → Prop) (less : κ → κ → Bool) (L : List (κ × ν)) : Prop :=
  L.Pairwise (fun a b => less a.1 b.1 = true) ∧ ∀ e ∈ L, P e.1

private theorem lowerBound_eq (H : StrictWeakOn P less) {k : κ} (hk : P k) : ∀ (t : STree κ ν) (best : Option (κ × ν)),
    Good P less t.entries → t.lowerBound less k best = (t.entries.find? (fun e => !less e.1 k)).or best := by
  intro t
  induction t with
  | leaf => intro best _; rfl
  | node l x v r ihl ihr =>
    intro best hg
    obtain ⟨hs, hP⟩ := hg
    simp only [STree.entries] at hs hP
    rw [List.pairwise_append, List.pairwise_cons] at hs
    obtain ⟨h1, ⟨h2, h3⟩, h4⟩ := hs
    have hl : Good P less l.entries := ⟨h1, fun e he => hP e (by simp [he])⟩
    have hr : Good P less r.entries := ⟨h3, fun e he => hP e (by simp [he])⟩
    have hx : P x := hP (x, v) (by simp)
    simp only [STree.lowerBound, STree.entries, List.find?_append, List.find?_cons]
    by_cases hxk : less x k = true
    · have : l.entries.find? (fun e => !less e.1 k) = none := by
        rw [List.find?_eq_none]
        intro e he
        have := H.trans e.1 x k (hl.2 e he) hx hk (h4 e he (x, v) (by simp)) hxk
        simp [this]
      rw [if_pos hxk, ihr best hr, this]
      simp [hxk]
    · have hxk : less x k = false := by simpa using hxk
      rw [hxk, ihl _ hl]
      simp only [Bool.false_eq_true, if_false, Bool.not_false]
      cases l.entries.find? (fun e => !less e.1 k) <;> simp

/-- In a list in order, the first entry not less than `k` is the one with the same key, if there is one. -/
private theorem find_sorted (H : StrictWeakOn P less) {k : κ} (hk : P k) : ∀ (L : List (κ × ν)), Good P less L →
    (match L.find? (fun e => !less e.1 k) with
      | none => none
      | some e => if less k e.1 then none else some e) = L.find? (fun e => neither less k e.1) := by
  intro L
  induction L with
  | nil => intro _; rfl
  | cons a L ih =>
    rintro ⟨hs, hP⟩
    rw [List.pairwise_cons] at hs
    have hL : Good P less L := ⟨hs.2, fun e he => hP e (by simp [he])⟩
    have ha : P a.1 := hP a (by simp)
    rw [List.find?_cons, List.find?_cons]
    by_cases h1 : less a.1 k = true
    · have : neither less k a.1 = false := by simp [neither, h1]
      simp only [h1, this, Bool.not_true]
      exact ih hL
    · have h1 : less a.1 k = false := by simpa using h1
      by_cases h2 : less k a.1 = true
      · have : neither less k a.1 = false := by simp [neither, h2]
        simp only [h1, this, Bool.not_false, h2, if_true]
        symm
        rw [List.find?_eq_none]
        intro e he
        have := H.trans k a.1 e.1 hk ha (hL.2 e he) h2 (hs.1 e he)
        simp [neither, this]
      · have h2 : less k a.1 = false := by simpa using h2
        have : neither less k a.1 = true := by simp [neither, h1, h2]
        simp [h1, h2, this]

private theorem find_eq (H : StrictWeakOn P less) {k : κ} (hk : P k) (t : STree κ ν) (hg : Good P less t.entries) :
    t.find less k = t.entries.find? (fun e => neither less k e.1) := by
  unfold STree.find
  rw [lowerBound_eq H hk t none hg, Option.or_none]
  exact find_sorted H hk _ hg

private theorem insert_eq (H : StrictWeakOn P less) {k : κ} (hk : P k) (v : ν) : ∀ (t : STree κ ν) (p : Option κ),
    Good P less t.entries → (∀ x ∈ p, P x ∧ less k x = false ∧ ∀ e ∈ t.entries, less x e.1 = true) →
    (((∃ x ∈ p, neither less k x = true) ∨ ∃ e ∈ t.entries, neither less k e.1 = true) → t.insert less k v p = none) ∧
    ((∀ x ∈ p, neither less k x = false) → (∀ e ∈ t.entries, neither less k e.1 = false) →
      ∃ t' l r, t.insert less k v p = some t' ∧ t.entries = l ++ r ∧ t'.entries = l ++ (k, v) :: r ∧
        (∀ e ∈ l, less e.1 k = true) ∧ ∀ e ∈ r, less k e.1 = true) := by
  intro t
  induction t with
  | leaf =>
    intro p hg hp
    cases p with
    | none => exact ⟨by simp [STree.entries], fun _ _ => ⟨_, [], [], rfl, rfl, rfl, by simp, by simp⟩⟩
    | some x =>
      obtain ⟨hx, hkx, -⟩ := hp x rfl
      constructor
      · intro h
        have hn : neither less k x = true := by simpa [STree.entries] using h
        have : less x k = false := by simp [neither, hkx] at hn; exact hn
        simp [STree.insert, this]
      · intro h _
        have hn := h x rfl
        have : less x k = true := by simpa [neither, hkx] using hn
        exact ⟨.node .leaf k v .leaf, [], [], by simp only [STree.insert, this, if_true], rfl, rfl, by simp, by simp⟩
  | node l x w r ihl ihr =>
    intro p hg hp
    obtain ⟨hs, hP⟩ := hg
    simp only [STree.entries] at hs hP hp
    rw [List.pairwise_append, List.pairwise_cons] at hs
    obtain ⟨h1, ⟨h2, h3⟩, h4⟩ := hs
    have hl : Good P less l.entries := ⟨h1, fun e he => hP e (by simp [he])⟩
    have hr : Good P less r.entries := ⟨h3, fun e he => hP e (by simp [he])⟩
    have hx : P x := hP (x, w) (by simp)
    simp only [STree.insert, STree.entries]
    by_cases hkx : less k x = true
    · obtain ⟨A, B⟩ := ihl p hl (fun y hy => ⟨(hp y hy).1, (hp y hy).2.1, fun e he => (hp y hy).2.2 e (by simp [he])⟩)
      have hright : ∀ e ∈ r.entries, less k e.1 = true := fun e he => H.trans k x e.1 hk hx (hr.2 e he) hkx (h2 e he)
      rw [if_pos hkx]
      constructor
      · rintro (h | ⟨e, he, hn⟩)
        · rw [A (.inl h)]; rfl
        · rw [List.mem_append, List.mem_cons] at he
          rcases he with he | rfl | he
          · rw [A (.inr ⟨e, he, hn⟩)]; rfl
          · simp [neither, hkx] at hn
          · simp [neither, hright e he] at hn
      · intro hp' he'
        obtain ⟨t', a, b, e1, e2, e3, e4, e5⟩ := B hp' (fun e he => he' e (by simp [he]))
        refine ⟨_, a, b ++ (x, w) :: r.entries, by rw [e1]; rfl, by simp [e2], by simp [STree.entries, e3], e4, ?_⟩
        intro e he
        rw [List.mem_append, List.mem_cons] at he
        rcases he with he | rfl | he
        · exact e5 e he
        · exact hkx
        · exact hright e he
    · have hkx : less k x = false := by simpa using hkx
      obtain ⟨A, B⟩ := ihr (some x) hr (fun y hy => by cases hy; exact ⟨hx, hkx, fun e he => h2 e he⟩)
      rw [hkx, if_neg (by simp)]
      constructor
      · rintro (⟨y, hy, hn⟩ | ⟨e, he, hn⟩)
        · -- the key remembered so far is the same as `k`, and less than `x`: `k < x`
          exfalso
          have hyk : less k y = false := (hp y hy).2.1
          have := H.lt_of_not_of_lt hk (hp y hy).1 hx (by simp [neither, hyk] at hn; exact hn) ((hp y hy).2.2 (x, w) (by simp))
          rw [hkx] at this; cases this
        · rw [List.mem_append, List.mem_cons] at he
          rcases he with he | rfl | he
          · exfalso
            have hnn : less e.1 k = false := by simp [neither] at hn; exact hn.2
            have := H.lt_of_not_of_lt hk (hl.2 e he) hx hnn (h4 e he (x, w) (by simp))
            rw [hkx] at this; cases this
          · rw [A (.inl ⟨x, rfl, hn⟩)]; rfl
          · rw [A (.inr ⟨e, he, hn⟩)]; rfl
      · intro _ he'
        have hxn : neither less k x = false := he' (x, w) (by simp)
        have hxk : less x k = true := by simpa [neither, hkx] using hxn
        obtain ⟨t', a, b, e1, e2, e3, e4, e5⟩ := B (fun y hy => by cases hy; exact hxn) (fun e he => he' e (by simp [he]))
        refine ⟨_, l.entries ++ (x, w) :: a, b, by rw [e1]; rfl, by simp [e2], by simp [STree.entries, e3], ?_, e5⟩
        intro e he
        rw [List.mem_append, List.mem_cons] at he
        rcases he with he | rfl | he
        · exact H.trans e.1 x k (hl.2 e he) hx hk (h4 e he (x, w) (by simp)) hxk
        · exact hxk
        · exact e4 e he

private theorem neither_congr (H : StrictWeakOn P less) {q k e : κ} (hq : P q) (hk : P k) (he : P e) (h : neither less q k = true) :
    neither less q e = neither less k e := by
  rw [Bool.eq_iff_iff]
  exact ⟨fun h' => H.incomp k q e hk hq he (StrictWeakOn.symm h) h', fun h' => H.incomp q k e hq hk he h h'⟩

/-- What is in the map, by key. -/
private def Holds (P : κ → Prop) (less : κ → κ → Bool) (L : List (κ × ν)) (f : κ → Option (κ × ν)) : Prop :=
  ∀ q, P q → f q = L.find? (fun e => neither less q e.1)

private theorem holds_insert (H : StrictWeakOn P less) {l r : List (κ × ν)} {f : κ → Option (κ × ν)} {k : κ} {v : ν}
    (hP : ∀ e ∈ l ++ r, P e.1) (hk : P k) (hno : ∀ e ∈ l ++ r, neither less k e.1 = false) (hf : Holds P less (l ++ r) f) :
    Holds P less (l ++ (k, v) :: r) (fun q => if neither less q k then some (k, v) else f q) := by
  intro q hq
  simp only [List.find?_append, List.find?_cons]
  by_cases h : neither less q k = true
  · have hn : l.find? (fun e => neither less q e.1) = none := by
      rw [List.find?_eq_none]
      intro e he
      rw [neither_congr H hq hk (hP e (by simp [he])) h, hno e (by simp [he])]
      simp
    simp [h, hn]
  · have h : neither less q k = false := by simpa using h
    simp only [h]
    have := hf q hq
    rw [List.find?_append] at this
    simpa using this

private theorem holds_erase (H : StrictWeakOn P less) {l r : List (κ × ν)} {e : κ × ν} {f : κ → Option (κ × ν)} {k : κ}
    (hg : Good P less (l ++ e :: r)) (hk : P k) (he : neither less k e.1 = true) (hf : Holds P less (l ++ e :: r) f) :
    Holds P less (l ++ r) (fun q => if neither less q k then none else f q) := by
  obtain ⟨hs, hP⟩ := hg
  have heP : P e.1 := hP e (by simp)
  rw [List.pairwise_append, List.pairwise_cons] at hs
  obtain ⟨h1, ⟨h2, h3⟩, h4⟩ := hs
  intro q hq
  by_cases h : neither less q k = true
  · have hqe : neither less q e.1 = true := H.incomp q k e.1 hq hk heP h he
    simp only [h, if_true]
    symm
    rw [List.find?_eq_none]
    intro x hx
    rw [List.mem_append] at hx
    have hxP : P x.1 := hP x (by rcases hx with hx | hx <;> simp [hx])
    rw [neither_congr H hq heP hxP hqe]
    rcases hx with hx | hx
    · simp [neither, h4 x hx e (by simp)]
    · simp [neither, h2 x hx]
  · have hf' := hf q hq
    have hqe : neither less q e.1 = false := by
      by_contra h'
      have h' : neither less q e.1 = true := by simpa using h'
      exact h (H.incomp q e.1 k hq heP hk h' (StrictWeakOn.symm he))
    show (if neither less q k = true then none else f q) = _
    rw [if_neg h, hf', List.find?_append, List.find?_append, List.find?_cons, hqe]

private theorem find_none_iff {L : List (κ × ν)} {k : κ} :
    L.find? (fun e => neither less k e.1) = none ↔ ∀ e ∈ L, neither less k e.1 = false := by
  simp [List.find?_eq_none]

private theorem dictionary_congr_step (H : StrictWeakOn P less) {t t' : STree κ ν} {c : Call κ ν} {r : Reply κ ν}
    {f : κ → Option (κ × ν)} (hg : Good P less t.entries) (hf : Holds P less t.entries f) (hc : P (keyOf c))
    (h : MapStep less t c r t') :
    ∃ f', Good P less t'.entries ∧ Holds P less t'.entries f' ∧
      ∀ cs : List (Call κ ν), dictionary (neither less) f (c :: cs) = r :: dictionary (neither less) f' cs := by
  cases h with
  | inserted h1 h2 =>
    rename_i t1 k v
    have hk : P k := hc
    obtain ⟨A, B⟩ := insert_eq H hk v t none hg (by simp)
    have hno : ∀ e ∈ t.entries, neither less k e.1 = false := by
      intro e he
      by_contra h'
      rw [A (.inr ⟨e, he, by simpa using h'⟩)] at h1
      cases h1
    obtain ⟨t2, a, b, e1, e2, e3, e4, e5⟩ := B (by simp) hno
    rw [h1] at e1
    cases e1
    have hfk : f k = none := by rw [hf k hk]; exact find_none_iff.2 hno
    refine ⟨fun q => if neither less q k then some (k, v) else f q, ?_, ?_, ?_⟩
    · rw [h2, e3]
      rw [e2] at hg
      obtain ⟨hs, hP⟩ := hg
      rw [List.pairwise_append] at hs
      refine ⟨?_, ?_⟩
      · rw [List.pairwise_append, List.pairwise_cons]
        refine ⟨hs.1, ⟨e5, hs.2.1⟩, ?_⟩
        intro x hx y hy
        rw [List.mem_cons] at hy
        rcases hy with rfl | hy
        · exact e4 x hx
        · exact hs.2.2 x hx y hy
      · intro e he
        rw [List.mem_append, List.mem_cons] at he
        rcases he with he | rfl | he
        · exact hP e (by simp [he])
        · exact hk
        · exact hP e (by simp [he])
    · rw [h2, e3]
      rw [e2] at hg hf hno
      exact holds_insert H hg.2 hk hno hf
    · intro cs; simp [dictionary, hfk]
  | present h1 =>
    rename_i k v
    have hk : P k := hc
    obtain ⟨-, B⟩ := insert_eq H hk v t none hg (by simp)
    refine ⟨f, hg, hf, fun cs => ?_⟩
    cases hfk : f k with
    | some e => simp [dictionary, hfk]
    | none =>
      exfalso
      rw [hf k hk] at hfk
      obtain ⟨t2, a, b, e1, -⟩ := B (by simp) (find_none_iff.1 hfk)
      rw [h1] at e1
      cases e1
  | find =>
    rename_i k
    refine ⟨f, hg, hf, fun cs => ?_⟩
    have hk : P k := hc
    have : t.find less k = f k := by rw [find_eq H hk t hg, hf k hk]
    simp [dictionary, this]
  | erased h1 h2 h3 =>
    rename_i k e l r
    have hk : P k := hc
    rw [find_eq H hk t hg] at h1
    have hfk : f k = some e := by rw [hf k hk]; exact h1
    have hne : neither less k e.1 = true := by simpa using List.find?_some h1
    refine ⟨fun q => if neither less q k then none else f q, ?_, ?_, ?_⟩
    · rw [h3]
      rw [h2] at hg
      exact ⟨hg.1.sublist (by simp), fun x hx => hg.2 x (by
        rw [List.mem_append] at hx; rcases hx with hx | hx <;> simp [hx])⟩
    · rw [h3]
      rw [h2] at hg hf
      exact holds_erase H hg hk hne hf
    · intro cs; simp [dictionary, hfk]
  | absent h1 =>
    rename_i k
    have hk : P k := hc
    rw [find_eq H hk t hg, ← hf k hk] at h1
    exact ⟨f, hg, hf, fun cs => by simp [dictionary, h1]⟩

private theorem runs_map (H : StrictWeakOn P less) {t t' : STree κ ν} {cs : List (Call κ ν)} {rs : List (Reply κ ν)}
    (h : Runs (MapStep less) t cs rs t') : ∀ f : κ → Option (κ × ν), Good P less t.entries → Holds P less t.entries f →
    (∀ c ∈ cs, P (keyOf c)) → rs = dictionary (neither less) f cs ∧ Good P less t'.entries := by
  induction h with
  | nil => intro f hg _ _; exact ⟨rfl, hg⟩
  | cons hs _ ih =>
    intro f hg hf hc
    obtain ⟨f', hg', hf', he⟩ := dictionary_congr_step H hg hf (hc _ (by simp)) hs
    obtain ⟨h1, h2⟩ := ih f' hg' hf' (fun c h => hc c (by simp [h]))
    exact ⟨by rw [he, ← h1], h2⟩

/-- Whatever has been called before, a map has an answer to the next call. -/
private theorem map_total (t : STree κ ν) (cs : List (Call κ ν)) : ∃ rs t', Runs (MapStep less) t cs rs t' := by
  induction cs generalizing t with
  | nil => exact ⟨[], t, .nil⟩
  | cons c cs ih =>
    have : ∃ r t', MapStep less t c r t' := by
      cases c with
      | insert k v =>
        cases h : t.insert less k v none with
        | none => exact ⟨_, _, .present h⟩
        | some t' => exact ⟨_, t', .inserted h rfl⟩
      | find k => exact ⟨_, _, .find⟩
      | erase k =>
        cases h : t.find less k with
        | none => exact ⟨_, _, .absent h⟩
        | some e =>
          have hlb : ∀ (t : STree κ ν) (b : Option (κ × ν)) e, t.lowerBound less k b = some e → e ∈ t.entries ∨ b = some e := by
            intro t
            induction t with
            | leaf => intro b e h; exact .inr h
            | node l x v r ihl ihr =>
              intro b e h
              simp only [STree.lowerBound] at h
              simp only [STree.entries, List.mem_append, List.mem_cons]
              split at h
              · rcases ihr b e h with h | h
                · exact .inl (.inr (.inr h))
                · exact .inr h
              · rcases ihl _ e h with h | h
                · exact .inl (.inl h)
                · cases h; exact .inl (.inr (.inl rfl))
          have hmem : e ∈ t.entries := by
            unfold STree.find at h
            split at h
            · cases h
            · rename_i e' he'
              split at h
              · cases h
              · cases h
                rcases hlb t none _ he' with h | h
                · exact h
                · cases h
          obtain ⟨l, r, hlr⟩ := List.append_of_mem hmem
          let spine : List (κ × ν) → STree κ ν := fun L => L.foldr (fun e t => .node .leaf e.1 e.2 t) .leaf
          have hsp : ∀ L, (spine L).entries = L := by
            intro L
            induction L with
            | nil => rfl
            | cons a L ih => simp only [spine, List.foldr_cons, STree.entries, List.nil_append]; exact congrArg _ ih
          exact ⟨_, spine (l ++ r), .erased h hlr (hsp _)⟩
    obtain ⟨r, t', h⟩ := this
    obtain ⟨rs, t'', h'⟩ := ih t'
    exact ⟨r :: rs, t'', .cons h h'⟩

/-- C206, maps: if `<` is a strict weak order on the keys used, then whatever is called on an empty map, in whatever shape its tree is after every call, the
calls return what they should, keys being the same if neither is less, and iteration goes through the keys in ascending order. -/
theorem c206_map_partial (H : StrictWeakOn P less) (cs : List (Call κ ν)) (hc : ∀ c ∈ cs, P (keyOf c)) :
    (∃ rs t, Runs (MapStep less) STree.leaf cs rs t) ∧
    ∀ rs t, Runs (MapStep less) STree.leaf cs rs t →
      rs = dictionary (neither less) (fun _ => none) cs ∧ t.entries.Pairwise (fun a b => less a.1 b.1 = true) := by
  refine ⟨map_total _ _, fun rs t h => ?_⟩
  obtain ⟨h1, h2⟩ := runs_map H h (fun _ => none) ⟨by simp [STree.entries], by simp [STree.entries]⟩
    (fun q _ => by simp [STree.entries]) hc
  exact ⟨h1, h2.1⟩

end Maps

/-! ## The library's types in a map -/

/-- A strict total order: keys neither of which is less are equal. -/
private theorem total_on [DecidableEq κ] {P : κ → Prop} {less : κ → κ → Bool} (h1 : ∀ a, P a → less a a = false)
    (h2 : ∀ a b c, P a → P b → P c → less a b = true → less b c = true → less a c = true)
    (h3 : ∀ a b, P a → P b → less a b = true ∨ a = b ∨ less b a = true) :
    StrictWeakOn P less ∧ ∀ a b, P a → P b → neither less a b = decide (a = b) := by
  have e : ∀ a b, P a → P b → neither less a b = decide (a = b) := by
    intro a b ha hb
    rcases h3 a b ha hb with h | rfl | h
    · have hne : a ≠ b := by rintro rfl; rw [h1 a ha] at h; cases h
      simp [neither, h, hne]
    · simp [neither, h1 a ha]
    · have hne : a ≠ b := by rintro rfl; rw [h1 a ha] at h; cases h
      simp [neither, h, hne]
  refine ⟨⟨h1, h2, fun a b c ha hb hc h h' => ?_⟩, e⟩
  rw [e a b ha hb] at h
  rw [e b c hb hc] at h'
  rw [e a c ha hc]
  simp only [decide_eq_true_eq] at *
  exact h.trans h'

private theorem same_eq [DecidableEq κ] {less : κ → κ → Bool} (h : ∀ a b, True → True → neither less a b = decide (a = b)) :
    neither less = fun a b => decide (a = b) := by
  funext a b; exact h a b trivial trivial

/-- All calls on a map return what they should, keys being the same if they are equal; there is an answer to every sequence of calls, and
iteration is in the order `lt`. -/
def MapWorks [DecidableEq κ] (less : κ → κ → Bool) (lt : κ → κ → Prop) : Prop :=
  ∀ (ν : Type) (cs : List (Call κ ν)),
    (∃ rs t, Runs (MapStep less) STree.leaf cs rs t) ∧
    ∀ rs t, Runs (MapStep less) STree.leaf cs rs t →
      rs = dictionary (fun a b => decide (a = b)) (fun _ => none) cs ∧ t.entries.Pairwise (fun a b => lt a.1 b.1)

private theorem mapWorks_of [DecidableEq κ] {less : κ → κ → Bool} {lt : κ → κ → Prop} (h0 : ∀ a b, less a b = true → lt a b) (h1 : ∀ a, less a a = false)
    (h2 : ∀ a b c, less a b = true → less b c = true → less a c = true)
    (h3 : ∀ a b, less a b = true ∨ a = b ∨ less b a = true) : MapWorks less lt := by
  intro ν cs
  obtain ⟨H, e⟩ := total_on (P := fun _ : κ => True) (fun a _ => h1 a) (fun a b c _ _ _ => h2 a b c) (fun a b _ _ => h3 a b)
  have := c206_map_partial H cs (fun _ _ => trivial)
  rw [same_eq e] at this
  exact ⟨this.1, fun rs t h => ⟨(this.2 rs t h).1, (this.2 rs t h).2.imp (h0 _ _)⟩⟩

/-- C206: UUIDs in a map; iteration is in the lexicographic order of their bytes. -/
theorem c206_uuid_map : MapWorks uuidLess (fun a b : List Nat => a < b) := by
  have hlex : ∀ a b : List Nat, Uuid.compare a b = .lt → a < b := by
    intro a
    induction a with
    | nil =>
      intro b h
      cases b with
      | nil => cases h
      | cons y ys => exact List.nil_lt_cons _ _
    | cons x xs ih =>
      intro b h
      cases b with
      | nil => cases h
      | cons y ys =>
        rw [List.cons_lt_cons_iff]
        simp only [Uuid.compare] at h
        by_cases h1 : x < y
        · exact .inl h1
        · rw [if_neg h1] at h
          by_cases h2 : y < x
          · rw [if_pos h2] at h; cases h
          · rw [if_neg h2] at h
            exact .inr ⟨by omega, ih ys h⟩
  refine mapWorks_of (fun a b h => hlex a b (by simpa [uuidLess] using h)) (fun a => ?_) (fun a b c h h' => ?_) (fun a b => ?_)
  · have := (c26_total_order a a a).1
    cases h : Uuid.compare a a <;> simp_all [uuidLess]
  · simp only [uuidLess, beq_iff_eq] at *
    exact (c26_total_order a b c).2.1 h h'
  · simp only [uuidLess, beq_iff_eq]
    exact (c26_total_order a b a).2.2.1

/-- C206: indices in a map; iteration is in ascending order. -/
theorem c206_index_map : MapWorks indexLess (fun i j => i < j) := by
  have e : ∀ i j, indexLess i j = decide (i < j) := by
    intro i j
    unfold indexLess Index.threeWay
    by_cases h : i < j
    · simp [h]
    · by_cases h' : i = j <;> simp [h, h']
  refine mapWorks_of (fun a b h => by simpa [e] using h) (fun a => ?_) (fun a b c h h' => ?_) (fun a b => ?_)
  · simp [e]
  · simp only [e, decide_eq_true_eq] at *; omega
  · simp only [e, decide_eq_true_eq]; omega

/-- C206: ids in a map, if `<=>` of the value type is a total order for which only equal values are equivalent;
iteration is in the order of the values. -/
theorem c206_id_map {α : Type} [DecidableEq (Id α)] (cmp : α → α → Ordering)
    (hrefl : ∀ x, cmp x x = .eq) (heq : ∀ x y, cmp x y = .eq → x = y)
    (hswap : ∀ x y, cmp x y = .lt ↔ cmp y x = .gt) (htrans : ∀ x y z, cmp x y = .lt → cmp y z = .lt → cmp x z = .lt) :
    MapWorks (idLess cmp) (fun a b => cmp a.value b.value = .lt) :=
  mapWorks_of (fun a b h => ((c57_compare cmp (fun _ _ => true) a.value b.value).2.2.1.1 h)) (fun a => (c57_total cmp hrefl heq hswap htrans a a a).1)
    (fun a b c h h' => (c57_total cmp hrefl heq hswap htrans a b c).2.1 h h')
    (fun a b => (c57_total cmp hrefl heq hswap htrans a b a).2.2.1)

/-- C206: points with coordinates of a totally ordered type, such as the integers, in a map; iteration is in the
lexicographic order of the coordinates. -/
theorem c206_point_map {α : Type} [LinearOrder α] (n : Nat) :
    MapWorks (pointLess (cmpOf (α := α)) n) (fun p q => LexLt p.1 q.1) := by
  have e : ∀ p q : {xs : List α // xs.length = n}, pointLess cmpOf n p q = true ↔ LexLt p.1 q.1 := by
    intro p q
    obtain ⟨b, hb, hl⟩ := (c71_lexicographic p.1 q.1 (p.2.trans q.2.symm)).1
    rw [← hl]
    unfold pointLess
    rw [hb]
    cases b <;> decide
  have ef : ∀ p q : {xs : List α // xs.length = n}, ¬ LexLt p.1 q.1 → pointLess cmpOf n p q = false := by
    intro p q h
    by_contra h'
    exact h ((e p q).1 (by simpa using h'))
  obtain ⟨t1, t2, t3⟩ := c71_total_order (α := α)
  refine mapWorks_of (fun a b h => (e a b).1 h) (fun a => ef a a (t1 _)) (fun a b c h h' => ?_) (fun a b => ?_)
  · rw [e] at *; exact t2 _ _ _ h h'
  · rw [e, e]
    rcases t3 a.1 b.1 (a.2.trans b.2.symm) with h | h | h
    · exact .inl h
    · exact .inr (.inl (Subtype.ext h))
    · exact .inr (.inr h)

/-- C206: points with integer coordinates in a map; iteration is in the lexicographic order of the coordinates. -/
theorem c206_int_map (n : Nat) : MapWorks (pointLess Geometry.cmpInt n) (fun p q => LexLt p.1 q.1) := by
  have e : Geometry.cmpInt = cmpOf := by
    funext x y
    unfold Geometry.cmpInt cmpOf
    rcases lt_trichotomy x y with hlt | rfl | hgt
    · rw [compare_lt_iff_lt.2 hlt]
    · rw [compare_eq_iff_eq.2 rfl]
    · rw [compare_gt_iff_gt.2 hgt]
  rw [e]
  exact c206_point_map n

/-! ## Points with floating-point coordinates -/

open Wite.Maths Wite.Geometry

variable {F : Fmt}

private theorem fltLess (n : Nat) (p q : {xs : List (Flt F) // xs.length = n}) :
    pointLess cmpFlt n p q = true ↔ FltLexLt p.1 q.1 := by
  obtain ⟨b, hb, hl⟩ := (c110_operators p.1 q.1 (p.2.trans q.2.symm)).1
  rw [← hl]
  unfold pointLess
  rw [hb]
  cases b <;> simp

private theorem fltLess_false (n : Nat) (p q : {xs : List (Flt F) // xs.length = n}) :
    pointLess cmpFlt n p q = false ↔ ¬ FltLexLt p.1 q.1 := by
  rw [← fltLess n p q]; simp

private theorem fltEq {x y : Flt F} : (x == y) = true ↔ ¬ x.isNaN ∧ ¬ y.isNaN ∧ x.key = y.key := by
  show decide _ = true ↔ _
  simp only [decide_eq_true_eq]

private theorem dictionary_congr {P : κ → Prop} {same same' : κ → κ → Bool} (hs : ∀ a b, P a → P b → same a b = same' a b) :
    ∀ (cs : List (Call κ ν)) (f f' : κ → Option (κ × ν)), (∀ q, P q → f q = f' q) → (∀ c ∈ cs, P (keyOf c)) →
      dictionary same f cs = dictionary same' f' cs := by
  intro cs
  induction cs with
  | nil => intro f f' _ _; rfl
  | cons c cs ih =>
    intro f f' hf hc
    have hcs : ∀ c ∈ cs, P (keyOf c) := fun c h => hc c (by simp [h])
    cases c with
    | insert k v =>
      have hk : P k := hc (.insert k v) (by simp)
      simp only [dictionary, hf k hk]
      cases f' k with
      | some e => simp only [ih f f' hf hcs]
      | none =>
        simp only
        rw [ih _ (fun q => if same' q k then some (k, v) else f' q) (fun q hq => by simp only [hs q k hq hk, hf q hq]) hcs]
    | find k =>
      have hk : P k := hc (.find k) (by simp)
      simp only [dictionary, hf k hk, ih f f' hf hcs]
    | erase k =>
      have hk : P k := hc (.erase k) (by simp)
      simp only [dictionary, hf k hk]
      cases f' k with
      | none => simp only [ih f f' hf hcs]
      | some e =>
        simp only
        rw [ih _ (fun q => if same' q k then none else f' q) (fun q hq => by simp only [hs q k hq hk, hf q hq]) hcs]

/-- C206: points with floating-point coordinates in a map, as long as no coordinate of a key is NaN: the calls return what they should,
keys being the same if all their coordinates are `==`, and iteration is in the lexicographic order of the coordinates. -/
theorem c206_float_map_partial (n : Nat) (cs : List (Call {xs : List (Flt F) // xs.length = n} ν))
    (hc : ∀ c ∈ cs, ∀ x ∈ (keyOf c).1, ¬ x.isNaN)
    (same : {xs : List (Flt F) // xs.length = n} → {xs : List (Flt F) // xs.length = n} → Bool)
    (hsame : ∀ p q, same p q = true ↔ FltAllEq p.1 q.1) :
    (∃ rs t, Runs (MapStep (pointLess cmpFlt n)) STree.leaf cs rs t) ∧
    ∀ rs t, Runs (MapStep (pointLess cmpFlt n)) STree.leaf cs rs t →
      rs = dictionary same (fun _ => none) cs ∧ t.entries.Pairwise (fun a b => FltLexLt a.1.1 b.1.1) := by
  let P : {xs : List (Flt F) // xs.length = n} → Prop := fun p => ∀ x ∈ p.1, ¬ x.isNaN
  have hn : ∀ p q, P p → P q → (neither (pointLess cmpFlt n) p q = true ↔ FltAllEq p.1 q.1) := by
    intro p q hp hq
    have hlen := p.2.trans q.2.symm
    simp only [neither, Bool.and_eq_true, Bool.not_eq_true', fltLess_false]
    constructor
    · rintro ⟨h1, h2⟩
      rcases c110_total p.1 q.1 hlen hp hq with h | h | h
      · exact absurd h h1
      · exact h
      · exact absurd h h2
    · intro h
      refine ⟨?_, ?_⟩ <;> rintro ⟨i, a1, a2, a3, -⟩
      · exact absurd (fltEq.1 (h i a1 a2)).2.2 (a3.2.2).ne
      · exact absurd (fltEq.1 (h i a2 a1)).2.2 (a3.2.2).ne'
  have H : StrictWeakOn P (pointLess (cmpFlt (F := F)) n) := by
    refine ⟨fun a _ => (fltLess_false n a a).2 (c110_partial_order a.1 a.1 a.1).1, fun a b c _ _ _ h h' => ?_,
      fun a b c ha hb hc h h' => ?_⟩
    · rw [fltLess] at *
      exact (c110_partial_order a.1 b.1 c.1).2.1 h h'
    · rw [hn a b ha hb] at h
      rw [hn b c hb hc] at h'
      rw [hn a c ha hc]
      intro i h1 h2
      have e1 := fltEq.1 (h i h1 (by rw [b.2, ← a.2]; exact h1))
      have e2 := fltEq.1 (h' i (by rw [b.2, ← a.2]; exact h1) h2)
      exact fltEq.2 ⟨e1.1, e2.2.1, e1.2.2.trans e2.2.2⟩
  obtain ⟨h1, h2⟩ := c206_map_partial H cs hc
  refine ⟨h1, fun rs t h => ?_⟩
  obtain ⟨h3, h4⟩ := h2 rs t h
  refine ⟨h3.trans (dictionary_congr (P := P) (fun a b ha hb => ?_) cs _ _ (fun _ _ => rfl) hc), h4.imp (fltLess n _ _).1⟩
  rw [Bool.eq_iff_iff, hn a b ha hb, hsame]

private theorem nan_less {n : Nat} {p : {xs : List (Flt F) // xs.length = n}} {x : Flt F} {xs : List (Flt F)} (hp : p.1 = x :: xs)
    (hx : x.isNaN) (q : {xs : List (Flt F) // xs.length = n}) : pointLess cmpFlt n p q = false ∧ pointLess cmpFlt n q p = false := by
  have hpl : 0 < p.1.length := by rw [hp]; simp
  have hql : 0 < q.1.length := by rw [q.2, ← p.2]; exact hpl
  have h0 : p.1[0].isNaN := by simp only [hp, List.getElem_cons_zero]; exact hx
  have := c110_nan p.1 q.1 0 hpl hql (by simp) (.inl h0)
  exact ⟨(fltLess_false ..).2 this.1, (fltLess_false ..).2 this.2.1⟩

private theorem lb_first {less : κ → κ → Bool} {k : κ} (hk : ∀ x, less x k = false) : ∀ (t : STree κ ν) (b : Option (κ × ν)),
    t.lowerBound less k b = t.entries.head?.or b := by
  intro t
  induction t with
  | leaf => intro b; rfl
  | node l x v r ihl _ =>
    intro b
    simp only [STree.lowerBound, hk, Bool.false_eq_true, if_false, ihl, STree.entries, List.head?_append, List.head?_cons]
    cases l.entries.head? <;> rfl

private theorem insert_refused {less : κ → κ → Bool} {k : κ} {v : ν} (hk : ∀ x, less x k = false ∧ less k x = false) :
    ∀ (t : STree κ ν) (b : Option κ), (t.entries ≠ [] ∨ b ≠ none) → t.insert less k v b = none := by
  intro t
  induction t with
  | leaf =>
    intro b h
    cases b with
    | none => simp [STree.entries] at h
    | some y => simp [STree.insert, (hk y).1]
  | node l x w r _ ihr =>
    intro b _
    simp only [STree.insert, (hk x).2, Bool.false_eq_true, if_false, ihr (some x) (.inr (by simp)), Option.map_none]

/-- C206 is false for points with NaN coordinates: in a map with any entries in it, a point whose first coordinate is NaN is never
inserted, looking it up finds the first entry of the map, and erasing it erases that. -/
theorem c206_refuted_nan {n : Nat} (t : STree {xs : List (Flt F) // xs.length = n} ν) (e : {xs : List (Flt F) // xs.length = n} × ν)
    (es : List ({xs : List (Flt F) // xs.length = n} × ν)) (ht : t.entries = e :: es)
    (p : {xs : List (Flt F) // xs.length = n}) (x : Flt F) (xs : List (Flt F)) (hp : p.1 = x :: xs) (hx : x.isNaN) :
    (∀ v r t', MapStep (pointLess cmpFlt n) t (.insert p v) r t' → r = .done false ∧ t' = t) ∧
    (∀ r t', MapStep (pointLess cmpFlt n) t (.find p) r t' → r = .found (some e) ∧ t' = t) ∧
    (∀ r t', MapStep (pointLess cmpFlt n) t (.erase p) r t' → r = .done true ∧ t'.entries.Perm es) := by
  have hl := nan_less hp hx
  have hfind : t.find (pointLess cmpFlt n) p = some e := by
    unfold STree.find
    rw [lb_first (fun q => (hl q).2), ht]
    simp [(hl e.1).1]
  refine ⟨fun v r t' h => ?_, fun r t' h => ?_, fun r t' h => ?_⟩
  · have hins : t.insert (pointLess cmpFlt n) p v none = none :=
      insert_refused (fun q => ⟨(hl q).2, (hl q).1⟩) t none (.inl (by simp [ht]))
    cases h with
    | inserted h1 _ => rw [hins] at h1; cases h1
    | present _ => exact ⟨rfl, rfl⟩
  · cases h with
    | find => exact ⟨by rw [hfind], rfl⟩
  · cases h with
    | absent h1 => rw [hfind] at h1; cases h1
    | erased h1 h2 h3 =>
      rename_i e' l r
      rw [hfind] at h1
      cases h1
      refine ⟨rfl, ?_⟩
      rw [h3]
      have : (e :: (l ++ r)).Perm (e :: es) := by rw [← ht, h2]; exact List.perm_middle.symm
      exact this.cons_inv

/-- C206 is false for points with NaN coordinates: as long as the only key of a map has a NaN as its first coordinate, no other point is
inserted, and every point is found: it is that entry. -/
theorem c206_refuted_nan_first {n : Nat} (p q : {xs : List (Flt F) // xs.length = n}) (x : Flt F) (xs : List (Flt F))
    (hp : p.1 = x :: xs) (hx : x.isNaN) (v w : ν) (rs : List (Reply {xs : List (Flt F) // xs.length = n} ν))
    (t : STree {xs : List (Flt F) // xs.length = n} ν)
    (h : Runs (MapStep (pointLess cmpFlt n)) STree.leaf [.insert p v, .insert q w, .find q] rs t) :
    rs = [.done true, .done false, .found (some (p, v))] := by
  have hl := nan_less hp hx
  cases h with
  | @cons _ t1 _ _ _ _ rs' h1 h' =>
    cases h1 with
    | present h1 => simp [STree.insert] at h1
    | inserted h1 h2 =>
      simp only [STree.insert, Option.some.injEq] at h1
      subst h1
      have ht : t1.entries = [(p, v)] := h2
      have hs : t1 = .node .leaf p v .leaf := by
        cases t1 with
        | leaf => cases ht
        | node l k u r =>
          simp only [STree.entries] at ht
          have hlen := congrArg List.length ht
          simp only [List.length_append, List.length_cons, List.length_nil] at hlen
          have h1 : l.entries = [] := List.eq_nil_of_length_eq_zero (by omega)
          have h2 : r.entries = [] := List.eq_nil_of_length_eq_zero (by omega)
          have hleaf : ∀ t : STree {xs : List (Flt F) // xs.length = n} ν, t.entries = [] → t = .leaf := by
            intro t ht
            cases t with
            | leaf => rfl
            | node => simp [STree.entries] at ht
          rw [h1, h2] at ht
          simp only [List.nil_append, List.cons.injEq, Prod.mk.injEq, and_true] at ht
          rw [hleaf l h1, hleaf r h2, ht.1, ht.2]
      subst hs
      have hi : (STree.node .leaf p v .leaf).insert (pointLess cmpFlt n) q w none = none := by
        simp [STree.insert, (hl q).1, (hl q).2]
      cases h' with
      | cons h3 h'' =>
        cases h3 with
        | inserted h3 _ => rw [hi] at h3; cases h3
        | present _ =>
          cases h'' with
          | cons h4 h5 =>
            cases h4 with
            | find =>
              cases h5 with
              | nil => simp [STree.find, STree.lowerBound, (hl q).1, (hl q).2]

/-! ## Unordered maps -/

section Unordered

variable {hash : κ → Nat} {eq : κ → κ → Bool}

/-- What the standard requires of `==` and the hash: `==` is an equivalence, and keys that are `==` have the same hash. -/
structure HashLaws (hash : κ → Nat) (eq : κ → κ → Bool) : Prop where
  refl : ∀ a, eq a a = true
  symm : ∀ a b, eq a b = true → eq b a = true
  trans : ∀ a b c, eq a b = true → eq b c = true → eq a c = true
  hash : ∀ a b, eq a b = true → hash a = hash b

private theorem bucket_mem {t : Table κ ν} (hp : t.Placed hash) (k : κ) (e : κ × ν) :
    e ∈ t.bucket hash k ↔ e ∈ t.flatten ∧ hash e.1 % t.length = hash k % t.length := by
  obtain ⟨h0, h1⟩ := hp
  have hlt : hash k % t.length < t.length := Nat.mod_lt _ h0
  unfold Table.bucket
  rw [List.getElem?_eq_getElem hlt]
  simp only [Option.elim_some, List.mem_flatten]
  constructor
  · intro h
    exact ⟨⟨_, List.getElem_mem hlt, h⟩, h1 _ _ (List.getElem?_eq_getElem hlt) e h⟩
  · rintro ⟨⟨b, hb, he⟩, hm⟩
    obtain ⟨i, hi, rfl⟩ := List.getElem_of_mem hb
    have := h1 i _ (List.getElem?_eq_getElem hi) e he
    have hi' : i = hash k % t.length := by rw [← this, hm]
    subst hi'
    exact he

/-- The entries of a table: no two with the same key. -/
private def Distinct (eq : κ → κ → Bool) (L : List (κ × ν)) : Prop := L.Pairwise (fun a b => eq a.1 b.1 = false)

/-- What is in the table, by key. -/
private def HoldsT (eq : κ → κ → Bool) (L : List (κ × ν)) (f : κ → Option (κ × ν)) : Prop :=
  ∀ q e, f q = some e ↔ e ∈ L ∧ eq q e.1 = true

private theorem distinct_unique (H : HashLaws hash eq) {L : List (κ × ν)} (hd : Distinct eq L) {a b : κ × ν} (ha : a ∈ L) (hb : b ∈ L)
    (h : eq a.1 b.1 = true) : a = b := by
  induction L with
  | nil => cases ha
  | cons x L ih =>
    unfold Distinct at hd
    rw [List.pairwise_cons] at hd
    rw [List.mem_cons] at ha hb
    rcases ha with rfl | ha <;> rcases hb with rfl | hb
    · rfl
    · rw [hd.1 b hb] at h; cases h
    · have := H.symm _ _ h
      rw [hd.1 a ha] at this; cases this
    · exact ih hd.2 ha hb

private theorem tfind_eq (H : HashLaws hash eq) {t : Table κ ν} (hp : t.Placed hash) (hd : Distinct eq t.flatten)
    {f : κ → Option (κ × ν)} (hf : HoldsT eq t.flatten f) (k : κ) : t.find hash eq k = f k := by
  have hsome : ∀ e, t.find hash eq k = some e ↔ f k = some e := by
    intro e
    rw [hf k e]
    constructor
    · intro h
      exact ⟨((bucket_mem hp k e).1 (List.mem_of_find?_eq_some h)).1, by simpa using List.find?_some h⟩
    · rintro ⟨h1, h2⟩
      have hm : e ∈ t.bucket hash k := (bucket_mem hp k e).2 ⟨h1, by rw [H.hash _ _ h2]⟩
      cases h : t.find hash eq k with
      | none =>
        unfold Table.find at h
        rw [List.find?_eq_none] at h
        exact absurd h2 (h e hm)
      | some e' =>
        have hm' := ((bucket_mem hp k e').1 (List.mem_of_find?_eq_some h)).1
        have h2' : eq k e'.1 = true := by simpa using List.find?_some h
        rw [distinct_unique H hd hm' h1 (H.trans _ _ _ (H.symm _ _ h2') h2)]
  cases h : t.find hash eq k with
  | some e => exact ((hsome e).1 h).symm
  | none =>
    cases h' : f k with
    | none => rfl
    | some e => rw [(hsome e).2 h'] at h; cases h

private theorem distinct_perm (H : HashLaws hash eq) {L L' : List (κ × ν)} (h : L.Perm L') (hd : Distinct eq L') : Distinct eq L :=
  (h.pairwise_iff (fun {a b} hab => by
    by_contra h'
    have := H.symm _ _ (by simpa using h' : eq b.1 a.1 = true)
    rw [hab] at this; cases this)).2 hd

private theorem hash_step (H : HashLaws hash eq) {t t' : Table κ ν} {c : Call κ ν} {r : Reply κ ν} {f : κ → Option (κ × ν)}
    (hp : t.Placed hash) (hd : Distinct eq t.flatten) (hf : HoldsT eq t.flatten f) (h : HashStep hash eq t c r t') :
    ∃ f', t'.Placed hash ∧ Distinct eq t'.flatten ∧ HoldsT eq t'.flatten f' ∧
      ∀ cs : List (Call κ ν), dictionary eq f (c :: cs) = r :: dictionary eq f' cs := by
  cases h with
  | inserted h1 h2 h3 =>
    rename_i k v
    rw [tfind_eq H hp hd hf] at h1
    have hno : ∀ e ∈ t.flatten, eq k e.1 = false := by
      intro e he
      by_contra h'
      rw [(hf k e).2 ⟨he, by simpa using h'⟩] at h1; cases h1
    refine ⟨fun q => if eq q k then some (k, v) else f q, h2, distinct_perm H h3 (List.pairwise_cons.2 ⟨hno, hd⟩), ?_, ?_⟩
    · intro q e
      rw [h3.mem_iff, List.mem_cons]
      by_cases hq : eq q k = true
      · simp only [hq, if_true, Option.some.injEq]
        constructor
        · rintro rfl; exact ⟨.inl rfl, hq⟩
        · rintro ⟨rfl | he, h5⟩
          · rfl
          · have := H.trans _ _ _ (H.symm _ _ hq) h5
            rw [hno e he] at this; cases this
      · show (if eq q k = true then some (k, v) else f q) = some e ↔ _
        rw [if_neg hq, hf q e]
        constructor
        · rintro ⟨a, b⟩; exact ⟨.inr a, b⟩
        · rintro ⟨rfl | he, h5⟩
          · exact absurd h5 hq
          · exact ⟨he, h5⟩
    · intro cs; simp [dictionary, h1]
  | present h1 =>
    rename_i k v e
    rw [tfind_eq H hp hd hf] at h1
    exact ⟨f, hp, hd, hf, fun cs => by simp [dictionary, h1]⟩
  | find =>
    rename_i k
    exact ⟨f, hp, hd, hf, fun cs => by simp [dictionary, tfind_eq H hp hd hf]⟩
  | erased h1 h2 h3 =>
    rename_i k e
    rw [tfind_eq H hp hd hf] at h1
    have hke : eq k e.1 = true := ((hf k e).1 h1).2
    have hd' : Distinct eq (e :: t'.flatten) := distinct_perm H h3.symm hd
    unfold Distinct at hd'
    rw [List.pairwise_cons] at hd'
    refine ⟨fun q => if eq q k then none else f q, h2, hd'.2, ?_, ?_⟩
    · intro q x
      by_cases hq : eq q k = true
      · simp only [hq, if_true]
        refine ⟨fun h => (by cases h), ?_⟩
        rintro ⟨hx, h5⟩
        have := H.trans _ _ _ (H.symm _ _ (H.trans _ _ _ hq hke)) h5
        rw [hd'.1 x hx] at this; cases this
      · show (if eq q k = true then none else f q) = some x ↔ _
        rw [if_neg hq, hf q x, h3.mem_iff, List.mem_cons]
        constructor
        · rintro ⟨rfl | hx, h5⟩
          · exact absurd (H.trans _ _ _ h5 (H.symm _ _ hke)) hq
          · exact ⟨hx, h5⟩
        · rintro ⟨hx, h5⟩; exact ⟨.inr hx, h5⟩
    · intro cs; simp [dictionary, h1]
  | absent h1 =>
    rename_i k
    rw [tfind_eq H hp hd hf] at h1
    exact ⟨f, hp, hd, hf, fun cs => by simp [dictionary, h1]⟩

private theorem runs_hash (H : HashLaws hash eq) {t t' : Table κ ν} {cs : List (Call κ ν)} {rs : List (Reply κ ν)}
    (h : Runs (HashStep hash eq) t cs rs t') : ∀ f : κ → Option (κ × ν), t.Placed hash → Distinct eq t.flatten →
    HoldsT eq t.flatten f → rs = dictionary eq f cs := by
  induction h with
  | nil => intro f _ _ _; rfl
  | cons hs _ ih =>
    intro f hp hd hf
    obtain ⟨f', hp', hd', hf', he⟩ := hash_step H hp hd hf hs
    rw [he, ← ih f' hp' hd' hf']

/-- One bucket for everything: a table there always is. -/
private theorem placed_one (L : List (κ × ν)) : Table.Placed hash [L] := by
  refine ⟨by simp, fun i b h e _ => ?_⟩
  cases i with
  | zero => simp [Nat.mod_one]
  | succ i => simp at h

private theorem hash_total (t : Table κ ν) (hp : t.Placed hash) (cs : List (Call κ ν)) : ∃ rs t', Runs (HashStep hash eq) t cs rs t' := by
  induction cs generalizing t with
  | nil => exact ⟨[], t, .nil⟩
  | cons c cs ih =>
    have : ∃ r t', t'.Placed hash ∧ HashStep hash eq t c r t' := by
      cases c with
      | insert k v =>
        cases h : t.find hash eq k with
        | none => exact ⟨_, [(k, v) :: t.flatten], placed_one _, .inserted h (placed_one _) (by simp)⟩
        | some e => exact ⟨_, _, hp, .present h⟩
      | find k => exact ⟨_, _, hp, .find⟩
      | erase k =>
        cases h : t.find hash eq k with
        | none => exact ⟨_, _, hp, .absent h⟩
        | some e =>
          have hm := ((bucket_mem hp k e).1 (List.mem_of_find?_eq_some h)).1
          obtain ⟨l, r, hlr⟩ := List.append_of_mem hm
          exact ⟨_, [l ++ r], placed_one _, .erased h (placed_one _) (by rw [hlr]; simp [List.perm_middle])⟩
    obtain ⟨r, t', hp', h⟩ := this
    obtain ⟨rs, t'', h'⟩ := ih t' hp'
    exact ⟨r :: rs, t'', .cons h h'⟩

/-- C206, unordered maps: if `==` is an equivalence and keys that are `==` have the same hash, then whatever is called on an empty table, with
however many buckets and whether it rehashes or not, the calls return what they should. -/
theorem c206_unordered_partial (H : HashLaws hash eq) (t : Table κ ν) (hp : t.Placed hash) (h0 : t.flatten = []) (cs : List (Call κ ν)) :
    (∃ rs t', Runs (HashStep hash eq) t cs rs t') ∧
    ∀ rs t', Runs (HashStep hash eq) t cs rs t' → rs = dictionary eq (fun _ => none) cs :=
  ⟨hash_total t hp cs, fun rs t' h => runs_hash H h _ hp (by rw [h0]; exact List.Pairwise.nil) (by rw [h0]; simp [HoldsT])⟩

end Unordered

/-- C206: UUIDs in an unordered map, whatever the endianness of the host and `std::hash<uint64_t>`. -/
theorem c206_uuid_unordered (host : Io.Endian) (h : Nat → Nat) (t : Table (List Nat) ν) (hp : t.Placed (Uuid.hash host h))
    (h0 : t.flatten = []) (cs : List (Call (List Nat) ν)) :
    (∃ rs t', Runs (HashStep (Uuid.hash host h) uuidEq) t cs rs t') ∧
    ∀ rs t', Runs (HashStep (Uuid.hash host h) uuidEq) t cs rs t' →
      rs = dictionary (fun a b => decide (a = b)) (fun _ => none) cs := by
  have e : uuidEq = fun a b => decide (a = b) := by
    funext a b
    rw [Bool.eq_iff_iff]
    simp [uuidEq]
  rw [e]
  refine c206_unordered_partial ⟨fun a => by simp, fun a b h => ?_, fun a b c h h' => ?_, fun a b h => ?_⟩ t hp h0 cs
  · simp only [decide_eq_true_eq] at *; exact h.symm
  · simp only [decide_eq_true_eq] at *; exact h.trans h'
  · simp only [decide_eq_true_eq] at h; rw [h]

/-! ## Which types can be keys at all -/

/-- C206: of the library's types exactly UUIDs, indices and points can be keys of a map whatever they are made of, and ids of values with
`<=>`. -/
theorem c206_types_map (t : KeyType) (ht : ∀ w l e h, t ≠ .plain w l e h) :
    t.inMap = true ↔ t = .uuid ∨ t = .basicUuid ∨ t = .index ∨ t = .point ∨ ∃ u, t = .ident u ∧ u.hasThreeWay = true := by
  cases t with
  | plain w l e h => exact absurd rfl (ht w l e h)
  | _ => simp [KeyType.inMap, KeyType.hasLess, KeyType.hasThreeWay]

/-- C206 is false for ids of values that have `<` and `==` but not `<=>`: the values can be keys of a map, the ids cannot. -/
theorem c206_refuted_ids (e h : Bool) :
    (KeyType.plain false true e h).inMap = true ∧ (KeyType.ident (.plain false true e h)).inMap = false := ⟨rfl, rfl⟩

/-- C206 is false for ranges, vectors and fragment strings: whatever they are of, they can be keys of neither container, nor can ids of
them. -/
theorem c206_refuted_ranges (u : KeyType) :
    ∀ t ∈ [KeyType.range u, .vector u, .fragmentString, .ident (.range u), .ident (.vector u), .ident .fragmentString],
      t.inMap = false ∧ t.inUnordered = false := by
  intro t ht
  simp only [List.mem_cons, List.not_mem_nil, or_false] at ht
  rcases ht with rfl | rfl | rfl | rfl | rfl | rfl <;> exact ⟨rfl, rfl⟩

/-- C206 is false for unordered containers: of the library's types only UUIDs can be keys of one; ids cannot, not even of values that
can. -/
theorem c206_refuted_hash (t : KeyType) (ht : ∀ w l e h, t ≠ .plain w l e h) :
    t.inUnordered = true ↔ t = .uuid ∨ t = .basicUuid := by
  cases t with
  | plain w l e h => exact absurd rfl (ht w l e h)
  | _ => simp [KeyType.inUnordered, KeyType.hasHash, KeyType.hasEqual]

/-! ## Examples -/

private def exCalls : List (Call (List Nat) Nat) :=
  [.insert [2, 1] 7, .insert [1, 9] 8, .insert [2, 1] 9, .find [2, 1], .erase [1, 9], .find [1, 9], .erase [1, 9]]

example : dictionary (fun a b => decide (a = b)) (fun _ => none) exCalls =
    [.done true, .done true, .done false, .found (some ([2, 1], 7)), .done true, .found none, .done false] := by decide

/-- The calls on a map of UUIDs return just that. -/
example : ∃ t, Runs (MapStep uuidLess) STree.leaf exCalls
    [.done true, .done true, .done false, .found (some ([2, 1], 7)), .done true, .found none, .done false] t := by
  obtain ⟨⟨rs, t, h⟩, h'⟩ := c206_uuid_map Nat exCalls
  have := (h' rs t h).1
  exact ⟨t, by rw [this] at h; exact h⟩

example : KeyType.inMap (.ident .uuid) = true ∧ KeyType.inUnordered (.ident .uuid) = false ∧ KeyType.inUnordered .uuid = true ∧
    KeyType.inMap .point = true ∧ KeyType.inUnordered .point = false := by decide

example : (⟨[Flt.qNaN .double, ⟨false, 0⟩], rfl⟩ : {xs : List (Flt .double) // xs.length = 2}).1 = Flt.qNaN .double :: [⟨false, 0⟩] ∧
    (Flt.qNaN .double).isNaN := ⟨rfl, by decide⟩

example : Table.Placed (ν := Nat) (Uuid.hash .little id) [[], [], []] := by
  refine ⟨by simp, fun i b h e he => ?_⟩
  rcases i with _ | _ | _ | i <;> simp at h <;> subst h <;> cases he

end Wite.Props
