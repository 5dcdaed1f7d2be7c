import Verif.Model.LookupText
import Mathlib.Data.List.Nodup
import Mathlib.Tactic.Common

/-!
# C209: lookups with text

Full claim: a `static_lookup` whose keys or values are text finds by text, whichever of the usual forms of text
(C string, string view, string) it is made of and asked with: a mapping is found by any text with the same
characters as the one it was made with, and by no other.
-/

namespace Wite.Props

open Wite.LookupText

/-! ## Specification -/

/-- The text an argument is in a memory: what a reader of it would see; `none` if it cannot be read. -/
def textNow (m : Mem) : Arg → Option (List Nat)
  | .pointer a => match cString m a with
    | .ok cs => some cs
    | _ => none
  | .view a n => match charsAt m a n with
    | .ok cs => some cs
    | _ => none
  | .string a n => match charsAt m a n with
    | .ok cs => some cs
    | _ => none

/-- The first of the mappings with a text. -/
def firstWith {ρ : Type} (text : List Nat) : List (List Nat × ρ) → Outcome ρ
  | [] => .throw (.outOfRange "Invalid item")
  | p :: ps => if p.1 = text then .ok p.2 else firstWith text ps

/-! ## Lemmas -/

private theorem untilNul_chars : ∀ (m : Mem) (cs : List Nat), untilNul m = .ok cs →
    ∃ rest, m = cs.map some ++ some 0 :: rest ∧ ∀ c ∈ cs, c ≠ 0
  | [], cs, h => by simp [untilNul] at h
  | none :: m, cs, h => by simp [untilNul] at h
  | some c :: m, cs, h => by
    rw [untilNul] at h
    by_cases hc : c = 0
    · rw [if_pos hc] at h
      cases h
      exact ⟨m, by simp [hc], by simp⟩
    · rw [if_neg hc] at h
      cases hm : untilNul m with
      | ok ds =>
        rw [hm] at h
        have : c :: ds = cs := by simpa using h
        subst this
        obtain ⟨rest, h1, h2⟩ := untilNul_chars m ds hm
        refine ⟨rest, by rw [h1]; rfl, ?_⟩
        intro x hx
        rcases List.mem_cons.1 hx with rfl | hx
        · exact hc
        · exact h2 x hx
      | throw e => rw [hm] at h; simp at h
      | ub => rw [hm] at h; simp at h
      | terminate => rw [hm] at h; simp at h
      | diverge => rw [hm] at h; simp at h

private theorem charsAt_of_drop : ∀ (cs : List Nat) (m : Mem) (a : Nat) (rest : Mem),
    m.drop a = cs.map some ++ rest → charsAt m a cs.length = .ok cs
  | [], m, a, rest, _ => rfl
  | c :: cs, m, a, rest, h => by
    have h0 : m[a]? = some (some c) := by
      have := congrArg (fun l => l[0]?) h
      simpa [List.getElem?_drop] using this
    have h1 : m.drop (a + 1) = cs.map some ++ rest := by
      have := congrArg (List.drop 1) h
      simpa [List.drop_drop, Nat.add_comm] using this
    rw [List.length_cons, charsAt, h0]
    simp only
    rw [charsAt_of_drop cs m (a + 1) rest h1]
    rfl

private theorem charsAt_length : ∀ (n : Nat) (m : Mem) (a : Nat) (cs : List Nat),
    charsAt m a n = .ok cs → cs.length = n
  | 0, m, a, cs, h => by cases h; rfl
  | n + 1, m, a, cs, h => by
    rw [charsAt] at h
    split at h
    · rename_i c _
      cases hr : charsAt m (a + 1) n with
      | ok ds =>
        rw [hr] at h
        have : c :: ds = cs := by simpa using h
        subst this
        simp [charsAt_length n m (a + 1) ds hr]
      | throw e => rw [hr] at h; simp at h
      | ub => rw [hr] at h; simp at h
      | terminate => rw [hr] at h; simp at h
      | diverge => rw [hr] at h; simp at h
    · simp at h

private theorem charsAt_cString {m : Mem} {a : Nat} {cs : List Nat} (h : cString m a = .ok cs) :
    charsAt m a cs.length = .ok cs := by
  obtain ⟨rest, h1, _⟩ := untilNul_chars _ _ h
  exact charsAt_of_drop cs m a _ h1

private theorem text_pointer {m : Mem} {a : Nat} {cs : List Nat} (h : textNow m (.pointer a) = some cs) :
    cString m a = .ok cs := by
  rw [textNow] at h
  split at h
  · cases h; assumption
  · simp at h

private theorem text_view {m : Mem} {a n : Nat} {cs : List Nat} (h : textNow m (.view a n) = some cs) :
    charsAt m a n = .ok cs := by
  rw [textNow] at h
  split at h
  · cases h; assumption
  · simp at h

private theorem text_string {m : Mem} {a n : Nat} {cs : List Nat} (h : textNow m (.string a n) = some cs) :
    charsAt m a n = .ok cs := text_view h

/-- A readable argument becomes a view of its text. -/
private theorem convert_view {m : Mem} {arg : Arg} {cs : List Nat} (h : textNow m arg = some cs) :
    ∃ a, convert m .view arg = some (.ok (.view a cs.length)) ∧ charsAt m a cs.length = .ok cs := by
  cases arg with
  | pointer a =>
    have := text_pointer h
    exact ⟨a, by simp [convert, this], charsAt_cString this⟩
  | view a n =>
    have := text_view h
    have hl := charsAt_length _ _ _ _ this
    exact ⟨a, by simp [convert, hl], by rw [hl]; exact this⟩
  | string a n =>
    have := text_string h
    have hl := charsAt_length _ _ _ _ this
    exact ⟨a, by simp [convert, hl], by rw [hl]; exact this⟩

/-- A readable argument that is no view becomes a string with its text. -/
private theorem convert_string {m : Mem} {arg : Arg} {cs : List Nat} (h : textNow m arg = some cs)
    (hk : arg.kind ≠ .view) : convert m .string arg = some (.ok (.string cs)) := by
  cases arg with
  | pointer a => simp [convert, text_pointer h]
  | view a n => exact absurd rfl hk
  | string a n => simp [convert, text_string h]

private theorem store_string (m : Mem) (arg : Arg) : store m .string arg = convert m .string arg := by
  cases arg <;> rfl

private theorem store_view (m : Mem) {arg : Arg} (h : arg.kind ≠ .string) :
    store m .view arg = convert m .view arg := by
  cases arg with
  | string a n => exact absurd rfl h
  | pointer a => rfl
  | view a n => rfl

private theorem find_strings {ρ : Type} (m : Mem) (cs : List Nat) : ∀ (ps : List (List Nat × ρ)),
    find m (.string cs) (ps.map fun p => (Cell.string p.1, p.2)) = firstWith cs ps
  | [] => rfl
  | p :: ps => by
    rw [List.map_cons, find, firstWith, find_strings m cs ps]
    simp only [same, Outcome.bind_ok, beq_iff_eq]
    rfl

private theorem init_strings {ρ : Type} (m : Mem) : ∀ (args : List (Arg × ρ)) (texts : List (List Nat)),
    args.map (fun p => textNow m p.1) = texts.map some → (∀ p ∈ args, p.1.kind ≠ .view) →
    initItems m .string args =
      some (.ok ((texts.zip (args.map Prod.snd)).map fun p => (Cell.string p.1, p.2)))
  | [], [], _, _ => rfl
  | [], _ :: _, h, _ => by simp at h
  | _ :: _, [], h, _ => by simp at h
  | p :: ps, t :: ts, h, hk => by
    simp only [List.map_cons, List.cons.injEq] at h
    rw [initItems, store_string, convert_string h.1 (hk p (by simp)),
      init_strings m ps ts h.2 (fun q hq => hk q (by simp [hq]))]
    rfl

/-- Views of the given texts in a memory. -/
private def ViewsOf (m : Mem) (cells : List Cell) (texts : List (List Nat)) : Prop :=
  List.Forall₂ (fun c t => ∃ a, c = .view a t.length ∧ charsAt m a t.length = .ok t) cells texts

private theorem find_views {ρ : Type} (m : Mem) (x : Nat) (cs : List Nat) (hx : charsAt m x cs.length = .ok cs) :
    ∀ (cells : List Cell) (texts : List (List Nat)) (vs : List ρ), ViewsOf m cells texts →
    find m (.view x cs.length) (cells.zip vs) = firstWith cs (texts.zip vs) := by
  intro cells texts vs h
  induction h generalizing vs with
  | nil => rfl
  | @cons c t cells texts hc _ ih =>
    obtain ⟨a, rfl, ha⟩ := hc
    cases vs with
    | nil => rfl
    | cons v vs =>
      rw [List.zip_cons_cons, List.zip_cons_cons, find, firstWith, same]
      by_cases hl : t.length = cs.length
      · rw [if_pos hl, ha, ← hl]
        rw [← hl] at hx
        simp only [hx, Outcome.bind_ok, Outcome.pure_eq, beq_iff_eq]
        rw [← ih vs, ← hl]
      · have hne : t ≠ cs := fun e => hl (by rw [e])
        rw [if_neg hl, if_neg hne]
        simp only [Outcome.bind_ok, Bool.false_eq_true, if_false]
        exact ih vs

/-- What the views in a lookup refer to. -/
private theorem init_views {ρ : Type} (m m' : Mem) : ∀ (args : List (Arg × ρ)) (texts : List (List Nat)),
    args.map (fun p => textNow m p.1) = texts.map some → args.map (fun p => textNow m' p.1) = texts.map some →
    (∀ p ∈ args, p.1.kind ≠ .string) →
    ∃ cells, ViewsOf m' cells texts ∧ initItems m .view args = some (.ok (cells.zip (args.map Prod.snd)))
  | [], [], _, _, _ => ⟨[], .nil, rfl⟩
  | [], _ :: _, h, _, _ => by simp at h
  | _ :: _, [], h, _, _ => by simp at h
  | p :: ps, t :: ts, h, h', hs => by
    simp only [List.map_cons, List.cons.injEq] at h h'
    obtain ⟨cells, h1, h2⟩ := init_views m m' ps ts h.2 h'.2 (fun q hq => hs q (by simp [hq]))
    obtain ⟨a, ha, _⟩ := convert_view h.1
    obtain ⟨b, hb, hb'⟩ := convert_view h'.1
    have hab : a = b := by
      cases hp : p.1 with
      | pointer x =>
        rw [hp] at ha hb h h'
        simp only [convert, text_pointer h.1, text_pointer h'.1, Outcome.bind_ok, Outcome.pure_eq,
          Option.some.injEq, Outcome.ok.injEq, Cell.view.injEq] at ha hb
        exact ha.1.symm.trans hb.1
      | view x n =>
        rw [hp] at ha hb
        simp only [convert, Option.some.injEq, Outcome.ok.injEq, Cell.view.injEq] at ha hb
        exact ha.1.symm.trans hb.1
      | string x n =>
        rw [hp] at ha hb
        simp only [convert, Option.some.injEq, Outcome.ok.injEq, Cell.view.injEq] at ha hb
        exact ha.1.symm.trans hb.1
    subst hab
    refine ⟨.view a t.length :: cells, .cons ⟨a, rfl, hb'⟩ h1, ?_⟩
    rw [initItems, store_view m (hs p (by simp)), ha, h2]
    rfl

/-! ## What holds -/

/-- **C209, provable part: strings.** A lookup whose first text is a `std::string` finds by text, whatever
happened to the memory its other texts were in since it was made: the first mapping made with the characters
the argument has, and out_of_range if there is none. -/
theorem c209_strings_partial {ρ : Type} (m m' : Mem) (first : Arg × ρ) (others : List (Arg × ρ))
    (texts : List (List Nat)) (arg : Arg) (text : List Nat) (hk : first.1.kind = .string)
    (hforms : ∀ p ∈ others, p.1.kind ≠ .view) (harg : arg.kind ≠ .view)
    (hmade : (first :: others).map (fun p => textNow m p.1) = texts.map some)
    (hasked : textNow m' arg = some text) :
    ∃ t, construct m (first :: others) = some (.ok t) ∧
      lookUp m' t arg = some (firstWith text (texts.zip ((first :: others).map Prod.snd))) := by
  have h := init_strings m (first :: others) texts hmade (by
    intro p hp
    rcases List.mem_cons.1 hp with rfl | hp
    · rw [hk]; simp
    · exact hforms p hp)
  refine ⟨⟨.string, (texts.zip ((first :: others).map Prod.snd)).map fun p => (Cell.string p.1, p.2)⟩, ?_, ?_⟩
  · rw [construct, hk, h]; rfl
  · simp only [lookUp, convert_string hasked harg, Outcome.bind_ok]
    rw [find_strings]

/-- A string and a literal; the memory is gone, the texts are found. -/
example : ((construct [some 97, some 98, some 99, some 0] [(.string 0 2, 1), (.pointer 2, 2)]).map
    fun o => match o with
      | .ok t => (lookUp [some 99, some 0] t (.pointer 0)) == some (.ok 2)
      | _ => false) = some true := by decide +kernel

/-- **C209, provable part: views.** A lookup whose first text is a `std::string_view` and whose others are views
or C strings finds by text, asked with any of the forms, as long as the texts it was made with are still what
they were. -/
theorem c209_views_partial {ρ : Type} (m m' : Mem) (first : Arg × ρ) (others : List (Arg × ρ))
    (texts : List (List Nat)) (arg : Arg) (text : List Nat) (hk : first.1.kind = .view)
    (hforms : ∀ p ∈ others, p.1.kind ≠ .string)
    (hmade : (first :: others).map (fun p => textNow m p.1) = texts.map some)
    (hkept : (first :: others).map (fun p => textNow m' p.1) = texts.map some)
    (hasked : textNow m' arg = some text) :
    ∃ t, construct m (first :: others) = some (.ok t) ∧
      lookUp m' t arg = some (firstWith text (texts.zip ((first :: others).map Prod.snd))) := by
  obtain ⟨cells, h1, h2⟩ := init_views m m' (first :: others) texts hmade hkept (by
    intro p hp
    rcases List.mem_cons.1 hp with rfl | hp
    · rw [hk]; simp
    · exact hforms p hp)
  obtain ⟨x, hx, hx'⟩ := convert_view hasked
  refine ⟨⟨.view, cells.zip ((first :: others).map Prod.snd)⟩, ?_, ?_⟩
  · rw [construct, hk, h2]; rfl
  · simp only [lookUp, hx, Outcome.bind_ok]
    rw [find_views m' x text hx' cells texts _ h1]

/-- Two views, asked with a literal at another address. -/
example : ((construct [some 97, some 98, some 98, some 0] [(.view 0 1, 1), (.view 1 1, 2)]).map
    fun o => match o with
      | .ok t => (lookUp [some 97, some 98, some 98, some 0] t (.pointer 2)) == some (.ok 2)
      | _ => false) = some true := by decide +kernel

/-- **C209, the README's use.** If the texts of a lookup of views (made with views and C strings) differ, the text of each mapping, given in any
form and wherever it is, finds that mapping. -/
theorem c209_readme {ρ : Type} (m m' : Mem) (first : Arg × ρ) (others : List (Arg × ρ))
    (texts : List (List Nat)) (hk : first.1.kind = .view) (hforms : ∀ p ∈ others, p.1.kind ≠ .string)
    (hmade : (first :: others).map (fun p => textNow m p.1) = texts.map some)
    (hkept : (first :: others).map (fun p => textNow m' p.1) = texts.map some) (hdiff : texts.Nodup)
    (i : Nat) (p : Arg × ρ) (hp : (first :: others)[i]? = some p) (arg : Arg)
    (hasked : textNow m' arg = textNow m' p.1) :
    ∃ t, construct m (first :: others) = some (.ok t) ∧ lookUp m' t arg = some (.ok p.2) := by
  have hi : (texts.map some)[i]? = some (textNow m' p.1) := by
    rw [← hkept, List.getElem?_map, hp]; rfl
  rw [List.getElem?_map] at hi
  obtain ⟨text, ht, hte⟩ := Option.map_eq_some_iff.1 hi
  obtain ⟨t, h1, h2⟩ := c209_views_partial m m' first others texts arg text hk hforms hmade hkept
    (by rw [hasked, ← hte])
  refine ⟨t, h1, ?_⟩
  rw [h2]
  have key : ∀ (texts : List (List Nat)) (vs : List ρ) (i : Nat), texts.Nodup → texts[i]? = some text →
      vs[i]? = some p.2 → firstWith text (texts.zip vs) = .ok p.2 := by
    intro texts
    induction texts with
    | nil => intro vs i _ h _; simp at h
    | cons s texts ih =>
      intro vs i hn hi hv
      cases vs with
      | nil => simp at hv
      | cons v vs =>
        rw [List.zip_cons_cons, firstWith]
        cases i with
        | zero =>
          have e1 : s = text := by simpa using hi
          have e2 : v = p.2 := by simpa using hv
          rw [if_pos e1, e2]
        | succ i =>
          have hi' : texts[i]? = some text := by simpa using hi
          have hne : s ≠ text := fun e => (List.nodup_cons.1 hn).1 (e ▸ List.mem_of_getElem? hi')
          rw [if_neg hne]
          exact ih vs i (List.nodup_cons.1 hn).2 hi' (by simpa using hv)
  rw [key texts _ i hdiff ht (by rw [List.getElem?_map, hp]; rfl)]

/-! ## What does not hold -/

/-- **C209: pointers.** A lookup of C strings looks at the addresses only: it finds the first mapping whose
pointer is the argument, whatever the characters are or were. -/
theorem c209_pointers {ρ : Type} (m m' : Mem) (mappings : List (Nat × ρ)) (hne : mappings ≠ []) (a : Nat) :
    ∃ t, construct m (mappings.map fun p => (Arg.pointer p.1, p.2)) = some (.ok t) ∧
      lookUp m' t (.pointer a) = some (match mappings.find? fun p => p.1 == a with
        | some p => .ok p.2
        | none => .throw (.outOfRange "Invalid item")) := by
  have h : ∀ ps : List (Nat × ρ), initItems m .pointer (ps.map fun p => (Arg.pointer p.1, p.2)) =
      some (.ok (ps.map fun p => (Cell.pointer p.1, p.2))) := by
    intro ps
    induction ps with
    | nil => rfl
    | cons p ps ih => rw [List.map_cons, initItems, ih]; rfl
  have hf : ∀ ps : List (Nat × ρ), find m' (.pointer a) (ps.map fun p => (Cell.pointer p.1, p.2)) =
      match ps.find? fun p => p.1 == a with
        | some p => .ok p.2
        | none => .throw (.outOfRange "Invalid item") := by
    intro ps
    induction ps with
    | nil => rfl
    | cons p ps ih =>
      rw [List.map_cons, find, same, List.find?_cons]
      cases hb : p.1 == a with
      | true => simp
      | false => simpa using ih
  cases mappings with
  | nil => exact absurd rfl hne
  | cons p ps =>
    refine ⟨⟨.pointer, (p :: ps).map fun p => (Cell.pointer p.1, p.2)⟩, ?_, ?_⟩
    · have := h (p :: ps)
      rw [List.map_cons] at this ⊢
      rw [construct, Arg.kind, this]
      rfl
    · simp only [lookUp, convert, Outcome.bind_ok]
      rw [hf]

/-- A pointer that is in the lookup. -/
example : ((construct [some 97, some 0] [(.pointer 0, 1)]).map fun o => match o with
      | .ok t => (lookUp [some 98, some 0] t (.pointer 0)) == some (.ok 1)
      | _ => false) = some true := by decide +kernel

/-- **C209, refuted: pointers.** Whatever the text, a lookup of C strings made with it does not find it at
another address. -/
theorem c209_refuted_pointers {ρ : Type} (text : List Nat) (hnul : ∀ c ∈ text, c ≠ 0) (v : ρ) :
    ∃ (m : Mem) (a b : Nat), textNow m (.pointer a) = some text ∧ textNow m (.pointer b) = some text ∧
      ∃ t, construct m [(.pointer a, v)] = some (.ok t) ∧
        lookUp m t (.pointer b) = some (.throw (.outOfRange "Invalid item")) := by
  have hun : ∀ (cs : List Nat) (rest : Mem), (∀ c ∈ cs, c ≠ 0) →
      untilNul (cs.map some ++ some 0 :: rest) = .ok cs := by
    intro cs
    induction cs with
    | nil => intro rest _; simp [untilNul]
    | cons c cs ih =>
      intro rest h
      rw [List.map_cons, List.cons_append, untilNul, if_neg (h c (by simp)),
        ih rest (fun x hx => h x (by simp [hx]))]
      rfl
  let m : Mem := text.map some ++ some 0 :: (text.map some ++ some 0 :: [])
  have ha : cString m 0 = .ok text := hun text _ hnul
  have hb : cString m (text.length + 1) = .ok text := by
    have : m.drop (text.length + 1) = text.map some ++ some 0 :: [] := by
      simp only [m]
      rw [← List.singleton_append (x := some 0) (l := text.map some ++ [some 0]), ← List.append_assoc]
      exact List.drop_left' (by simp)
    rw [cString, this]
    exact hun text _ hnul
  obtain ⟨t, h1, h2⟩ := c209_pointers m m [(0, v)] (by simp) (text.length + 1)
  refine ⟨m, 0, text.length + 1, by rw [textNow, ha], by rw [textNow, hb], t, h1, ?_⟩
  rw [h2]
  simp

/-- "a" is not found. -/
example : ((construct [some 97, some 0, some 97, some 0] [(.pointer 0, 1)]).map fun o => match o with
      | .ok t => (lookUp [some 97, some 0, some 97, some 0] t (.pointer 2)) ==
          some (.throw (.outOfRange "Invalid item"))
      | _ => false) = some true := by decide +kernel

/-- **C209, refuted: changed text.** A lookup of views does not keep its texts: after the characters a view
refers to were changed, the mapping is found by the new text and not by the one it was made with. -/
theorem c209_refuted_changed {ρ : Type} (old new : List Nat) (hlen : old.length = new.length) (hne : old ≠ new)
    (v : ρ) :
    ∃ (m m' : Mem) (key b c : Nat), textNow m (.view key old.length) = some old ∧
      textNow m' (.view b old.length) = some old ∧ textNow m' (.view c old.length) = some new ∧
      ∃ t, construct m [(.view key old.length, v)] = some (.ok t) ∧
        lookUp m' t (.view b old.length) = some (.throw (.outOfRange "Invalid item")) ∧
        lookUp m' t (.view c old.length) = some (.ok v) := by
  have h1 : charsAt (old.map some ++ old.map some) 0 old.length = .ok old :=
    charsAt_of_drop old _ 0 (old.map some) (by simp)
  have h2 : charsAt (new.map some ++ old.map some) old.length old.length = .ok old :=
    charsAt_of_drop old _ _ [] (by rw [List.drop_left' (by simp [hlen])]; simp)
  have h3 : charsAt (new.map some ++ old.map some) 0 old.length = .ok new := by
    rw [hlen]; exact charsAt_of_drop new _ 0 (old.map some) (by simp)
  refine ⟨old.map some ++ old.map some, new.map some ++ old.map some, 0, old.length, 0, by rw [textNow, h1],
    by rw [textNow, h2], by rw [textNow, h3], ⟨.view, [(.view 0 old.length, v)]⟩, rfl, ?_, ?_⟩
  · simp only [lookUp, convert, Outcome.bind_ok, find, same, if_true, h2, h3, Outcome.pure_eq]
    rw [if_neg (by simpa using fun e => hne e.symm)]
  · simp only [lookUp, convert, Outcome.bind_ok, find, same, if_true, h3, Outcome.pure_eq]
    rw [if_pos (by simp)]

/-- The key was "a" and is "b" now. -/
example : ((construct [some 97] [(.view 0 1, 1)]).map fun o => match o with
      | .ok t => (lookUp [some 98, some 97] t (.view 1 1)) == some (.throw (.outOfRange "Invalid item"))
      | _ => false) = some true := by decide +kernel

/-- **C209, refuted: text that is gone.** Once the characters of the first text of a lookup of views are gone,
asking for any text of its length is undefined behaviour. -/
theorem c209_refuted_gone {ρ : Type} (m m' : Mem) (key n : Nat) (v : ρ) (others : List (Arg × ρ))
    (t : Lookup ρ) (ht : construct m ((.view key n, v) :: others) = some (.ok t)) (hn : 0 < n)
    (hgone : m'[key]? = some none ∨ m'[key]? = none) (arg : Arg) (text : List Nat)
    (hasked : textNow m' arg = some text) (hlen : text.length = n) :
    lookUp m' t arg = some .ub := by
  have hkind : t.kind = .view ∧ ∃ rest, t.items = (.view key n, v) :: rest := by
    rw [construct] at ht
    split at ht
    · rename_i items hi
      rw [initItems] at hi
      simp only [Arg.kind, store, convert] at hi
      split at hi
      · rename_i c rest hc hr
        cases hc
        rw [← Option.some.inj hi] at ht
        cases rest with
        | ok cs =>
          have : (⟨Kind.view, (Cell.view key n, v) :: cs⟩ : Lookup ρ) = t := by simpa [Arg.kind] using ht
          subst this
          exact ⟨rfl, cs, rfl⟩
        | throw e => simp at ht
        | ub => simp at ht
        | terminate => simp at ht
        | diverge => simp at ht
      · simp at hi
    · simp at ht
  obtain ⟨hk, rest, hi⟩ := hkind
  obtain ⟨x, hx, _⟩ := convert_view hasked
  simp only [lookUp, hk, hx, hi, Outcome.bind_ok, find, same]
  rw [if_pos hlen.symm]
  obtain ⟨k, rfl⟩ : ∃ k, n = k + 1 := ⟨n - 1, by omega⟩
  have : charsAt m' key (k + 1) = .ub := by
    rw [charsAt]
    rcases hgone with h | h <;> rw [h]
  rw [this]
  rfl

/-- The key is gone. -/
example : ((construct [some 97] [(.view 0 1, 1)]).map fun o => match o with
      | .ok t => (lookUp [none, some 97] t (.view 1 1)) == some .ub
      | _ => false) = some true := by decide +kernel

/-- **C209, refuted: strings among views.** A lookup of views may be made with a string, but what it keeps is a
view of a copy that is gone: asking for any text of the string's length that is not found before it is undefined
behaviour, however long the string itself lives. -/
theorem c209_refuted_strings_as_views {ρ : Type} (m : Mem) (key k a n : Nat) (v w : ρ) (first : List Nat)
    (hfirst : textNow m (.view key k) = some first) (hn : 0 < n) (arg : Arg) (text : List Nat)
    (hasked : textNow m arg = some text) (hlen : text.length = n) (hne : text ≠ first) :
    ∃ t, construct m [(.view key k, v), (.string a n, w)] = some (.ok t) ∧ lookUp m t arg = some .ub := by
  refine ⟨⟨.view, [(.view key k, v), (.dangling n, w)]⟩, rfl, ?_⟩
  obtain ⟨x, hx, hx'⟩ := convert_view hasked
  have h1 := text_view hfirst
  have hk := charsAt_length _ _ _ _ h1
  simp only [lookUp, hx, Outcome.bind_ok, find]
  have hs : same m (.view key k) (.view x text.length) = .ok false := by
    rw [same]
    by_cases hl : k = text.length
    · rw [if_pos hl, h1, hx']
      simp [hne.symm]
    · rw [if_neg hl]
  rw [hs]
  simp only [Outcome.bind_ok, Bool.false_eq_true, if_false, same]
  rw [if_pos hlen.symm, if_neg (by omega)]
  rfl

/-- "b" is a string that is alive all the time. -/
example : ((construct [some 97, some 98] [(.view 0 1, 1), (.string 1 1, 2)]).map fun o => match o with
      | .ok t => (lookUp [some 97, some 98] t (.string 1 1)) == some .ub
      | _ => false) = some true := by decide +kernel

/-- **C209, refuted: NULs.** A text with a NUL in it that is not found by a pointer to it: the lookup of views
is asked for the characters before the NUL. -/
theorem c209_refuted_nul {ρ : Type} (front back : List Nat) (hfront : ∀ c ∈ front, c ≠ 0) (v : ρ) :
    ∃ (m : Mem), textNow m (.view 0 (front ++ 0 :: back).length) = some (front ++ 0 :: back) ∧
      ∃ t, construct m [(.view 0 (front ++ 0 :: back).length, v)] = some (.ok t) ∧
        lookUp m t (.pointer 0) = some (.throw (.outOfRange "Invalid item")) := by
  have hc : charsAt ((front ++ 0 :: back).map some) 0 (front ++ 0 :: back).length = .ok (front ++ 0 :: back) :=
    charsAt_of_drop _ _ 0 [] (by simp)
  have hun : ∀ (cs : List Nat) (rest : Mem), (∀ c ∈ cs, c ≠ 0) →
      untilNul (cs.map some ++ some 0 :: rest) = .ok cs := by
    intro cs
    induction cs with
    | nil => intro rest _; simp [untilNul]
    | cons c cs ih =>
      intro rest h
      rw [List.map_cons, List.cons_append, untilNul, if_neg (h c (by simp)),
        ih rest (fun x hx => h x (by simp [hx]))]
      rfl
  have hp : cString ((front ++ 0 :: back).map some) 0 = .ok front := by
    have := hun front (back.map some) hfront
    rw [cString, List.drop_zero, List.map_append, List.map_cons]
    exact this
  refine ⟨(front ++ 0 :: back).map some, by rw [textNow, hc], ⟨.view, [(.view 0 _, v)]⟩, rfl, ?_⟩
  simp only [lookUp, convert, hp, Outcome.bind_ok, Outcome.pure_eq, find, same]
  rw [if_neg (by simp)]
  simp

/-- "a\0b"sv is not found by "a\0b". -/
example : ((construct [some 97, some 0, some 98] [(.view 0 3, 1)]).map fun o => match o with
      | .ok t => (lookUp [some 97, some 0, some 98] t (.pointer 0)) ==
          some (.throw (.outOfRange "Invalid item"))
      | _ => false) = some true := by decide +kernel

/-- **C209, refuted: forms.** A lookup of strings cannot be asked with a view, nor made with one after the first
text; a lookup of C strings cannot be asked with anything else, nor made with it. -/
theorem c209_refuted_forms {ρ : Type} (m : Mem) (t : Lookup ρ) (arg : Arg) :
    (lookUp m t arg = none ↔
      (t.kind = .string ∧ arg.kind = .view) ∨ (t.kind = .pointer ∧ arg.kind ≠ .pointer)) ∧
    ∀ (first : Arg × ρ) (others : List (Arg × ρ)),
      (construct m (first :: others) = none ↔
        ∃ p ∈ others, (first.1.kind = .string ∧ p.1.kind = .view) ∨
          (first.1.kind = .pointer ∧ p.1.kind ≠ .pointer)) := by
  have hconv : ∀ (k : Kind) (x : Arg), convert m k x = none ↔
      (k = .string ∧ x.kind = .view) ∨ (k = .pointer ∧ x.kind ≠ .pointer) := by
    intro k x
    cases k <;> cases x <;> simp [convert, Arg.kind]
  have hself : ∀ x : Arg, store m x.kind x ≠ none := by
    intro x
    cases x <;> simp [store, convert, Arg.kind]
  have hstore : ∀ (k : Kind) (x : Arg), store m k x = none ↔ convert m k x = none := by
    intro k x
    cases k <;> cases x <;> simp [store, convert]
  have hinit : ∀ (k : Kind) (ps : List (Arg × ρ)), initItems m k ps = none ↔
      ∃ p ∈ ps, store m k p.1 = none := by
    intro k ps
    induction ps with
    | nil => simp [initItems]
    | cons p ps ih =>
      rw [initItems]
      cases hc : store m k p.1 with
      | none => simp [hc]
      | some c =>
        cases hr : initItems m k ps with
        | none =>
          obtain ⟨q, hq, hqn⟩ := ih.1 hr
          simp only [true_iff]
          exact ⟨q, by simp [hq], hqn⟩
        | some r =>
          simp only [reduceCtorEq, false_iff]
          rintro ⟨q, hq, hqn⟩
          rcases List.mem_cons.1 hq with rfl | hq
          · rw [hc] at hqn; simp at hqn
          · rw [ih.2 ⟨q, hq, hqn⟩] at hr; simp at hr
  refine ⟨?_, ?_⟩
  · rw [← hconv, lookUp]
    cases convert m t.kind arg <;> simp
  · intro first others
    have hcon : construct m (first :: others) = none ↔ initItems m first.1.kind (first :: others) = none := by
      rw [construct]
      cases initItems m first.1.kind (first :: others) <;> simp
    rw [hcon, hinit]
    constructor
    · rintro ⟨p, hp, hpn⟩
      rcases List.mem_cons.1 hp with rfl | hp
      · exact absurd hpn (hself _)
      · exact ⟨p, hp, (hconv _ _).1 ((hstore _ _).1 hpn)⟩
    · rintro ⟨p, hp, hpn⟩
      exact ⟨p, by simp [hp], (hstore _ _).2 ((hconv _ _).2 hpn)⟩

/-- A literal first, a view second. -/
example : construct ([] : Mem) [(.pointer 0, 1), (.view 0 0, 2)] = none := rfl

end Wite.Props
