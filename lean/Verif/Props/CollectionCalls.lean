import Verif.Model.CollectionCalls
import Mathlib.Data.List.Forall2

/-!
# C199: what calls of `insert`, `try_insert` and `erase` mean

Facts about types are arbitrary: the theorems hold for every item type, also one that is itself a range of items.
-/

namespace Wite.Props

open Wite.CollectionCalls

/-! ## C199 -/

/-- The result of the call with one item or id. -/
def resultOfOne : CollFn → RetTy
  | .insert => .void
  | .tryInsert => .bool
  | .erase => .bool

/-- The result of the call with a range. -/
def resultOfRange : CollFn → RetTy
  | .insert => .void
  | .tryInsert => .vec
  | .erase => .vec

/-- The result of the call with `n` arguments, if it is not one of those above. -/
def resultOfPack (n : Nat) : CollFn → RetTy
  | .insert => .void
  | .tryInsert => .arr n
  | .erase => .arr n

/-- Whether an item of a type like this can be made from an argument, and how.  Nothing is made of an argument of `erase`. -/
inductive Makes : CollFn → Copying → Conv → (isConst lvalue : Bool) → How → Prop where
  | copy (f : CollFn) (hf : f ≠ .erase) (c : Conv) (hc : c = .same ∨ c = .builtin) (q l : Bool) (h : q = true ∨ l = true) :
    Makes f .copyable c q l .copied
  | move (f : CollFn) (hf : f ≠ .erase) (k : Copying) (hk : k ≠ .immovable) (c : Conv) (hc : c = .same ∨ c = .builtin) :
    Makes f k c false false .moved
  | convert (f : CollFn) (hf : f ≠ .erase) (k : Copying) (hk : k ≠ .immovable) (q l : Bool) : Makes f k .user q l .converted
  | look (k : Copying) (q l : Bool) : Makes .erase k .same q l .seen
  | convertId (k : Copying) (c : Conv) (hc : c = .builtin ∨ c = .user) (q l : Bool) : Makes .erase k c q l .converted

/-- What a call with one argument means. -/
inductive Means : CollFn → Copying → ArgTy → (isConst lvalue : Bool) → RetTy → Placing → Prop where
  /-- an item, or an id, even if it is a range of its own kind; but `erase` of an id that is a range of ids, and not a const
  variable, is the next case -/
  | item (f : CollFn) (k : Copying) (t : ArgTy) (q l : Bool) (h : How) (hc : t.conv = .same)
      (he : f = .erase → t.owns = true → q = true ∧ l = true) (hm : Makes f k .same q l h) :
    Means f k t q l (resultOfOne f) (.single h)
  /-- a container of items or ids; the elements of `insert` go through `try_insert` -/
  | insertRange (k : Copying) (c : Conv) (hc : c ≠ .same) (g : Bool) (ec : Bool) (e : ArgTy) (q l : Bool) (r : RetTy) (p : Placing)
      (hm : Means .tryInsert k e ec true r p) : Means .insert k (.range c g true ec e) q l .void (.each p)
  | tryInsertRange (k : Copying) (c : Conv) (hc : c ≠ .same) (g : Bool) (ec : Bool) (e : ArgTy) (q l : Bool) (p : Placing)
      (hm : Means .tryInsert k e ec true .bool p) : Means .tryInsert k (.range c g true ec e) q l .vec (.each p)
  | eraseRange (k : Copying) (c : Conv) (g : Bool) (ec : Bool) (e : ArgTy) (q l : Bool) (hc : c = .same → q = false ∨ l = false)
      (p : Placing) (hm : Means .erase k e ec true .bool p) : Means .erase k (.range c g true ec e) q l .vec (.each p)
  /-- something else that has `id()`, or is a `wite::id` -/
  | named (f : CollFn) (k : Copying) (t : ArgTy) (q l : Bool) (h : How) (hs : t.conv ≠ .same) (ho : t.owns = false)
      (hg : t.tagged = true) (hm : Makes f k t.conv q l h) : Means f k t q l (resultOfPack 1 f) (.several [h])
  /-- something that converts -/
  | converted (f : CollFn) (k : Copying) (t : ArgTy) (q l : Bool) (h : How) (hs : t.conv ≠ .same) (ho : t.owns = false)
      (hg : t.tagged = false) (hm : Makes f k t.conv q l h) : Means f k t q l (resultOfOne f) (.single h)

private theorem use_iff (f : CollFn) (k : Copying) (t : ArgTy) (q l : Bool) (h : How) :
    use f k ⟨t, q, l⟩ = some h ↔ Makes f k t.conv q l h := by
  generalize hc : t.conv = c
  constructor
  · intro hu
    cases f <;> cases k <;> cases c <;> cases q <;> cases l <;> simp [use, hc, itemFrom] at hu <;> subst hu <;>
      first
      | exact .look _ _ _
      | exact .convertId _ _ (by simp) _ _
      | exact .convert _ (by simp) _ (by simp) _ _
      | exact .copy _ (by simp) _ (by simp) _ _ (by simp)
      | exact .move _ (by simp) _ (by simp) _ (by simp)
  · intro hm
    cases hm with
    | copy f hf c' hc' q l hq =>
      cases f <;> rcases hc' with rfl | rfl <;> rcases hq with rfl | rfl <;> simp_all [use, itemFrom]
    | move f hf k hk c' hc' => cases f <;> cases k <;> rcases hc' with rfl | rfl <;> simp_all [use, itemFrom]
    | convert f hf k hk => cases f <;> cases k <;> simp_all [use, itemFrom]
    | look => simp [use, hc]
    | convertId k c' hc' => rcases hc' with rfl | rfl <;> simp [use, hc]

private theorem oneRet_eq (f : CollFn) : oneRet f = resultOfOne f := by cases f <;> rfl
private theorem rangeRet_eq (f : CollFn) : rangeRet f = resultOfRange f := by cases f <;> rfl
private theorem packRet_eq (n : Nat) (f : CollFn) : packRet n f = resultOfPack n f := by cases f <;> rfl

/-- Overload resolution, decided. -/
private theorem callWith_eq (f : CollFn) (k : Copying) (t : ArgTy) (q l : Bool) (inner : CallVerdict) :
    callWith f k ⟨t, q, l⟩ inner =
      if t.conv = .same ∧ (f = .erase → t.owns = true → q = true ∧ l = true) then bodyOne f k ⟨t, q, l⟩
      else if t.owns = true then bodyRange f inner
      else if t.tagged = true then bodyPack f k [⟨t, q, l⟩]
      else if t.conv = .impossible then .noMatch else bodyOne f k ⟨t, q, l⟩ := by
  generalize hc : t.conv = c
  generalize ho : t.owns = o
  generalize hg : t.tagged = g
  cases f <;> cases c <;> cases o <;> cases g <;> cases q <;> cases l <;>
    simp only [callWith, candidates, hc, ho, hg, binding] <;> rfl

private theorem bodyOne_ok (f : CollFn) (k : Copying) (t : ArgTy) (q l : Bool) (r : RetTy) (p : Placing) :
    bodyOne f k ⟨t, q, l⟩ = .ok r p ↔ ∃ h, Makes f k t.conv q l h ∧ r = resultOfOne f ∧ p = .single h := by
  unfold bodyOne
  rcases hu : use f k ⟨t, q, l⟩ with - | h
  · constructor
    · simp
    · rintro ⟨h, hm, -⟩
      rw [(use_iff f k t q l h).2 hm] at hu
      cases hu
  · constructor
    · intro he
      injection he with h1 h2
      exact ⟨h, (use_iff ..).1 hu, by rw [← h1, oneRet_eq], h2.symm⟩
    · rintro ⟨h', hm, rfl, rfl⟩
      rw [(use_iff f k t q l h').2 hm] at hu
      injection hu with hu
      subst hu
      simp [oneRet_eq]

private theorem bodyPack_one (f : CollFn) (k : Copying) (t : ArgTy) (q l : Bool) (r : RetTy) (p : Placing) :
    bodyPack f k [⟨t, q, l⟩] = .ok r p ↔ ∃ h, Makes f k t.conv q l h ∧ r = resultOfPack 1 f ∧ p = .several [h] := by
  unfold bodyPack
  rcases hu : use f k ⟨t, q, l⟩ with - | h
  · constructor
    · simp [hu]
    · rintro ⟨h, hm, -⟩
      rw [(use_iff f k t q l h).2 hm] at hu
      cases hu
  · constructor
    · intro he
      simp [hu] at he
      exact ⟨h, (use_iff ..).1 hu, by rw [← he.1, packRet_eq], he.2.symm⟩
    · rintro ⟨h', hm, rfl, rfl⟩
      rw [(use_iff f k t q l h').2 hm] at hu
      injection hu with hu
      subst hu
      have h2 := (use_iff f k t q l h').2 hm
      simp [h2, packRet_eq]

private theorem bodyRange_ok (f : CollFn) (v : CallVerdict) (r : RetTy) (p : Placing) :
    bodyRange f v = .ok r p ↔ ∃ r' p', v = .ok r' p' ∧ (f = .insert ∨ r' = .bool) ∧ r = resultOfRange f ∧ p = .each p' := by
  unfold bodyRange
  rcases v with - | - | ⟨r', p'⟩
  · simp
  · simp
  · by_cases h : f = .insert ∨ r' = .bool
    · simp only [h, if_true, CallVerdict.ok.injEq, rangeRet_eq]
      constructor
      · rintro ⟨rfl, rfl⟩; exact ⟨r', p', ⟨rfl, rfl⟩, h, rfl, rfl⟩
      · rintro ⟨r2, p2, ⟨rfl, rfl⟩, -, rfl, rfl⟩; exact ⟨rfl, rfl⟩
    · simp only [h, if_false]
      constructor
      · intro h'; cases h'
      · rintro ⟨r2, p2, he, h2, -⟩
        injection he with h3 h4
        subst h3
        exact absurd h2 h

/-- C199: exactly which calls with one argument compile, which result they have and what they do with the argument. -/
theorem c199_exact (f : CollFn) (k : Copying) (t : ArgTy) (q l : Bool) (r : RetTy) (p : Placing) :
    callOne f k t q l = .ok r p ↔ Means f k t q l r p := by
  induction t generalizing f q l r p with
  | plain c g =>
    rw [callOne, callWith_eq]
    constructor
    · intro h
      split at h
      · rename_i hs
        obtain ⟨how, hm, rfl, rfl⟩ := (bodyOne_ok ..).1 h
        exact .item _ _ _ _ _ _ hs.1 hs.2 (hs.1 ▸ hm)
      · rename_i hs
        have hns : c ≠ .same := fun hh => hs ⟨hh, fun _ ho => by simp [ArgTy.owns] at ho⟩
        simp only [ArgTy.owns, Bool.false_eq_true, if_false] at h
        split at h
        · rename_i hg
          obtain ⟨how, hm, rfl, rfl⟩ := (bodyPack_one ..).1 h
          exact .named _ _ _ _ _ _ hns rfl hg hm
        · rename_i hg
          split at h
          · cases h
          · obtain ⟨how, hm, rfl, rfl⟩ := (bodyOne_ok ..).1 h
            exact .converted _ _ _ _ _ _ hns rfl (by simpa using hg) hm
    · intro h
      cases h with
      | item _ _ _ _ _ h hc he hm =>
        rw [if_pos ⟨hc, he⟩]
        exact (bodyOne_ok ..).2 ⟨h, hc ▸ hm, rfl, rfl⟩
      | named _ _ _ _ _ h hs ho hg hm =>
        rw [if_neg (fun hh => hs hh.1), if_neg (by simp [ArgTy.owns]), if_pos hg]
        exact (bodyPack_one ..).2 ⟨h, hm, rfl, rfl⟩
      | converted _ _ _ _ _ h hs ho hg hm =>
        rw [if_neg (fun hh => hs hh.1), if_neg (by simp [ArgTy.owns]), if_neg (by simp [hg]), if_neg]
        · exact (bodyOne_ok ..).2 ⟨h, hm, rfl, rfl⟩
        · intro hi
          rw [hi] at hm
          cases hm with
          | copy _ _ _ hc => simp at hc
          | move _ _ _ _ _ hc => simp at hc
          | convertId _ _ hc => simp at hc
  | range c g o ec e ih =>
    rw [callOne, callWith_eq]
    constructor
    · intro h
      split at h
      · rename_i hs
        obtain ⟨how, hm, rfl, rfl⟩ := (bodyOne_ok ..).1 h
        exact .item _ _ _ _ _ _ hs.1 hs.2 (hs.1 ▸ hm)
      · rename_i hs
        split at h
        · rename_i ho
          simp only [ArgTy.owns] at ho
          subst ho
          obtain ⟨r', p', hi, hr, rfl, rfl⟩ := (bodyRange_ok ..).1 h
          have hm := (ih _ _ _ _ _).1 hi
          cases f with
          | insert => exact .insertRange _ _ (fun hh => hs ⟨hh, by simp⟩) _ _ _ _ _ _ _ hm
          | tryInsert =>
            have : r' = .bool := by simpa using hr
            subst this
            exact .tryInsertRange _ _ (fun hh => hs ⟨hh, by simp⟩) _ _ _ _ _ _ hm
          | erase =>
            have : r' = .bool := by simpa using hr
            subst this
            refine .eraseRange _ _ _ _ _ _ _ (fun hh => ?_) _ hm
            rcases hq : q with - | -
            · exact .inl rfl
            · rcases hl : l with - | -
              · exact .inr rfl
              · exact absurd ⟨hh, fun _ _ => ⟨hq, hl⟩⟩ hs
        · rename_i ho
          simp only [ArgTy.owns, Bool.not_eq_true] at ho
          subst ho
          have hns : c ≠ .same := fun hh => hs ⟨hh, fun _ ho => by simp [ArgTy.owns] at ho⟩
          split at h
          · rename_i hg
            obtain ⟨how, hm, rfl, rfl⟩ := (bodyPack_one ..).1 h
            exact .named _ _ _ _ _ _ hns rfl hg hm
          · rename_i hg
            split at h
            · cases h
            · obtain ⟨how, hm, rfl, rfl⟩ := (bodyOne_ok ..).1 h
              exact .converted _ _ _ _ _ _ hns rfl (by simpa using hg) hm
    · intro h
      cases h with
      | item _ _ _ _ _ h hc he hm =>
        rw [if_pos ⟨hc, he⟩]
        exact (bodyOne_ok ..).2 ⟨h, hc ▸ hm, rfl, rfl⟩
      | insertRange _ _ hc _ _ _ _ _ r' p' hm =>
        rw [if_neg (fun hh => hc hh.1), if_pos (by simp [ArgTy.owns])]
        exact (bodyRange_ok ..).2 ⟨r', p', (ih _ _ _ _ _).2 hm, .inl rfl, rfl, rfl⟩
      | tryInsertRange _ _ hc _ _ _ _ _ p' hm =>
        rw [if_neg (fun hh => hc hh.1), if_pos (by simp [ArgTy.owns])]
        exact (bodyRange_ok ..).2 ⟨.bool, p', (ih _ _ _ _ _).2 hm, .inr rfl, rfl, rfl⟩
      | eraseRange _ _ _ _ _ _ _ hc p' hm =>
        rw [if_neg, if_pos (by simp [ArgTy.owns])]
        · exact (bodyRange_ok ..).2 ⟨.bool, p', (ih _ _ _ _ _).2 hm, .inr rfl, rfl, rfl⟩
        · rintro ⟨hs, hx⟩
          obtain ⟨h1, h2⟩ := hx rfl rfl
          rcases hc hs with h3 | h3 <;> simp_all
      | named _ _ _ _ _ h hs ho hg hm =>
        rw [if_neg (fun hh => hs hh.1), if_neg (by simp [ho]), if_pos hg]
        exact (bodyPack_one ..).2 ⟨h, hm, rfl, rfl⟩
      | converted _ _ _ _ _ h hs ho hg hm =>
        rw [if_neg (fun hh => hs hh.1), if_neg (by simp [ho]), if_neg (by simp [hg]), if_neg]
        · exact (bodyOne_ok ..).2 ⟨h, hm, rfl, rfl⟩
        · intro hi
          rw [hi] at hm
          cases hm with
          | copy _ _ _ hc => simp at hc
          | move _ _ _ _ _ hc => simp at hc
          | convertId _ _ hc => simp at hc

example : Means .erase .copyable (.range .same false true false (.plain .same false)) false true .vec (.each (.single .seen)) :=
  .eraseRange _ _ _ _ _ _ _ (by simp) _ (.item .erase _ _ _ _ _ rfl (by simp [ArgTy.owns]) (.look _ _ _))

/-- C199: inserting a variable of the item type, if items can be copied, and a temporary, if they can be moved, always
compiles, with the result one expects; a temporary is not copied.  That the item type is a range of items, or of anything
else, makes no difference. -/
theorem c199_item_partial (k : Copying) (t : ArgTy) (ht : t.conv = .same) (q l : Bool)
    (hk : k = .copyable ∨ (k = .moveOnly ∧ q = false ∧ l = false)) :
    ∃ h, callOne .insert k t q l = .ok .void (.single h) ∧ callOne .tryInsert k t q l = .ok .bool (.single h) ∧
      (h = .moved ↔ q = false ∧ l = false) := by
  have hm : ∃ h, (∀ f, f ≠ .erase → Makes f k .same q l h) ∧ (h = .moved ↔ q = false ∧ l = false) := by
    by_cases hq : q = false ∧ l = false
    · obtain ⟨rfl, rfl⟩ := hq
      exact ⟨.moved, fun f hf => .move f hf k (by rcases hk with rfl | ⟨rfl, -⟩ <;> simp) _ (.inl rfl), by simp⟩
    · rcases hk with rfl | ⟨-, h1, h2⟩
      · refine ⟨.copied, fun f hf => .copy f hf _ (.inl rfl) q l ?_, by simpa using hq⟩
        cases q <;> cases l <;> simp_all
      · exact absurd ⟨h1, h2⟩ hq
  obtain ⟨h, hm, hh⟩ := hm
  exact ⟨h, (c199_exact ..).2 (.item .insert _ _ _ _ _ ht (by simp) (hm _ (by simp))),
    (c199_exact ..).2 (.item .tryInsert _ _ _ _ _ ht (by simp) (hm _ (by simp))), hh⟩

example : callOne .tryInsert .copyable (.range .same true true false (.plain .same true)) false true =
    .ok .bool (.single .copied) := by decide
example : callOne .insert .moveOnly (.plain .same true) false true = .error := by decide

/-- C199: what converts to the item type, is no container of items and has no `id()` is converted and inserted as an item. -/
theorem c199_converted_partial (k : Copying) (hk : k ≠ .immovable) (t : ArgTy) (ht : t.conv = .user) (ho : t.owns = false)
    (hg : t.tagged = false) (q l : Bool) :
    callOne .insert k t q l = .ok .void (.single .converted) ∧ callOne .tryInsert k t q l = .ok .bool (.single .converted) := by
  constructor
  · exact (c199_exact ..).2 (.converted .insert _ _ _ _ _ (by simp [ht]) ho hg (ht ▸ .convert _ (by simp) _ hk _ _))
  · exact (c199_exact ..).2 (.converted .tryInsert _ _ _ _ _ (by simp [ht]) ho hg (ht ▸ .convert _ (by simp) _ hk _ _))

example : callOne .insert .moveOnly (.plain .user false) true true = .ok .void (.single .converted) := by decide

/-- C199: an id can be erased, and so can what converts to it and is no `wite::id`; no container of ids is meant here. -/
theorem c199_id_partial (k : Copying) (t : ArgTy) (ho : t.owns = false)
    (ht : t.conv = .same ∨ (t.conv ≠ .impossible ∧ t.tagged = false)) (q l : Bool) :
    ∃ h, callOne .erase k t q l = .ok .bool (.single h) := by
  rcases ht with ht | ⟨ht, hg⟩
  · exact ⟨_, (c199_exact ..).2 (.item .erase _ _ _ _ _ ht (by simp [ho]) (.look _ _ _))⟩
  · rcases hc : t.conv with - | - | - | -
    · exact absurd hc ht
    · exact ⟨_, (c199_exact ..).2 (.item .erase _ _ _ _ _ hc (by simp [ho]) (.look _ _ _))⟩
    · exact ⟨_, (c199_exact ..).2 (.converted .erase _ _ _ _ _ (by simp [hc]) ho hg (by rw [hc]; exact .convertId _ _ (.inl rfl) _ _))⟩
    · exact ⟨_, (c199_exact ..).2 (.converted .erase _ _ _ _ _ (by simp [hc]) ho hg (by rw [hc]; exact .convertId _ _ (.inr rfl) _ _))⟩

example : callOne .erase .immovable (.plain .builtin false) true false = .ok .bool (.single .converted) := by decide

/-- C199: several items can be inserted, or several ids of type `wite::id` erased, in one call: it compiles exactly if every
argument has `id()` (is a `wite::id`) and can be used as an item (id) by itself; the results come as an array. -/
theorem c199_several_partial (f : CollFn) (k : Copying) (as : List CallArg) (hn : as.length ≠ 1) (r : RetTy) (p : Placing) :
    call f k as = .ok r p ↔
      (∀ a ∈ as, a.ty.tagged = true) ∧ r = resultOfPack as.length f ∧
        ∃ hs, p = .several hs ∧ List.Forall₂ (fun a h => Makes f k a.ty.conv a.isConst a.lvalue h) as hs := by
  have hcall : call f k as = if as.all fun a => a.ty.tagged then bodyPack f k as else .noMatch := by
    match as with
    | [] => rfl
    | [a] => simp at hn
    | _ :: _ :: _ => rfl
  have hmap : ∀ (as : List CallArg) hs, as.mapM (use f k) = some hs ↔
      List.Forall₂ (fun a h => Makes f k a.ty.conv a.isConst a.lvalue h) as hs := by
    intro as
    induction as with
    | nil => intro hs; cases hs <;> simp
    | cons a as ih =>
      intro hs
      simp only [List.mapM_cons, Option.bind_eq_bind, Option.bind_eq_some_iff, Option.pure_def, Option.some.injEq]
      constructor
      · rintro ⟨h, hu, hs', hr, rfl⟩
        exact .cons ((use_iff f k a.ty a.isConst a.lvalue h).1 hu) ((ih hs').1 hr)
      · intro hf
        cases hf with
        | cons h1 h2 => exact ⟨_, (use_iff f k a.ty a.isConst a.lvalue _).2 h1, _, (ih _).2 h2, rfl⟩
  rw [hcall]
  by_cases hall : ∀ a ∈ as, a.ty.tagged = true
  · rw [if_pos (by simpa using hall), bodyPack]
    rcases hu : as.mapM (use f k) with - | hs
    · simp only [reduceCtorEq, false_iff]
      rintro ⟨-, -, hs, -, hf⟩
      rw [(hmap as hs).2 hf] at hu
      cases hu
    · simp only [CallVerdict.ok.injEq, packRet_eq]
      constructor
      · rintro ⟨rfl, rfl⟩
        exact ⟨hall, rfl, hs, rfl, (hmap as hs).1 hu⟩
      · rintro ⟨-, rfl, hs', rfl, hf⟩
        rw [(hmap as hs').2 hf] at hu
        injection hu with hu
        subst hu
        exact ⟨rfl, rfl⟩
  · rw [if_neg (by simpa using hall)]
    simp only [reduceCtorEq, false_iff]
    exact fun h => hall h.1

example : call .tryInsert .copyable [⟨.plain .same true, true, true⟩, ⟨.plain .builtin true, false, false⟩] =
    .ok (.arr 2) (.several [.copied, .moved]) := by decide
example : call .insert .copyable [] = .ok .void (.several []) := by decide

/-- C199 is false for objects of derived classes: `try_insert` of one returns an array, not a `bool`; the same for
anything else that has `id()` and converts to an item. -/
theorem c199_refuted_result (t : ArgTy) (ht : t.conv = .builtin ∨ t.conv = .user) (ho : t.owns = false) (hg : t.tagged = true)
    (q l : Bool) : ∃ h, callOne .tryInsert .copyable t q l = .ok (.arr 1) (.several [h]) := by
  have hs : t.conv ≠ .same := by rcases ht with h | h <;> simp [h]
  have hm : ∃ h, Makes .tryInsert .copyable t.conv q l h := by
    rcases ht with h | h
    · rw [h]
      by_cases hq : q = false ∧ l = false
      · obtain ⟨rfl, rfl⟩ := hq
        exact ⟨_, .move _ (by simp) _ (by simp) _ (.inr rfl)⟩
      · exact ⟨_, .copy _ (by simp) _ (.inr rfl) _ _ (by cases q <;> cases l <;> simp_all)⟩
    · rw [h]; exact ⟨_, .convert _ (by simp) _ (by simp) _ _⟩
  obtain ⟨h, hm⟩ := hm
  exact ⟨h, (c199_exact ..).2 (.named _ _ _ _ _ _ hs ho hg hm)⟩

example : callOne .tryInsert .copyable (.plain .builtin true) false false = .ok (.arr 1) (.several [.moved]) := by decide

/-- C199 is false for what converts to an item but is a container of items as well: its elements are inserted instead, and
`insert` does it with `try_insert`. -/
theorem c199_refuted_container (c : Conv) (hc : c = .builtin ∨ c = .user) (g ec : Bool) (e : ArgTy) (he : e.conv = .same) (q l : Bool) :
    callOne .insert .copyable (.range c g true ec e) q l = .ok .void (.each (.single .copied)) ∧
    callOne .tryInsert .copyable (.range c g true ec e) q l = .ok .vec (.each (.single .copied)) := by
  have hs : c ≠ .same := by rcases hc with h | h <;> simp [h]
  have hm : Means .tryInsert .copyable e ec true .bool (.single .copied) :=
    .item .tryInsert _ _ _ _ _ he (by simp) (.copy _ (by simp) _ (.inl rfl) _ _ (.inr rfl))
  exact ⟨(c199_exact ..).2 (.insertRange _ _ hs _ _ _ _ _ _ _ hm), (c199_exact ..).2 (.tryInsertRange _ _ hs _ _ _ _ _ _ hm)⟩

example : callOne .insert .copyable (.range .user true true false (.plain .same true)) false false =
    .ok .void (.each (.single .copied)) := by decide

/-- C199 is false for ranges without a nested `value_type`, such as the views of the standard library: nothing can be
inserted from one, or erased, whatever its elements are. -/
theorem c199_refuted_views (f : CollFn) (k : Copying) (ec : Bool) (e : ArgTy) (q l : Bool) :
    callOne f k (.range .impossible false false ec e) q l = .noMatch := by
  rw [callOne, callWith_eq]
  simp [ArgTy.conv, ArgTy.owns, ArgTy.tagged]

example : callOne .insert .copyable (.range .impossible false false true (.plain .same true)) false false = .noMatch := by decide
example : callOne .insert .copyable (.range .impossible false true true (.plain .same true)) false false =
    .ok .void (.each (.single .copied)) := by decide

/-- C199 is false for temporary ranges: whatever is inserted from a range of items, no item of it is moved. -/
theorem c199_refuted_moved (f : CollFn) (hf : f ≠ .erase) (k : Copying) (c : Conv) (hc : c ≠ .same) (g ec : Bool) (e : ArgTy)
    (he : e.conv = .same) (q l : Bool) (r : RetTy) (p : Placing)
    (h : callOne f k (.range c g true ec e) q l = .ok r p) : p = .each (.single .copied) := by
  have hin : ∀ r p, Means .tryInsert k e ec true r p → p = .single .copied := by
    intro r p hm
    cases hm with
    | item _ _ _ _ _ h _ _ hm =>
      cases hm with
      | copy => rfl
    | tryInsertRange _ _ hc => exact absurd he hc
    | named _ _ _ _ _ _ hs => exact absurd he hs
    | converted _ _ _ _ _ _ hs => exact absurd he hs
  have hm := (c199_exact ..).1 h
  cases hm with
  | item _ _ _ _ _ _ hs => exact absurd hs hc
  | insertRange _ _ _ _ _ _ _ _ _ p' hm => rw [hin _ _ hm]
  | tryInsertRange _ _ _ _ _ _ _ _ p' hm => rw [hin _ _ hm]
  | eraseRange => exact absurd rfl hf
  | named _ _ _ _ _ _ _ ho => simp [ArgTy.owns] at ho
  | converted _ _ _ _ _ _ _ ho => simp [ArgTy.owns] at ho

example : callOne .tryInsert .copyable (.range .impossible true true false (.range .same true true false (.plain .same true))) false
    false = .ok .vec (.each (.single .copied)) := by decide

/-- C199 is false for items that cannot be copied: they cannot be inserted from a range, temporary or not, nor by the
constructor from an initialiser list; the compiler finds the overload and then fails. -/
theorem c199_refuted_move_only (f : CollFn) (hf : f ≠ .erase) (k : Copying) (hk : k ≠ .copyable) (c : Conv) (hc : c ≠ .same)
    (g ec : Bool) (e : ArgTy) (he : e.conv = .same) (q l : Bool) :
    callOne f k (.range c g true ec e) q l = .error ∧ listCtor k e = .error := by
  have hne : ∀ (q l : Bool), ¬ ∃ r p, callOne .tryInsert k e q true = .ok r p := by
    rintro q l ⟨r, p, h⟩
    have hm := (c199_exact ..).1 h
    cases hm with
    | item _ _ _ _ _ h _ _ hm =>
      cases hm with
      | copy => exact hk rfl
    | tryInsertRange _ _ hc => exact absurd he hc
    | named _ _ _ _ _ _ hs => exact absurd he hs
    | converted _ _ _ _ _ _ hs => exact absurd he hs
  have hel : elementFn f = .tryInsert := by cases f <;> simp_all [elementFn]
  have hbr : ∀ f (q l : Bool), bodyRange f (callOne .tryInsert k e q true) = .error := by
    intro f q l
    rcases hv : callOne .tryInsert k e q true with - | - | ⟨r, p⟩
    · rfl
    · rfl
    · exact absurd ⟨r, p, hv⟩ (hne q l)
  constructor
  · rw [callOne, callWith_eq, if_neg (fun hh => hc hh.1), if_pos (by rfl), hel]
    exact hbr f ec l
  · rw [listCtor, callOne, callWith_eq, if_neg (fun hh => by simp [ArgTy.conv] at hh), if_pos (by rfl)]
    exact hbr .insert true l

example : callOne .insert .moveOnly (.range .impossible false true false (.plain .same true)) false false = .error := by decide
example : listCtor .copyable (.plain .same true) = .ok .void (.each (.single .copied)) := by decide

/-- C199 is false for collections whose ids are not of type `wite::id` (numbers, strings, UUIDs): there is no `erase` with
two or more ids. -/
theorem c199_refuted_ids (k : Copying) (as : List CallArg) (hn : 2 ≤ as.length) (h : ∃ a ∈ as, a.ty.tagged = false) :
    call .erase k as = .noMatch := by
  obtain ⟨a, ha, hg⟩ := h
  match as, hn with
  | x :: y :: zs, _ =>
    rw [call]
    · rw [if_neg]
      intro hall
      have := List.all_eq_true.1 hall a ha
      simp [hg] at this
    · simp

example : call .erase .copyable [⟨.plain .same false, true, true⟩, ⟨.plain .same false, true, true⟩] = .noMatch := by decide
example : call .erase .copyable [⟨.plain .same false, true, true⟩] = .ok .bool (.single .seen) := by decide

/-- C199: whether a call compiles cannot be asked for in advance.  Something that has `id()` (is a `wite::id`) but does not
convert to an item (id), like the id of another class, is accepted by overload resolution and fails afterwards. -/
theorem c199_refuted_detect (f : CollFn) (k : Copying) (t : ArgTy) (ht : t.conv = .impossible) (ho : t.owns = false)
    (hg : t.tagged = true) (q l : Bool) : callOne f k t q l = .error := by
  have h2 : bodyPack f k [⟨t, q, l⟩] = .error := by
    unfold bodyPack
    rcases hu : use f k ⟨t, q, l⟩ with - | h
    · simp [hu]
    · have hm := (use_iff ..).1 hu
      rw [ht] at hm
      cases hm with
      | copy _ _ _ hc => simp at hc
      | move _ _ _ _ _ hc => simp at hc
      | convertId _ _ hc => simp at hc
  cases t <;> (rw [callOne, callWith_eq]; simp [ht, ho, hg, h2])

/-- C199: the same for ranges that have `id()`: being a range of something else does not change it. -/
theorem c199_refuted_detect_range (f : CollFn) (k : Copying) (g ec : Bool) (e : ArgTy) (q l : Bool) :
    callOne f k (.range .impossible g false ec e) q l = if g then .error else .noMatch := by
  cases g
  · exact c199_refuted_views f k ec e q l
  · exact c199_refuted_detect f k _ rfl rfl rfl q l

example : callOne .erase .copyable (.plain .impossible true) true true = .error := by decide
example : callOne .erase .copyable (.plain .impossible false) true true = .noMatch := by decide

/-- C199: items that can be neither copied nor moved can be inserted by none of these functions (only `emplace` is left). -/
theorem c199_refuted_immovable (f : CollFn) (hf : f ≠ .erase) (as : List CallArg) (ha : as ≠ []) (r : RetTy) (p : Placing) :
    call f .immovable as ≠ .ok r p := by
  have hno : ∀ c q l h, ¬ Makes f .immovable c q l h := by
    intro c q l h hm
    cases hm with
    | move _ _ _ hk => exact hk rfl
    | convert _ _ _ hk => exact hk rfl
    | look => exact hf rfl
    | convertId => exact hf rfl
  have hone : ∀ (f : CollFn), f ≠ .erase → ∀ t q l r p, callOne f .immovable t q l ≠ .ok r p := by
    intro f hf t q l r p h
    have hm := (c199_exact ..).1 h
    generalize hk : Copying.immovable = k at hm
    clear h hno
    have hmk : ∀ f c q l h, f ≠ .erase → ¬ Makes f k c q l h := by
      intro f c q l h hf hm
      subst hk
      cases hm with
      | move _ _ _ hk => exact hk rfl
      | convert _ _ _ hk => exact hk rfl
      | look => exact hf rfl
      | convertId => exact hf rfl
    induction hm with
    | item f _ _ _ _ _ _ _ hm => exact hmk _ _ _ _ _ hf hm
    | insertRange _ _ _ _ _ _ _ _ _ _ _ ih => exact ih (by simp) hk hmk
    | tryInsertRange _ _ _ _ _ _ _ _ _ _ ih => exact ih (by simp) hk hmk
    | eraseRange => exact hf rfl
    | named _ _ _ _ _ _ _ _ _ hm => exact hmk _ _ _ _ _ hf hm
    | converted _ _ _ _ _ _ _ _ _ hm => exact hmk _ _ _ _ _ hf hm
  match as with
  | [a] => exact hone f hf _ _ _ _ _
  | [] => exact absurd rfl ha
  | a :: b :: cs =>
    intro h
    obtain ⟨-, -, hs, -, hm⟩ := (c199_several_partial f _ _ (by simp) r p).1 h
    cases hm with
    | cons h1 _ => exact hno _ _ _ _ h1

example : call .insert .immovable [⟨.plain .same true, false, false⟩] = .error := by decide
example : call .insert .moveOnly [⟨.plain .same true, false, false⟩] = .ok .void (.single .moved) := by decide

end Wite.Props
