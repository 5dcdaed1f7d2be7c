import Mathlib.Data.List.Basic
import Verif.Lemmas.StaticVectorObjs

/-!
# Property C183: what push_back and resize do with their argument
-/

namespace Wite.Props

open Wite Wite.Collections Wite.Spec.StaticVector

variable {α : Type}

private theorem readFrom_data (v : StaticVector α) : ∀ (n i : Nat) (l : List α), v.readFrom i n = .ok l →
    l.length = n ∧ ∃ rest, v.data.drop i = l.map some ++ rest := by
  intro n
  induction n with
  | zero =>
    intro i l h
    rw [StaticVector.readFrom] at h
    cases h
    exact ⟨rfl, v.data.drop i, rfl⟩
  | succ n ih =>
    intro i l h
    rw [StaticVector.readFrom, StaticVector.index] at h
    split at h
    · rename_i x hx
      rw [Outcome.bind_ok] at h
      cases hr : v.readFrom (i + 1) n with
      | ok xs =>
        rw [hr, Outcome.bind_ok] at h
        cases h
        obtain ⟨h1, rest, h2⟩ := ih (i + 1) xs hr
        refine ⟨by simp [h1], rest, ?_⟩
        obtain ⟨hi, hxi⟩ := List.getElem?_eq_some_iff.1 hx
        rw [List.drop_eq_getElem_cons hi, hxi, h2]; rfl
      | throw e => rw [hr] at h; cases h
      | ub => rw [hr] at h; cases h
      | terminate => rw [hr] at h; cases h
      | diverge => rw [hr] at h; cases h
    · cases h

theorem shows_holds {cap : Nat} {v : StaticVector α} {l : List α} (h : Shows cap v l) :
    StaticVector.Holds cap v l := by
  obtain ⟨h1, h2, -, h4, -⟩ := h
  obtain ⟨g1, rest, g2⟩ := readFrom_data v v.count 0 l h4
  exact ⟨rest, by simpa using g2, h1, h2⟩

/-- The argument names an object with the value `x`: a variable of the program, or an element of the vector, whose contents are
`l`. -/
def NamesValue (l : List α) (vars : Nat → α) : ObjRef → α → Prop
  | .var i, x => vars i = x
  | .elem k, x => l[k]? = some x

/-- The contents of the vector once the argument has been handed over. -/
def contentsAfter (mv : α → α) (l : List α) (a : ObjArg) (x : α) : List α :=
  match a with
  | ⟨true, .elem k⟩ => l.set k (mv x)
  | _ => l

/-- The variables once the argument has been handed over. -/
def varsAfter (mv : α → α) (vars : Nat → α) (a : ObjArg) (x : α) : Nat → α :=
  match a with
  | ⟨true, .var i⟩ => fun j => if j = i then mv x else vars j
  | _ => vars

private theorem param_run (mv : α → α) (a : ObjArg) (l : List α) (rest : List (Option α)) (vars : Nat → α) (es : List ObjEv)
    (x : α) (h : NamesValue l vars a.ref x) :
    ObjVec.param mv a ⟨⟨l.map some ++ rest, l.length⟩, vars, es⟩ =
      .ok (x, ⟨⟨(contentsAfter mv l a x).map some ++ rest, (contentsAfter mv l a x).length⟩, varsAfter mv vars a x,
        es ++ [if a.moved then .move else .copy]⟩) := by
  obtain ⟨moved, ref⟩ := a
  cases ref with
  | var i =>
    simp only [NamesValue] at h
    subst h
    cases moved <;> rfl
  | elem k =>
    simp only [NamesValue] at h
    obtain ⟨hk, hx⟩ := List.getElem?_eq_some_iff.1 h
    subst hx
    have hix : StaticVector.index ⟨l.map some ++ rest, l.length⟩ k = .ok l[k] := StaticVector.index_eq rfl hk
    simp only [ObjVec.param, ObjVec.read, hix, Outcome.bind_ok, Outcome.pure_eq]
    cases moved
    · rfl
    · simp only [if_true, ObjVec.write, ObjVec.log, contentsAfter, varsAfter]
      rw [List.set_append_left _ _ (by simpa using hk), List.map_set]
      simp

/-- The slots behind the elements after resizing. -/
def restAfter (l : List α) (rest : List (Option α)) (n : Nat) : List (Option α) :=
  if l.length < n then rest.drop (n - l.length) else List.replicate (l.length - n) none ++ rest

theorem contentsAfter_length (mv : α → α) (l : List α) (a : ObjArg) (x : α) :
    (contentsAfter mv l a x).length = l.length := by
  obtain ⟨moved, ref⟩ := a
  cases moved <;> cases ref <;> simp [contentsAfter]

theorem resize_run (mv : α → α) (n : Nat) (a : ObjArg) (l : List α) (rest : List (Option α)) (vars : Nat → α)
    (es : List ObjEv) (x : α) (h : NamesValue l vars a.ref x) :
    ObjVec.resize mv n a ⟨⟨l.map some ++ rest, l.length⟩, vars, es⟩ =
      if n ≤ l.length + rest.length then
        (.ok (), ⟨⟨(resized (contentsAfter mv l a x) n x).map some ++ restAfter l rest n, n⟩, varsAfter mv vars a x,
          es ++ ([if a.moved then .move else .copy] ++ [.move] ++ ObjVec.resizeEvents l rest n ++ [.destroy, .destroy])⟩)
      else
        (.throw (.lengthError "static_vector: new size exceeds max size"),
          ⟨⟨(contentsAfter mv l a x).map some ++ rest, l.length⟩, varsAfter mv vars a x,
            es ++ ([if a.moved then .move else .copy] ++ [.destroy])⟩) := by
  have hlen := contentsAfter_length mv l a x
  have hev : ∀ n, ObjVec.resizeEvents (contentsAfter mv l a x) rest n = ObjVec.resizeEvents l rest n := by
    intro n; simp [ObjVec.resizeEvents, hlen]
  have hcapa : ((contentsAfter mv l a x).map some ++ rest).length = l.length + rest.length := by simp [hlen]
  by_cases hn : n ≤ l.length + rest.length
  · have hu := ObjVec.unsafeResize_run (contentsAfter mv l a x) rest n (by omega) x (varsAfter mv vars a x)
      (es ++ [if a.moved then .move else .copy] ++ [.move])
    rw [ObjVec.resize, param_run mv a l rest vars es x h]
    simp only [StaticVector.capacity, hcapa, gt_iff_lt]
    rw [if_neg (c := l.length + rest.length < n) (by omega), if_pos hn, ObjVec.log]
    simp only [hu, Outcome.bind_ok, Outcome.pure_eq, ObjVec.finish, ObjVec.log, hev]
    simp only [List.append_assoc, hlen, restAfter]
  · rw [ObjVec.resize, param_run mv a l rest vars es x h]
    simp only [StaticVector.capacity, hcapa, gt_iff_lt]
    rw [if_pos (c := l.length + rest.length < n) (by omega), if_neg hn]
    simp only [ObjVec.log, hlen, List.append_assoc]

/-- C183, what holds of every argument: it is handed over first; then the vector is resized with the value the argument had, or
the call throws.  Nothing else is changed. -/
theorem c183_effect_partial (cap : Nat) (hcap : cap < 2 ^ 64) (mv : α → α) (s : ObjVec α) (l : List α)
    (hs : Shows cap s.vec l) (n : Nat) (a : ObjArg) (x : α) (ha : NamesValue l s.vars a.ref x) :
    let r := ObjVec.resize mv n a s
    r.2.vars = varsAfter mv s.vars a x ∧
    (n ≤ cap → r.1 = .ok () ∧ Shows cap r.2.vec (resized (contentsAfter mv l a x) n x)) ∧
    (cap < n → r.1 = .throw (.lengthError "static_vector: new size exceeds max size") ∧
      Shows cap r.2.vec (contentsAfter mv l a x)) := by
  intro r
  have hlen := contentsAfter_length mv l a x
  obtain ⟨⟨data, cnt⟩, vars, es⟩ := s
  obtain ⟨rest, h1, h2, h3⟩ := shows_holds hs
  simp only at h1 h2 h3 ha
  subst h1 h2
  have hc : l.length + rest.length = cap := by rw [← h3]; simp
  have hr : r = _ := resize_run mv n a l rest vars es x ha
  rw [hc] at hr
  by_cases hn : n ≤ cap
  · rw [if_pos hn] at hr
    have hlen' : (resized (contentsAfter mv l a x) n x).length = n := by simp [resized, hlen]; omega
    refine ⟨by rw [hr], fun _ => ⟨by rw [hr], ?_⟩, fun h => by omega⟩
    rw [hr]
    refine StaticVector.holds_shows hcap ⟨restAfter l rest n, rfl, hlen'.symm, ?_⟩
    simp only [List.length_append, List.length_map, hlen', restAfter]
    split
    · simp; omega
    · simp; omega
  · rw [if_neg hn] at hr
    refine ⟨by rw [hr], fun h => absurd h hn, fun _ => ⟨by rw [hr], ?_⟩⟩
    rw [hr]
    exact StaticVector.holds_shows hcap ⟨rest, rfl, hlen.symm, by simp [hlen, hc]⟩

/-- C183: an argument that is not moved from may be any object, an element of the vector as well as another: the result is that
of a value, and the object's variable stays as it was. -/
theorem c183_same_as_copy (cap : Nat) (hcap : cap < 2 ^ 64 - 1) (mv : α → α) (s : ObjVec α) (l : List α)
    (hs : Shows cap s.vec l) (ref : ObjRef) (x : α) (ha : NamesValue l s.vars ref x) :
    (∀ n r, r = ObjVec.resize mv n ⟨false, ref⟩ s →
      r.2.vars = s.vars ∧
      (n ≤ cap → r.1 = .ok () ∧ Shows cap r.2.vec (resized l n x)) ∧
      (cap < n → r.1 = .throw (.lengthError "static_vector: new size exceeds max size") ∧ Shows cap r.2.vec l)) ∧
    (∀ r, r = ObjVec.pushBack mv ⟨false, ref⟩ s →
      r.2.vars = s.vars ∧
      (l.length < cap → r.1 = .ok () ∧ Shows cap r.2.vec (l ++ [x])) ∧
      (l.length = cap → r.1 = .throw (.lengthError "static_vector: new size exceeds max size") ∧ Shows cap r.2.vec l)) := by
  have key := fun n => c183_effect_partial cap (by omega) mv s l hs n ⟨false, ref⟩ x ha
  have hle : l.length ≤ cap := by
    obtain ⟨rest, h1, h2, h3⟩ := shows_holds hs
    rw [← h3, h1]; simp
  refine ⟨fun n r hr => by subst hr; exact key n, fun r hr => ?_⟩
  have hsz : (s.vec.size + 1) % 2 ^ 64 = l.length + 1 := by
    rw [hs.1]; omega
  have hk := key (l.length + 1)
  rw [ObjVec.pushBack, hsz] at hr
  subst hr
  refine ⟨hk.1, fun h => ?_, fun h => hk.2.2 (by omega)⟩
  have := hk.2.1 (by omega)
  rwa [show resized (contentsAfter mv l ⟨false, ref⟩ x) (l.length + 1) x = l ++ [x] by
    simp [contentsAfter, resized, List.take_of_length_le (by omega : l.length ≤ l.length + 1)]] at this

/-- C183 is false of arguments that are moved from: a call that throws has taken the value away, and no element has it.  The
same goes for a call that needs no value. -/
theorem c183_refuted_lost (cap : Nat) (hcap : cap < 2 ^ 64 - 1) (mv : α → α) (s : ObjVec α) (l : List α)
    (hs : Shows cap s.vec l) (i : Nat) :
    (∀ n, cap < n → (ObjVec.resize mv n ⟨true, .var i⟩ s).1 = .throw (.lengthError "static_vector: new size exceeds max size") ∧
      (ObjVec.resize mv n ⟨true, .var i⟩ s).2.vars i = mv (s.vars i) ∧
      Shows cap (ObjVec.resize mv n ⟨true, .var i⟩ s).2.vec l) ∧
    (∀ n, n ≤ l.length → (ObjVec.resize mv n ⟨true, .var i⟩ s).1 = .ok () ∧
      (ObjVec.resize mv n ⟨true, .var i⟩ s).2.vars i = mv (s.vars i) ∧
      Shows cap (ObjVec.resize mv n ⟨true, .var i⟩ s).2.vec (l.take n)) ∧
    (l.length = cap →
      (ObjVec.pushBack mv ⟨true, .var i⟩ s).1 = .throw (.lengthError "static_vector: new size exceeds max size") ∧
      (ObjVec.pushBack mv ⟨true, .var i⟩ s).2.vars i = mv (s.vars i) ∧
      Shows cap (ObjVec.pushBack mv ⟨true, .var i⟩ s).2.vec l) := by
  have key := fun n => c183_effect_partial cap (by omega) mv s l hs n ⟨true, .var i⟩ (s.vars i) rfl
  have hle : l.length ≤ cap := by
    obtain ⟨rest, h1, h2, h3⟩ := shows_holds hs
    rw [← h3, h1]; simp
  have first : ∀ n, cap < n →
      (ObjVec.resize mv n ⟨true, .var i⟩ s).1 = .throw (.lengthError "static_vector: new size exceeds max size") ∧
      (ObjVec.resize mv n ⟨true, .var i⟩ s).2.vars i = mv (s.vars i) ∧
      Shows cap (ObjVec.resize mv n ⟨true, .var i⟩ s).2.vec l := by
    intro n hn
    refine ⟨((key n).2.2 hn).1, ?_, ((key n).2.2 hn).2⟩
    rw [(key n).1]; simp [varsAfter]
  refine ⟨first, fun n hn => ?_, fun h => ?_⟩
  · have h := (key n).2.1 (by omega)
    refine ⟨h.1, ?_, ?_⟩
    · rw [(key n).1]; simp [varsAfter]
    · have h2 := h.2
      simp only [contentsAfter, resized, (by omega : n - l.length = 0), List.replicate_zero, List.append_nil] at h2
      exact h2
  · have hsz : (s.vec.size + 1) % 2 ^ 64 = l.length + 1 := by rw [hs.1]; omega
    simp only [ObjVec.pushBack, hsz]
    exact first _ (by omega)

/-- The slots behind the elements that hold objects nevertheless, among the next `m`. -/
def leftOver (v : StaticVector α) (m : Nat) : Nat := ((v.data.drop v.count).take m).countP Option.isSome

private theorem count_filled (e : ObjEv) (mid : List (Option α)) :
    (mid.flatMap ObjVec.slotFilled).count e =
      match e with
      | .default => 0
      | .copy => mid.length
      | .move => mid.length - mid.countP Option.isSome
      | .moveAssign => mid.countP Option.isSome
      | .destroy => mid.length
      | .copyAssign => 0
      | .swap => 0 := by
  induction mid with
  | nil => cases e <;> rfl
  | cons o mid ih =>
    have hle : mid.countP Option.isSome ≤ mid.length := List.countP_le_length
    simp only [List.flatMap_cons, List.count_append, ih]
    cases o <;> cases e <;> simp [ObjVec.slotFilled] <;> omega

/-- C183, what is done with objects: the copies, moves, assignments and destructions of every call that is given an argument.
Growing by `m` makes `m` copies of the argument's value, apart from the one that initialises the parameter. -/
theorem c183_counts_partial (cap : Nat) (mv : α → α) (s : ObjVec α) (l : List α)
    (hs : Shows cap s.vec l) (n : Nat) (a : ObjArg) (x : α) (ha : NamesValue l s.vars a.ref x) :
    ∃ es, (ObjVec.resize mv n a s).2.events = s.events ++ es ∧
      es.count .default = 0 ∧
      es.count .copy = (if a.moved then 0 else 1) + (if n ≤ cap then n - l.length else 0) ∧
      es.count .moveAssign = (if n ≤ cap then leftOver s.vec (n - l.length) else 0) ∧
      es.count .move + es.count .moveAssign = (if a.moved then 1 else 0) +
        (if n ≤ cap then 1 + (if l.length < n then 1 + (n - l.length) else 0) else 0) ∧
      es.count .destroy = 1 + (if n ≤ cap then 1 + (if l.length < n then 1 + (n - l.length) else l.length - n) else 0) := by
  obtain ⟨⟨data, cnt⟩, vars, es⟩ := s
  obtain ⟨rest, h1, h2, h3⟩ := shows_holds hs
  simp only at h1 h2 h3 ha
  subst h1 h2
  have hc : l.length + rest.length = cap := by rw [← h3]; simp
  have hr := resize_run mv n a l rest vars es x ha
  rw [hc] at hr
  by_cases hn : n ≤ cap
  · rw [if_pos hn] at hr
    rw [hr]
    refine ⟨_, rfl, ?_⟩
    have hleft : leftOver ⟨l.map some ++ rest, l.length⟩ (n - l.length) =
        (rest.take (n - l.length)).countP Option.isSome := by
      simp [leftOver]
    have hle := @List.countP_le_length _ Option.isSome (rest.take (n - l.length))
    simp only [if_pos hn, hleft, ObjVec.resizeEvents]
    by_cases hg : l.length < n
    · have hlen : (rest.take (n - l.length)).length = n - l.length := by simp; omega
      simp only [hg, if_true, List.count_append, count_filled, hlen] at hle ⊢
      cases a.moved <;> simp <;> omega
    · have h0 : n - l.length = 0 := by omega
      simp only [hg, if_false, List.count_append, List.count_replicate, h0]
      cases a.moved <;> simp <;> omega
  · rw [if_neg hn] at hr
    rw [hr]
    refine ⟨_, rfl, ?_⟩
    simp only [if_neg hn]
    cases a.moved <;> simp

/-- C183 is false of the number of copies: `push_back(x)` makes two and `push_back(std::move(x))` makes one, for every vector
with room and every object. -/
theorem c183_refuted_copies (cap : Nat) (hcap : cap < 2 ^ 64 - 1) (mv : α → α) (s : ObjVec α) (l : List α)
    (hs : Shows cap s.vec l) (hroom : l.length < cap) (a : ObjArg) (x : α) (ha : NamesValue l s.vars a.ref x) :
    ∃ es, (ObjVec.pushBack mv a s).2.events = s.events ++ es ∧ es.count .copy = if a.moved then 1 else 2 := by
  have hsz : (s.vec.size + 1) % 2 ^ 64 = l.length + 1 := by rw [hs.1]; omega
  obtain ⟨es, h1, -, h2, -⟩ := c183_counts_partial cap mv s l hs (l.length + 1) a x ha
  refine ⟨es, by rw [ObjVec.pushBack, hsz]; exact h1, ?_⟩
  rw [h2, if_pos (c := l.length + 1 ≤ cap) (by omega)]
  cases a.moved <;> simp

/-- The objects made. -/
def objectsMade (es : List ObjEv) : Nat := es.count .default + es.count .copy + es.count .move

/-- The elements alive. -/
def objectsAlive (v : StaticVector α) : Nat := v.data.countP Option.isSome

/-- Objects made, less those destroyed and those alive. -/
def bal (s : ObjVec α) : Int := (objectsMade s.events : Int) - s.events.count .destroy - objectsAlive s.vec

theorem bal_log (es : List ObjEv) (s : ObjVec α) :
    bal (s.log es) = bal s + objectsMade es - es.count .destroy := by
  simp only [bal, ObjVec.log, objectsMade, List.count_append]; omega

private theorem alive_set (d : List (Option α)) (k : Nat) (old new : Option α) (h : d[k]? = some old) :
    ((d.set k new).countP Option.isSome : Int) = d.countP Option.isSome - (if old.isSome then 1 else 0) +
      (if new.isSome then 1 else 0) := by
  induction d generalizing k with
  | nil => simp at h
  | cons o d ih =>
    cases k with
    | zero =>
      simp only [List.getElem?_cons_zero, Option.some.injEq] at h
      subst h
      cases o <;> cases new <;> simp
    | succ k =>
      simp only [List.getElem?_cons_succ] at h
      have := ih k h
      simp only [List.set_cons_succ, List.countP_cons]
      push_cast
      omega

private theorem bal_fill (x : α) : ∀ (n pos : Nat) (s t : ObjVec α), ObjVec.fill x pos n s = .ok t → bal t = bal s := by
  intro n
  induction n with
  | zero => intro pos s t h; cases h; rfl
  | succ n ih =>
    intro pos s t h
    rw [ObjVec.fill] at h
    split at h
    · cases h
    · rename_i old hold
      rw [ih _ _ _ h, bal_log]
      have := alive_set s.vec.data pos old (some x) hold
      cases old <;> simp [bal, objectsMade, objectsAlive] at this ⊢ <;> omega

private theorem bal_reset : ∀ (n pos : Nat) (s t : ObjVec α), ObjVec.reset pos n s = .ok t → bal t = bal s := by
  intro n
  induction n with
  | zero => intro pos s t h; cases pos <;> (cases h; rfl)
  | succ n ih =>
    intro pos s t h
    cases pos with
    | zero => cases h
    | succ pos =>
      rw [ObjVec.reset] at h
      split at h
      · cases h
      · rename_i old hold
        rw [ih _ _ _ h, bal_log]
        have := alive_set s.vec.data pos old none hold
        cases old <;> simp [bal, objectsMade, objectsAlive] at this ⊢ <;> omega

private theorem bal_unsafeResize (n : Nat) (x : α) (s t : ObjVec α) (h : ObjVec.unsafeResize n x s = .ok t) : bal t = bal s := by
  have hcount : ∀ u : ObjVec α, bal { u with vec := { u.vec with count := n } } = bal u := fun _ => rfl
  unfold ObjVec.unsafeResize at h
  split at h
  · cases hf : ObjVec.fill x s.vec.count (n - s.vec.size) (s.log [.move]) with
    | ok u =>
      simp only [ObjVec.alloc, hf, Outcome.bind_ok, Outcome.pure_eq] at h
      cases h
      rw [hcount, bal_log, bal_fill x _ _ _ _ hf, bal_log]
      simp [objectsMade]
    | _ => simp only [ObjVec.alloc, hf] at h; cases h
  · split at h
    · cases hf : ObjVec.reset s.vec.count (s.vec.size - n) s with
      | ok u =>
        simp only [hf, Outcome.bind_ok, Outcome.pure_eq] at h
        cases h
        rw [hcount, bal_reset _ _ _ _ hf]
      | _ => simp only [hf] at h; cases h
    · cases h
      exact hcount s

private theorem fill_no_throw (x : α) : ∀ (n pos : Nat) (s : ObjVec α) (e : Exc), ObjVec.fill x pos n s ≠ .throw e := by
  intro n
  induction n with
  | zero => intro pos s e h; cases h
  | succ n ih =>
    intro pos s e h
    rw [ObjVec.fill] at h
    split at h
    · cases h
    · exact ih _ _ _ h

private theorem reset_no_throw : ∀ (n pos : Nat) (s : ObjVec α) (e : Exc), ObjVec.reset pos n s ≠ .throw e := by
  intro n
  induction n with
  | zero => intro pos s e h; cases pos <;> cases h
  | succ n ih =>
    intro pos s e h
    cases pos with
    | zero => cases h
    | succ pos =>
      rw [ObjVec.reset] at h
      split at h
      · cases h
      · exact ih _ _ _ h

private theorem unsafeResize_no_throw (n : Nat) (x : α) (s : ObjVec α) (e : Exc) : ObjVec.unsafeResize n x s ≠ .throw e := by
  intro h
  unfold ObjVec.unsafeResize at h
  split at h
  · cases hf : ObjVec.fill x s.vec.count (n - s.vec.size) (s.log [.move]) with
    | throw e => exact fill_no_throw _ _ _ _ _ hf
    | _ => simp only [ObjVec.alloc, hf] at h; cases h
  · split at h
    · cases hf : ObjVec.reset s.vec.count (s.vec.size - n) s with
      | throw e => exact reset_no_throw _ _ _ _ hf
      | _ => simp only [hf] at h; cases h
    · cases h

private theorem bal_param (mv : α → α) (a : ObjArg) (s : ObjVec α) (x : α) (t : ObjVec α)
    (h : ObjVec.param mv a s = .ok (x, t)) : bal t = bal s + 1 := by
  obtain ⟨moved, ref⟩ := a
  cases ref with
  | var i =>
    cases moved <;> (cases h; simp [bal, ObjVec.log, ObjVec.write, objectsMade, objectsAlive]; omega)
  | elem k =>
    simp only [ObjVec.param, ObjVec.read, StaticVector.index] at h
    split at h
    · rename_i y hy
      cases moved
      · cases h
        rw [bal_log]; simp [objectsMade]
      · cases h
        rw [bal_log]
        have := alive_set s.vec.data k (some x) (some (mv x)) hy
        simp [bal, ObjVec.write, objectsMade, objectsAlive] at this ⊢
        omega
    · cases h

theorem bal_step (d : α) (mv : α → α) (op : ObjVec.Op) (s : ObjVec α)
    (h : (ObjVec.step d mv op s).1 = .ok () ∨ ∃ e, (ObjVec.step d mv op s).1 = .throw e) :
    bal (ObjVec.step d mv op s).2 = bal s := by
  have hres : ∀ n a, ((ObjVec.resize mv n a s).1 = .ok () ∨ ∃ e, (ObjVec.resize mv n a s).1 = .throw e) →
      bal (ObjVec.resize mv n a s).2 = bal s := by
    intro n a h
    rw [ObjVec.resize] at h ⊢
    split
    · rename_i x t hp
      have h1 := bal_param mv a s x t hp
      simp only [hp] at h
      split
      · rw [bal_log, h1]; simp [objectsMade]
      · rename_i hn
        rw [if_neg hn] at h
        cases hu : ObjVec.unsafeResize n x (t.log [.move]) with
        | ok u =>
          simp only [Outcome.bind_ok, Outcome.pure_eq, ObjVec.finish]
          rw [bal_log, bal_unsafeResize _ _ _ _ hu, bal_log, h1]
          simp [objectsMade]; omega
        | throw e => exact absurd hu (unsafeResize_no_throw _ _ _ _)
        | ub => rw [hu] at h; rcases h with h | ⟨e, h⟩ <;> cases h
        | terminate => rw [hu] at h; rcases h with h | ⟨e, h⟩ <;> cases h
        | diverge => rw [hu] at h; rcases h with h | ⟨e, h⟩ <;> cases h
    all_goals rfl
  cases op with
  | pushBack a => exact hres _ _ h
  | resize n a => exact hres _ _ h
  | resizeDefault n =>
    simp only [ObjVec.step, ObjVec.resizeDefault] at h ⊢
    split
    · rfl
    · rename_i hn
      rw [if_neg hn] at h
      cases hu : ObjVec.unsafeResize n d (s.log [.default]) with
      | ok u =>
        simp only [Outcome.bind_ok, Outcome.pure_eq, ObjVec.finish]
        rw [bal_log, bal_unsafeResize _ _ _ _ hu, bal_log]
        simp [objectsMade]
      | _ => rfl
  | clear => rfl

/-- C183: every object made in a program (parameters and temporaries included) is destroyed exactly once: what has not been
destroyed is alive in the vector, and the end of the vector destroys that.  This holds also if calls throw
`std::length_error`. -/
theorem c183_destroyed (cap : Nat) (d : α) (mv : α → α) (vars : Nat → α) (ops : List ObjVec.Op) :
    let r := St.outcomes (ObjVec.step d mv) ops ⟨StaticVector.empty cap, vars, []⟩
    (∀ o ∈ r.1, o = .ok () ∨ ∃ e, o = .throw e) →
    objectsMade r.2.events = r.2.events.count .destroy + objectsAlive r.2.vec ∧
    objectsMade (ObjVec.destruct r.2).events = (ObjVec.destruct r.2).events.count .destroy ∧
    objectsAlive (ObjVec.destruct r.2).vec = 0 := by
  intro r
  have hgo : ∀ (ops : List ObjVec.Op) (s : ObjVec α),
      (∀ o ∈ (St.outcomes (ObjVec.step d mv) ops s).1, o = .ok () ∨ ∃ e, o = .throw e) →
      bal (St.outcomes (ObjVec.step d mv) ops s).2 = bal s := by
    intro ops
    induction ops with
    | nil => intro s _; rfl
    | cons op ops ih =>
      intro s h
      rw [St.outcomes] at h ⊢
      simp only [List.mem_cons, forall_eq_or_imp] at h
      simp only
      rw [ih _ h.2, bal_step d mv op s h.1]
  intro h
  have hb : bal r.2 = 0 := by
    rw [hgo ops _ h]
    simp [bal, objectsMade, objectsAlive, StaticVector.empty]
  have h1 : objectsMade r.2.events = r.2.events.count .destroy + objectsAlive r.2.vec := by
    simp only [bal] at hb; omega
  have hd : ∀ data : List (Option α), ((data.flatMap fun o => if o.isSome then [ObjEv.destroy] else []).count .destroy =
      data.countP Option.isSome) ∧ objectsMade (data.flatMap fun o => if o.isSome then [ObjEv.destroy] else []) = 0 := by
    intro data
    induction data with
    | nil => exact ⟨rfl, rfl⟩
    | cons o data ih =>
      obtain ⟨ih1, ih2⟩ := ih
      simp only [objectsMade] at ih2 ⊢
      cases o <;> simp [List.flatMap_cons, List.count_append] at ih1 ih2 ⊢ <;> omega
  have he : (ObjVec.destruct r.2).events =
      r.2.events ++ r.2.vec.data.flatMap fun o => if o.isSome then [ObjEv.destroy] else [] := rfl
  obtain ⟨hd1, hd2⟩ := hd r.2.vec.data
  refine ⟨h1, ?_, ?_⟩
  · rw [he]
    simp only [objectsMade, objectsAlive, List.count_append] at h1 hd1 hd2 ⊢
    omega
  · simp [ObjVec.destruct, ObjVec.log, objectsAlive]

-- a vector of three with the elements 5 and 6; the variables hold 10, 11, 12, ...; moving leaves 0
private def demo : ObjVec Nat := ⟨⟨[some 5, some 6, none], 2⟩, fun i => 10 + i, []⟩

example : (ObjVec.pushBack (fun _ => 0) ⟨false, .elem 0⟩ demo).2.vec = ⟨[some 5, some 6, some 5], 3⟩ ∧
    (ObjVec.pushBack (fun _ => 0) ⟨false, .elem 0⟩ demo).2.events =
      [.copy, .move, .move, .copy, .move, .destroy, .destroy, .destroy, .destroy] := by decide
example : (ObjVec.pushBack (fun _ => 0) ⟨true, .elem 0⟩ demo).2.vec = ⟨[some 0, some 6, some 5], 3⟩ := by decide
example : (ObjVec.resize (fun _ => 0) 4 ⟨true, .var 1⟩ demo).1 =
      .throw (.lengthError "static_vector: new size exceeds max size") ∧
    (ObjVec.resize (fun _ => 0) 4 ⟨true, .var 1⟩ demo).2.vars 1 = 0 ∧ demo.vars 1 = 11 := by decide
example : (ObjVec.resize (fun _ => 0) 1 ⟨false, .elem 1⟩ demo).2.vec = ⟨[some 5, none, none], 1⟩ := by decide
-- after clear() the old elements are assigned to
example : (ObjVec.pushBack (fun _ => 0) ⟨true, .var 0⟩ (ObjVec.clear demo).2).2.events =
    [.move, .move, .move, .copy, .moveAssign, .destroy, .destroy, .destroy, .destroy] := by decide

end Wite.Props
