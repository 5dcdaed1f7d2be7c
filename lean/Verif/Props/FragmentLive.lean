import Mathlib.Data.List.Forall2
import Verif.Lemmas.FragmentString
import Verif.Model.FragmentLive

/-!
# C155: fragment strings and the memory they point to

`Covers mem f t` and `CString mem f t` describe memory: where the fragment points there are the characters `t`, and in
the second case they are a C string.  `Made mem f t` says what the constructor does.
-/

namespace Wite.Props

open Wite Wite.FragLive

variable {C : Type}

/-- The characters that the fragment covers are `t` now. -/
structure Covers (mem : Mem C) (f : Frag) (t : List C) : Prop where
  len : f.len = t.length
  at_ : ∀ k c, t[k]? = some c → ∃ p s, f.ptr = some p ∧ mem p.1 = some s ∧ s[p.2 + k]? = some c

/-- The fragment covers `t`, which has no zero in it and is followed by one. -/
structure CString [Zero C] (mem : Mem C) (f : Frag) (t : List C) : Prop where
  len : f.len = t.length
  clean : 0 ∉ t
  ended : ∃ p s post, f.ptr = some p ∧ mem p.1 = some s ∧ s.drop p.2 = t ++ 0 :: post

theorem CString.covers [Zero C] {mem : Mem C} {f : Frag} {t : List C} (h : CString mem f t) : Covers mem f t := by
  refine ⟨h.len, fun k c hk => ?_⟩
  obtain ⟨p, s, post, hp, hs, he⟩ := h.ended
  refine ⟨p, s, hp, hs, ?_⟩
  have hlt := (List.getElem?_eq_some_iff.mp hk).1
  rw [← List.getElem?_drop, he, List.getElem?_append_left hlt, hk]

private theorem scan_ok [DecidableEq C] [Zero C] (t post : List C) (h : 0 ∉ t) : scan (t ++ 0 :: post) = .ok t := by
  induction t with
  | nil => simp [scan]
  | cons c cs ih =>
    rw [List.mem_cons, not_or] at h
    rw [List.cons_append, scan, if_neg (fun e => h.1 e.symm), ih h.2]
    rfl

private theorem scan_some [DecidableEq C] [Zero C] : ∀ (s t : List C), scan s = .ok t → 0 ∉ t ∧ ∃ post, s = t ++ 0 :: post := by
  intro s
  induction s with
  | nil => intro t h; cases h
  | cons c cs ih =>
    intro t h
    rw [scan] at h
    split at h
    · rename_i hc
      cases h
      exact ⟨by simp, cs, by rw [hc]; rfl⟩
    · rename_i hc
      cases hs : scan cs with
      | ok r =>
        rw [hs] at h
        cases h
        obtain ⟨h1, post, h2⟩ := ih r hs
        refine ⟨?_, post, by rw [h2]; rfl⟩
        rw [List.mem_cons, not_or]
        exact ⟨fun e => hc e.symm, h1⟩
      | _ => rw [hs] at h; cases h

private theorem load_ub {mem : Mem C} {p : Ptr} {k : Nat} (h : mem p.1 = none) : load mem p k = .ub := by
  simp [load, h]

private theorem length_shape (fs : FragStr) : Str.length (shape fs) = length fs := by
  induction fs with
  | nil => rfl
  | cons f fs ih => simp only [shape, List.map_cons, Str.length, length] at ih ⊢; rw [ih]; simp [Str.Frag.chars]

private theorem length_flatten {mem : Mem C} {fs : FragStr} {ts : List (List C)} (h : List.Forall₂ (Covers mem) fs ts) :
    ts.flatten.length = length fs := by
  induction h with
  | nil => rfl
  | cons hf _ ih => rw [List.flatten_cons, List.length_append, ih, length, hf.len]

private theorem length_take {mem : Mem C} {fs : FragStr} {ts : List (List C)} (h : List.Forall₂ (Covers mem) fs ts) (i : Nat) :
    (ts.take i).flatten.length = Str.length ((shape fs).take i) := by
  rw [shape, ← List.map_take]
  exact (length_flatten (List.forall₂_take i h)).trans (length_shape _).symm

private theorem shape_get {fs : FragStr} {i : Nat} {f : Frag} (h : fs[i]? = some f) :
    (shape fs)[i]? = some (some (List.replicate f.len ())) := by
  simp [shape, h]

private theorem regular_shape {fs : FragStr} (h0 : fs ≠ []) (h : ∀ f ∈ fs.dropLast, f.len ≠ 0) : Str.Regular (shape fs) := by
  refine ⟨by simpa [shape] using h0, fun g hg => ?_⟩
  rw [shape, ← List.map_dropLast] at hg
  obtain ⟨f, hf, rfl⟩ := List.mem_map.mp hg
  have := h f hf
  simp only [Str.Frag.chars, ne_eq, List.replicate_eq_nil_iff]
  exact this

private theorem shape_at {fs : FragStr} {it : Str.It} {p : Nat} (h : Str.At (shape fs) it p) :
    ∃ f, fs[it.frag]? = some f ∧ (it.cur < f.len ∨ (it.frag + 1 = fs.length ∧ it.cur = f.len)) ∧
      p = Str.length ((shape fs).take it.frag) + it.cur := by
  obtain ⟨s, hs, hc, hp⟩ := h
  have hlt := (List.getElem?_eq_some_iff.mp hs).1
  rw [shape, List.length_map] at hlt
  refine ⟨fs[it.frag], List.getElem?_eq_getElem hlt, ?_, hp⟩
  rw [shape_get (List.getElem?_eq_getElem hlt)] at hs
  cases hs
  simpa [Str.Frag.chars, shape] using hc

private theorem deref_eq {mem : Mem C} {b : Build} {fs : FragStr} {it : Str.It} {f : Frag} (h : fs[it.frag]? = some f)
    (hc : it.cur < f.len) : deref mem b fs it = match f.ptr with
      | none => .ub
      | some p => load mem p it.cur := by
  have ha : debugAssert b (decide (it.cur < f.len)) "fragment_string: dereference iterator out-of-range" = .ok () := by
    cases b <;> simp [debugAssert, hc]
  simp only [deref, h, ha, Outcome.bind_ok]
  cases f.ptr <;> rfl

private theorem flatten_get {ts : List (List C)} {i k : Nat} {t : List C} (h : ts[i]? = some t) (hk : k < t.length) :
    ts.flatten[(ts.take i).flatten.length + k]? = t[k]? := by
  have hi := List.getElem?_eq_some_iff.mp h
  have hd : ts = ts.take i ++ t :: ts.drop (i + 1) := by
    rw [← hi.2, ← List.drop_eq_getElem_cons hi.1, List.take_append_drop]
  conv_lhs => rw [hd]
  rw [List.flatten_append, List.flatten_cons]
  rw [show (List.take i (List.take i ts ++ t :: List.drop (i + 1) ts)) = ts.take i by rw [← hd]]
  rw [List.getElem?_append_right (by omega), Nat.add_sub_cancel_left, List.getElem?_append_left hk]

private theorem live_tracks {mem : Mem C} {fs : FragStr} {ts : List (List C)} (h : List.Forall₂ (Covers mem) fs ts)
    (hr : Str.Regular (shape fs)) (b : Build) : Str.Tracks (fwd mem b fs) (Str.At (shape fs)) ts.flatten := by
  have hl : (Str.text (shape fs)).length = ts.flatten.length := by
    rw [← Str.length_text, length_shape, length_flatten h]
  have ht := Str.fwd_tracks hr b
  refine ⟨fun hi => ?_, fun {i p} hi hp => ?_, fun hi hp => ?_, fun hi d h1 h2 h3 h4 => ?_, ht.diff, ht.eq⟩
  · rw [← hl]; exact ht.le hi
  · have hle := hi.le
    obtain ⟨f, hf, hc, hpe⟩ := shape_at hi
    have hlen := length_shape fs
    rw [length_flatten h] at hp
    have hlt : i.cur < f.len := by
      rcases hc with hc | ⟨hc, hd⟩
      · exact hc
      · have h1 := Str.length_take_succ (shape_get hf)
        rw [Str.length_take_all (shape fs) (i := i.frag + 1) (by simp [shape]; omega)] at h1
        simp [Str.Frag.chars] at h1
        omega
    have hti : i.frag < ts.length := by
      rw [← h.length_eq]; exact (List.getElem?_eq_some_iff.mp hf).1
    have hcov : Covers mem f ts[i.frag] := by
      have := List.Forall₂.get h (List.getElem?_eq_some_iff.mp hf).1 hti
      simpa [← (List.getElem?_eq_some_iff.mp hf).2] using this
    have hk : i.cur < ts[i.frag].length := by rw [← hcov.len]; exact hlt
    obtain ⟨q, s, hq, hs, hg⟩ := hcov.at_ i.cur _ (List.getElem?_eq_getElem hk)
    have hfl := flatten_get (List.getElem?_eq_getElem hti) hk
    rw [length_take h, ← hpe, List.getElem?_eq_getElem hk] at hfl
    show deref mem b fs i = _
    rw [deref_eq hf hlt, hq]
    simp only [load, hs, hg]
    obtain ⟨_, e⟩ := List.getElem_of_getElem? hfl
    rw [e]
  · exact ht.next hi (by rw [hl]; exact hp)
  · exact ht.plus hi d h1 h2 h3 (by rw [hl]; exact h4)

private theorem chars_ok {mem : Mem C} {f : Frag} {t : List C} (h : Covers mem f t) :
    ∀ n k, k + n = t.length → chars mem f.ptr n k = .ok (t.drop k) := by
  intro n
  induction n with
  | zero => intro k hk; rw [chars, List.drop_of_length_le (by omega)]
  | succ n ih =>
    intro k hk
    have hlt : k < t.length := by omega
    obtain ⟨p, s, hp, hs, hg⟩ := h.at_ k _ (List.getElem?_eq_getElem hlt)
    have := ih (k + 1) (by omega)
    rw [hp] at this
    rw [hp, chars, load, hs]
    simp only [hg]
    rw [Outcome.bind_ok, this, Outcome.bind_ok, List.drop_eq_getElem_cons hlt]
    rfl

/-! ## What a string shows -/

/-- C155 for the characters: whatever has happened to memory, iterating, `at`, `[]` and output give the characters that
are where the fragments point now, and `length()` is their number, as long as only the last fragment is empty. -/
theorem c155_shows_partial (mem : Mem C) (b : Build) (fs : FragStr) (ts : List (List C)) (h : List.Forall₂ (Covers mem) fs ts)
    (h0 : fs ≠ []) (hr : ∀ f ∈ fs.dropLast, f.len ≠ 0) (hsz : length fs < 2 ^ 63) :
    length fs = ts.flatten.length ∧
    forEach mem b fs = .ok ts.flatten ∧
    (∀ fill, print mem fill 0 fs = .ok ts.flatten) ∧
    ∀ i, (∀ hi : i < ts.flatten.length, at' mem b fs i = .ok ts.flatten[i] ∧ index mem b fs i = .ok ts.flatten[i]) ∧
      (ts.flatten.length ≤ i → at' mem b fs i = .throw (.outOfRange "Error: accessing fragment_string beyond end of string")) := by
  have hreg := regular_shape h0 hr
  have htr := live_tracks h hreg b
  have hl := length_flatten h
  obtain ⟨e1, h1⟩ := Str.begin_at hreg
  obtain ⟨l, e2, h2⟩ := Str.end_at hreg.1
  rw [length_shape] at h2
  refine ⟨hl.symm, ?_, ?_, ?_⟩
  · rw [forEach, e1, Outcome.bind_ok, e2, Outcome.bind_ok, htr.readLoop _ _ _ 0 (length fs) h1 h2 (by omega) (by omega), ← hl,
      List.take_length]
    rfl
  · intro fill
    clear h0 hr hsz hreg htr hl h1 h2 e1 e2
    induction h with
    | nil => rfl
    | cons hf _ ih =>
      rw [print, chars_ok hf _ 0 (by rw [hf.len]; omega), Outcome.bind_ok, ih, Outcome.bind_ok]
      simp [Str.insertView]
  · intro i
    refine ⟨fun hi => ?_, fun hi => ?_⟩
    · have hidx : index mem b fs i = .ok ts.flatten[i] := by
        obtain ⟨x, ex, hx⟩ := htr.plus h1 i (by omega) (by omega) (by omega) (by omega)
        rw [show (((0 : Nat) : Int) + i).toNat = i by omega] at hx
        have hd : Str.toDiff i = (i : Int) := by
          rw [Str.toDiff, Nat.mod_eq_of_lt (by omega), if_pos (by omega)]
        have := htr.deref hx hi
        rw [index, e1, Outcome.bind_ok, hd]
        have ex' : Str.plus b (shape fs) ⟨0, 0⟩ (i : Int) = .ok x := ex
        have this' : deref mem b fs x = .ok ts.flatten[i] := this
        rw [ex', Outcome.bind_ok, this']
        rfl
      exact ⟨by rw [at', if_neg (by omega)]; exact hidx, hidx⟩
    · rw [at', if_pos (by omega)]

/-- C155 for output with a width: the texts where the fragments point now, one after another, the first of them filled up
to the width. -/
theorem c155_print_partial (mem : Mem C) (fill : C) (width : Nat) (fs : FragStr) (t : List C) (ts : List (List C))
    (h : List.Forall₂ (Covers mem) fs (t :: ts)) :
    print mem fill width fs = .ok (List.replicate (width - t.length) fill ++ (t ++ ts.flatten)) := by
  have rest : ∀ (fs : FragStr) (ts : List (List C)), List.Forall₂ (Covers mem) fs ts →
      print mem fill 0 fs = .ok ts.flatten := by
    intro fs ts h
    induction h with
    | nil => rfl
    | cons hf _ ih =>
      rw [print, chars_ok hf _ 0 (by rw [hf.len]; omega), Outcome.bind_ok, ih, Outcome.bind_ok]
      simp [Str.insertView]
  cases h with
  | cons hf hs =>
    rw [print, chars_ok hf _ 0 (by rw [hf.len]; omega), Outcome.bind_ok, rest _ _ hs, Outcome.bind_ok]
    simp [Str.insertView]

-- two fragments of one array, printed with a width of four
example : print (C := Nat) (fun n => if n = 0 then some [65, 66, 67] else none) 32 4 [⟨some (0, 0), 1⟩, ⟨some (0, 1), 2⟩] =
    .ok [32, 32, 32, 65, 66, 67] := by decide

private theorem toDiff_small {n : Nat} (h : n < 2 ^ 63) : Str.toDiff n = (n : Int) := by
  rw [Str.toDiff, Nat.mod_eq_of_lt (by omega), if_pos h]

/-- C155 for slices: `substr` and `copy` give parts of the text that is where the fragments point now, with the limits that
C93 has. -/
theorem c155_slices_partial (mem : Mem C) (b : Build) (fs : FragStr) (ts : List (List C)) (h : List.Forall₂ (Covers mem) fs ts)
    (h0 : fs ≠ []) (hr : ∀ f ∈ fs.dropLast, f.len ≠ 0) (hsz : length fs < 2 ^ 63) (pos count : Nat) (hp : pos < length fs) :
    (pos + count < 2 ^ 64 ∨ count = 2 ^ 64 - 1 → substr mem b fs pos count = .ok ((ts.flatten.drop pos).take count)) ∧
    copy mem b fs count pos = .ok (min count (length fs - pos), (ts.flatten.drop pos).take count) := by
  have hreg := regular_shape h0 hr
  have htr := live_tracks h hreg b
  have hl := length_flatten h
  obtain ⟨e1, h1⟩ := Str.begin_at hreg
  obtain ⟨l, e2, h2⟩ := Str.end_at hreg.1
  rw [length_shape] at h2
  obtain ⟨st, est, hst⟩ := htr.plus h1 pos (by omega) (by omega) (by omega) (by omega)
  rw [show (((0 : Nat) : Int) + (pos : Int)).toNat = pos by omega] at hst
  have est' : Str.plus b (shape fs) ⟨0, 0⟩ (pos : Int) = .ok st := est
  refine ⟨fun hw => ?_, ?_⟩
  · rw [substr, if_neg (by omega), e1, Outcome.bind_ok, toDiff_small (n := pos) (by omega)]
    by_cases hc : count = Str.npos ∨ length fs ≤ (pos + count) % 2 ^ 64
    · rw [if_pos hc, e2, Outcome.bind_ok, est', Outcome.bind_ok, htr.readRange hst h2 (by omega), ← hl, List.take_length,
        List.take_of_length_le]
      rw [List.length_drop]
      rcases hc with hc | hc
      · rw [hc, Str.npos]; omega
      · rcases hw with hw | hw
        · rw [Nat.mod_eq_of_lt hw] at hc; omega
        · omega
    · rw [not_or] at hc
      have hw' : pos + count < 2 ^ 64 := by
        rcases hw with hw | hw
        · exact hw
        · exact absurd hw hc.1
      rw [Nat.mod_eq_of_lt hw'] at hc
      obtain ⟨en, een, hen⟩ := htr.plus h1 ((pos + count : Nat) : Int) (by omega) (by omega) (by omega) (by omega)
      rw [show (((0 : Nat) : Int) + ((pos + count : Nat) : Int)).toNat = pos + count by omega] at hen
      have een' : Str.plus b (shape fs) ⟨0, 0⟩ ((pos + count : Nat) : Int) = .ok en := een
      rw [if_neg (by rw [not_or, Nat.mod_eq_of_lt hw']; exact hc), Nat.mod_eq_of_lt hw', toDiff_small (n := pos + count) (by omega), een', Outcome.bind_ok,
        est', Outcome.bind_ok, htr.readRange hst hen (by omega), List.drop_take, Nat.add_sub_cancel_left]
  · rw [copy, if_neg (by omega), e1]
    simp only [Outcome.bind_ok]
    rw [toDiff_small (by omega), est', Outcome.bind_ok, htr.copyN _ _ _ hst (by omega), Outcome.bind_ok]
    congr 2
    rw [← hl, ← List.length_drop, ← List.take_take, List.take_length]

/-- C155 for `to_str()`: it agrees with the rest while every text is a C string as long as it was. -/
theorem c155_to_str_partial [DecidableEq C] [Zero C] (mem : Mem C) (fs : FragStr) (ts : List (List C))
    (h : List.Forall₂ (CString mem) fs ts) : toStr mem fs = .ok ts.flatten := by
  induction h with
  | nil => rfl
  | cons hf _ ih =>
    obtain ⟨p, s, post, hp, hs, he⟩ := hf.ended
    rw [toStr, hp]
    simp only [cstrAt, hs, he, scan_ok _ _ hf.clean, Outcome.bind_ok, ih]
    rfl

/-! ## What the rest of the program may do -/

/-- The action changes a character of the fragment or the zero after it, or frees its memory. -/
def touches (f : Frag) : Act C → Prop
  | .store buf i _ => ∃ off, f.ptr = some (buf, off) ∧ off ≤ i ∧ i ≤ off + f.len
  | .free buf => ∃ off, f.ptr = some (buf, off)
  | .alloc _ _ => False

private theorem drop_set_before (s t post : List C) (off i : Nat) (x c : C) (n : Nat) (hn : n = t.length) (h : s.drop off = t ++ x :: post)
    (hi : ¬(off ≤ i ∧ i ≤ off + n)) : ∃ post', (s.set i c).drop off = t ++ x :: post' := by
  rw [List.drop_set]
  by_cases hlt : i < off
  · rw [if_pos hlt]; exact ⟨post, h⟩
  · rw [if_neg hlt, h]
    refine ⟨post.set (i - off - t.length - 1) c, ?_⟩
    rw [List.set_append_right _ _ (by omega)]
    obtain ⟨m, hm⟩ : ∃ m, i - off - t.length = m + 1 := ⟨i - off - t.length - 1, by omega⟩
    rw [hm]
    simp

private theorem cstring_step [Zero C] {mem : Mem C} {f : Frag} {t : List C} (h : CString mem f t) (a : Act C) (ha : ¬touches f a) :
    CString (a.run mem) f t := by
  obtain ⟨p, s, post, hp, hs, he⟩ := h.ended
  refine ⟨h.len, h.clean, ?_⟩
  cases a with
  | store buf i c =>
    by_cases hb : p.1 = buf
    · obtain ⟨post', hpost⟩ := drop_set_before s t post p.2 i 0 c f.len h.len he
        (fun hh => ha ⟨p.2, by rw [hp, ← hb], hh.1, hh.2⟩)
      subst hb
      exact ⟨p, s.set i c, post', hp, by simp [Act.run, hs], hpost⟩
    · exact ⟨p, s, post, hp, by simp [Act.run, hb, hs], he⟩
  | free buf =>
    by_cases hb : p.1 = buf
    · exact absurd ⟨p.2, by rw [hp, ← hb]⟩ ha
    · exact ⟨p, s, post, hp, by simp [Act.run, hb, hs], he⟩
  | alloc buf cs =>
    by_cases hb : p.1 = buf
    · refine ⟨p, s, post, hp, ?_, he⟩
      subst hb
      simp [Act.run, hs]
    · exact ⟨p, s, post, hp, by simp [Act.run, hb, hs], he⟩

/-- C155 over time: a string whose fragments are C strings keeps its characters, and `to_str()` keeps giving them, through
any actions that leave alone the characters, the zeros after them and the buffers they are in. -/
theorem c155_kept_partial [DecidableEq C] [Zero C] (mem : Mem C) (b : Build) (fs : FragStr) (ts : List (List C))
    (h : List.Forall₂ (CString mem) fs ts) (h0 : fs ≠ []) (hr : ∀ f ∈ fs.dropLast, f.len ≠ 0) (hsz : length fs < 2 ^ 63)
    (as : List (Act C)) (ha : ∀ a ∈ as, ∀ f ∈ fs, ¬touches f a) :
    toStr (runAll as mem) fs = .ok ts.flatten ∧ forEach (runAll as mem) b fs = .ok ts.flatten ∧
    length fs = ts.flatten.length := by
  have key : List.Forall₂ (CString (runAll as mem)) fs ts := by
    induction as generalizing mem with
    | nil => exact h
    | cons a as ih =>
      refine ih (a.run mem) ?_ (fun a' ha' => ha a' (List.mem_cons_of_mem _ ha'))
      have hfa := ha a List.mem_cons_self
      clear ha ih h0 hr hsz
      induction h with
      | nil => exact .nil
      | cons hf _ ih =>
        exact .cons (cstring_step hf a (hfa _ List.mem_cons_self)) (ih (fun f hf => hfa f (List.mem_cons_of_mem _ hf)))
  have hs := c155_shows_partial (runAll as mem) b fs ts (key.imp (fun _ _ hc => hc.covers)) h0 hr hsz
  exact ⟨c155_to_str_partial _ _ _ key, hs.2.1, hs.1⟩

/-- What the constructor and `+` make are such strings: every part is the C string that was there. -/
theorem c155_made [DecidableEq C] [Zero C] (mem : Mem C) :
    (∀ p fs, ofPtr mem (some p) = .ok fs → ∃ t, cstrAt mem p = .ok t ∧ List.Forall₂ (CString mem) fs [t]) ∧
    ∀ l r ts us, List.Forall₂ (CString mem) l ts → List.Forall₂ (CString mem) r us →
      List.Forall₂ (CString mem) (FragLive.concat l r) (ts ++ us) := by
  refine ⟨fun p fs h => ?_, fun l r ts us h1 h2 => List.rel_append h1 h2⟩
  rw [ofPtr] at h
  cases hc : cstrAt mem p with
  | ok t =>
    rw [hc] at h
    cases h
    refine ⟨t, rfl, .cons ⟨rfl, ?_, ?_⟩ .nil⟩
    · rw [cstrAt] at hc
      split at hc
      · cases hc
      · exact (scan_some _ _ hc).1
    · rw [cstrAt] at hc
      split at hc
      · cases hc
      · rename_i s hs
        obtain ⟨_, post, he⟩ := scan_some _ _ hc
        exact ⟨p, s, post, rfl, hs, he⟩
  | _ => rw [hc] at h; cases h

/-! ## What it may not do -/

private theorem covers_one {mem : Mem C} {buf off : Nat} {t pre post : List C} (h : mem buf = some (pre ++ t ++ post))
    (ho : off = pre.length) : Covers mem ⟨some (buf, off), t.length⟩ t := by
  refine ⟨rfl, fun k c hk => ⟨(buf, off), _, rfl, h, ?_⟩⟩
  have hlt := (List.getElem?_eq_some_iff.mp hk).1
  show (pre ++ t ++ post)[off + k]? = _
  rw [List.append_assoc, List.getElem?_append_right (by omega), ho, Nat.add_sub_cancel_left,
    List.getElem?_append_left hlt, hk]

private theorem one_shows {mem : Mem C} {b : Build} {buf off : Nat} {t pre post : List C} (h : mem buf = some (pre ++ t ++ post))
    (ho : off = pre.length) (hsz : t.length < 2 ^ 63) :
    forEach mem b [⟨some (buf, off), t.length⟩] = .ok t := by
  have := (c155_shows_partial mem b [⟨some (buf, off), t.length⟩] [t] (.cons (covers_one h ho) .nil) (by simp)
    (by simp) (by simpa [length] using hsz)).2.1
  simpa using this

private theorem one_made [DecidableEq C] [Zero C] {mem : Mem C} {buf : Nat} {pre t post : List C} (h : mem buf = some (pre ++ t ++ 0 :: post))
    (ht : 0 ∉ t) : ofPtr mem (some (buf, pre.length)) = .ok [⟨some (buf, pre.length), t.length⟩] := by
  rw [ofPtr, cstrAt, h]
  show (scan ((pre ++ t ++ 0 :: post).drop pre.length)).bind _ = _
  rw [List.append_assoc, List.drop_left, scan_ok t post ht]
  rfl

/-- C155 is false: writing a zero into the text a string was made from cuts `to_str()` short, while `length()` and
iteration keep all the characters, the zero among them. -/
theorem c155_refuted_shorter [DecidableEq C] [Zero C] (mem : Mem C) (b : Build) (buf : Nat) (pre t post : List C)
    (h : mem buf = some (pre ++ t ++ 0 :: post)) (ht : 0 ∉ t) (hsz : t.length < 2 ^ 63) (k : Nat) (hk : k < t.length) :
    ∃ fs, ofPtr mem (some (buf, pre.length)) = .ok fs ∧ toStr mem fs = .ok t ∧
      let mem' := (Act.store buf (pre.length + k) 0).run mem
      length fs = t.length ∧ forEach mem' b fs = .ok (t.set k 0) ∧ toStr mem' fs = .ok (t.take k) := by
  have hm : ((Act.store buf (pre.length + k) 0).run mem) buf = some (pre ++ t.set k 0 ++ 0 :: post) := by
    simp only [Act.run, if_true, h, Option.map_some]
    rw [List.append_assoc, List.set_append_right _ _ (by omega), Nat.add_sub_cancel_left, List.set_append_left _ _ hk,
      List.append_assoc]
  refine ⟨_, one_made h ht, ?_, by simp [length], ?_, ?_⟩
  · have := c155_to_str_partial mem [⟨some (buf, pre.length), t.length⟩] [t]
      (.cons ⟨rfl, ht, (buf, pre.length), _, post, rfl, h, by rw [List.append_assoc, List.drop_left]⟩ .nil)
    simpa using this
  · have := one_shows (b := b) hm rfl (by simpa using hsz)
    simpa using this
  · rw [toStr]
    simp only [cstrAt, hm, toStr]
    have : (t.set k 0 ++ 0 :: post) = t.take k ++ 0 :: (t.drop (k + 1) ++ 0 :: post) := by
      rw [List.set_eq_take_append_cons_drop, if_pos hk]
      simp
    rw [List.append_assoc, List.drop_left, this, scan_ok _ _ (fun hh => ht (List.mem_of_mem_take hh))]
    rw [Outcome.bind_ok, Outcome.bind_ok, List.append_nil]
    rfl

/-- Writing any other character into the text changes the string: it is a view, not a copy. -/
theorem c155_changes [DecidableEq C] [Zero C] (mem : Mem C) (b : Build) (buf : Nat) (pre t post : List C)
    (h : mem buf = some (pre ++ t ++ 0 :: post)) (ht : 0 ∉ t) (hsz : t.length < 2 ^ 63) (k : Nat) (hk : k < t.length) (c : C)
    (hc : c ≠ 0) :
    ∃ fs, ofPtr mem (some (buf, pre.length)) = .ok fs ∧ toStr mem fs = .ok t ∧
      let mem' := (Act.store buf (pre.length + k) c).run mem
      forEach mem' b fs = .ok (t.set k c) ∧ toStr mem' fs = .ok (t.set k c) := by
  have hm : ((Act.store buf (pre.length + k) c).run mem) buf = some (pre ++ t.set k c ++ 0 :: post) := by
    simp only [Act.run, if_true, h, Option.map_some]
    rw [List.append_assoc, List.set_append_right _ _ (by omega), Nat.add_sub_cancel_left, List.set_append_left _ _ hk,
      List.append_assoc]
  have hz : 0 ∉ t.set k c := by
    intro hh
    rcases List.mem_or_eq_of_mem_set hh with h1 | h1
    · exact ht h1
    · exact hc h1.symm
  refine ⟨_, one_made h ht, ?_, ?_, ?_⟩
  · have := c155_to_str_partial mem [⟨some (buf, pre.length), t.length⟩] [t]
      (.cons ⟨rfl, ht, (buf, pre.length), _, post, rfl, h, by rw [List.append_assoc, List.drop_left]⟩ .nil)
    simpa using this
  · have := one_shows (b := b) hm rfl (by simpa using hsz)
    simpa using this
  · have := c155_to_str_partial ((Act.store buf (pre.length + k) c).run mem) [⟨some (buf, pre.length), t.length⟩] [t.set k c]
      (.cons ⟨by simp, hz, (buf, pre.length), _, post, rfl, hm, by rw [List.append_assoc, List.drop_left]⟩ .nil)
    simpa using this

/-- And overwriting the zero after the text makes `to_str()` run on into whatever comes next: into more text if there is
another zero, and out of the buffer if not. -/
theorem c155_refuted_longer [DecidableEq C] [Zero C] (mem : Mem C) (b : Build) (buf : Nat) (pre t post : List C)
    (h : mem buf = some (pre ++ t ++ 0 :: post)) (ht : 0 ∉ t) (hsz : t.length < 2 ^ 63) (c : C) (hc : c ≠ 0) :
    ∃ fs, ofPtr mem (some (buf, pre.length)) = .ok fs ∧
      let mem' := (Act.store buf (pre.length + t.length) c).run mem
      length fs = t.length ∧ forEach mem' b fs = .ok t ∧
      (∀ more rest, post = more ++ 0 :: rest → 0 ∉ more → toStr mem' fs = .ok (t ++ c :: more)) ∧
      (0 ∉ post → toStr mem' fs = .ub) := by
  have hm : ((Act.store buf (pre.length + t.length) c).run mem) buf = some (pre ++ t ++ c :: post) := by
    simp only [Act.run, if_true, h, Option.map_some]
    rw [List.append_assoc, List.set_append_right _ _ (by omega), Nat.add_sub_cancel_left, List.set_append_right _ _ (by omega),
      Nat.sub_self, List.append_assoc]
    rfl
  refine ⟨_, one_made h ht, by simp [length], one_shows hm rfl hsz, ?_, ?_⟩
  · intro more rest hp hmore
    rw [toStr]
    simp only [cstrAt, hm, toStr]
    have : (t ++ c :: post) = (t ++ c :: more) ++ 0 :: rest := by rw [hp]; simp
    rw [List.append_assoc, List.drop_left, this, scan_ok _ _ (by simp [ht, hmore, Ne.symm hc])]
    rw [Outcome.bind_ok, Outcome.bind_ok, List.append_nil]
    rfl
  · intro hp
    rw [toStr]
    simp only [cstrAt, hm, toStr]
    rw [List.append_assoc, List.drop_left]
    have hz : 0 ∉ t ++ c :: post := by simp [ht, hp, Ne.symm hc]
    generalize t ++ c :: post = u at hz
    have : scan u = .ub := by
      induction u with
      | nil => rfl
      | cons d ds ih =>
        rw [List.mem_cons, not_or] at hz
        rw [scan, if_neg (fun e => hz.1 e.symm), ih hz.2]
        rfl
    rw [this]
    rfl

/-- Once the memory of one fragment is gone, `to_str()` is undefined, and so is reading any character of that fragment,
while `length()` still counts it.  A string made from `std::string{...}.c_str()` starts out like this. -/
theorem c155_refuted_freed [DecidableEq C] [Zero C] (mem : Mem C) (b : Build) (fs : FragStr) (f : Frag) (hf : f ∈ fs) (buf off : Nat)
    (hp : f.ptr = some (buf, off)) :
    let mem' := (Act.free buf).run mem
    toStr mem' fs = .ub ∧ f.len ≤ length fs ∧
    (0 < f.len → ∀ fill, print mem' fill 0 fs = .ub) ∧
    ∀ it : Str.It, fs[it.frag]? = some f → it.cur < f.len → deref mem' b fs it = .ub := by
  have hm : ((Act.free buf).run mem) buf = none := by simp [Act.run]
  have hcs : ∀ p, cstrAt ((Act.free buf).run mem) p = .ub ∨ ∃ t, cstrAt ((Act.free buf).run mem) p = .ok t := by
    intro p
    rw [cstrAt]
    split
    · exact Or.inl rfl
    · rename_i s _
      generalize s.drop p.2 = u
      induction u with
      | nil => exact Or.inl rfl
      | cons c cs ih =>
        rw [scan]
        split
        · exact Or.inr ⟨_, rfl⟩
        · rcases ih with e | ⟨t, e⟩
          · rw [e]; exact Or.inl rfl
          · rw [e]; exact Or.inr ⟨_, rfl⟩
  have hch : ∀ (p : Option Ptr) n k, chars ((Act.free buf).run mem) p n k = .ub ∨ ∃ t, chars ((Act.free buf).run mem) p n k = .ok t := by
    intro p n
    induction n with
    | zero => intro k; exact Or.inr ⟨_, rfl⟩
    | succ n ih =>
      intro k
      cases p with
      | none => exact Or.inl rfl
      | some q =>
        rw [chars]
        have hl : load ((Act.free buf).run mem) q k = .ub ∨ ∃ c, load ((Act.free buf).run mem) q k = .ok c := by
          rw [load]
          split
          · exact Or.inl rfl
          · split
            · exact Or.inl rfl
            · exact Or.inr ⟨_, rfl⟩
        rcases hl with e | ⟨c, e⟩
        · rw [e]; exact Or.inl rfl
        · rw [e, Outcome.bind_ok]
          rcases ih (k + 1) with e | ⟨t, e⟩
          · rw [e]; exact Or.inl rfl
          · rw [e]; exact Or.inr ⟨_, rfl⟩
  refine ⟨?_, ?_, ?_, ?_⟩
  · induction fs with
    | nil => cases hf
    | cons g gs ih =>
      rw [toStr]
      rcases List.mem_cons.mp hf with rfl | hf'
      · rw [hp]
        simp only [cstrAt, hm]
        rfl
      · cases hg : g.ptr with
        | none => rfl
        | some q =>
          simp only
          rcases hcs q with e | ⟨t, e⟩
          · rw [e]; rfl
          · rw [e, Outcome.bind_ok, ih hf']; rfl
  · induction fs with
    | nil => cases hf
    | cons g gs ih =>
      rw [length]
      rcases List.mem_cons.mp hf with rfl | hf'
      · omega
      · have := ih hf'; omega
  · intro hlen fill
    induction fs with
    | nil => cases hf
    | cons g gs ih =>
      rw [print]
      rcases List.mem_cons.mp hf with rfl | hf'
      · obtain ⟨n, hn⟩ : ∃ n, f.len = n + 1 := ⟨f.len - 1, by omega⟩
        rw [hn, hp, chars, load_ub hm]
        rfl
      · rcases hch g.ptr g.len 0 with e | ⟨t, e⟩
        · rw [e]; rfl
        · rw [e, Outcome.bind_ok, ih hf']; rfl
  · intro it hit hc
    rw [deref_eq hit hc, hp]
    simp only [load, hm]

/-- "ab" and "c" in two buffers: the string they make, a zero written over 'b', and the second buffer freed. -/
example :
    let mem : Mem Int := fun n => if n = 0 then some [97, 98, 0] else if n = 1 then some [7, 99, 0, 100, 0] else none
    let fs : FragStr := [⟨some (0, 0), 2⟩, ⟨some (1, 1), 1⟩]
    ofPtr mem (some (1, 1)) = .ok [⟨some (1, 1), 1⟩] ∧
    toStr mem fs = .ok [97, 98, 99] ∧ forEach mem .debug fs = .ok [97, 98, 99] ∧
    toStr ((Act.store 0 1 0).run mem) fs = .ok [97, 99] ∧
    forEach ((Act.store 0 1 0).run mem) .debug fs = .ok [97, 0, 99] ∧
    toStr ((Act.store 1 2 120).run mem) fs = .ok [97, 98, 99, 120, 100] ∧
    toStr ((Act.free 1).run mem) fs = .ub ∧ at' ((Act.free 1).run mem) .release fs 2 = .ub ∧
    at' ((Act.free 1).run mem) .release fs 1 = .ok 98 := by
  refine ⟨?_, ?_, ?_, ?_, ?_, ?_, ?_, ?_, ?_⟩ <;> decide +kernel

end Wite.Props
