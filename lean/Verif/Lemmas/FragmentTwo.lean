import Verif.Lemmas.FragmentGaps

/-!
# Lemmas about two fragment strings, both with empty fragments
-/

namespace Wite.Str

variable {C : Type}

/-- `std::equal` over two ranges with places that cannot be read.  The first range has one at its end if its end is not recognised. -/
theorem equalLoop_two [DecidableEq C] {σ τ : Type} {I : Iter σ C} {J : Iter τ C} {relI : σ → Nat → Prop} {relJ : τ → Nat → Prop}
    {u t : List C} (badI badJ : Nat → Prop) (stuck : Outcome Bool) {last : σ}
    (heq : ∀ i p, relI i p → p ≤ u.length → (I.eq i last = true ↔ p = u.length ∧ ¬badI p))
    (hderefI : ∀ i p, relI i p → ¬badI p → ∀ h : p < u.length, I.deref i = .ok u[p])
    (hbadI : ∀ i p (f : C → Outcome Bool), relI i p → badI p → p ≤ u.length → (I.deref i >>= f) = stuck)
    (hnextI : ∀ i p, relI i p → ¬badI p → p < u.length → ∃ i', I.next i = .ok i' ∧ relI i' (p + 1))
    (hderef : ∀ j q, relJ j q → ¬badJ q → ∀ h : q < t.length, J.deref j = .ok t[q])
    (hbad : ∀ j q (f : C → Outcome Bool), relJ j q → badJ q → q < t.length → (J.deref j >>= f) = stuck)
    (hnext : ∀ j q, relJ j q → ¬badJ q → q < t.length → ∃ j', J.next j = .ok j' ∧ relJ j' (q + 1))
    (hut : u.length ≤ t.length) :
    ∀ (n : Nat) (i : σ) (j : τ) (p : Nat), relI i p → relJ j p → p ≤ u.length → u.length - p < n → u.take p = t.take p →
      ((∀ o, p ≤ o → o ≤ u.length → ¬(badI o ∨ (o < u.length ∧ badJ o))) → equalLoop I J n i last j = .ok (decide (u <+: t))) ∧
      (∀ g, p ≤ g → g ≤ u.length → (badI g ∨ (g < u.length ∧ badJ g)) →
        (∀ o, p ≤ o → o < g → ¬(badI o ∨ (o < u.length ∧ badJ o))) →
        (u.take g = t.take g → equalLoop I J n i last j = stuck) ∧
        (u.take g ≠ t.take g → equalLoop I J n i last j = .ok false)) := by
  intro n
  induction n with
  | zero => intro i j p _ _ _ hn; omega
  | succ n ih =>
    intro i j p hi hj hpu hn he
    rw [equalLoop]
    have first : ∀ {r : Outcome Bool}, (badI p ∨ (p < u.length ∧ badJ p)) → r = stuck →
        ((∀ o, p ≤ o → o ≤ u.length → ¬(badI o ∨ (o < u.length ∧ badJ o))) → r = .ok (decide (u <+: t))) ∧
        (∀ g, p ≤ g → g ≤ u.length → (badI g ∨ (g < u.length ∧ badJ g)) →
          (∀ o, p ≤ o → o < g → ¬(badI o ∨ (o < u.length ∧ badJ o))) →
          (u.take g = t.take g → r = stuck) ∧ (u.take g ≠ t.take g → r = .ok false)) := by
      intro r hb hr
      refine ⟨fun h => absurd hb (h p (by omega) hpu), fun g h1 h2 h3 h4 => ?_⟩
      have e : g = p := by
        by_contra hne
        exact h4 p (by omega) (by omega) hb
      subst e
      exact ⟨fun _ => hr, fun hne => absurd he hne⟩
    by_cases hbI : badI p
    · rw [if_neg (fun e => ((heq i p hi hpu).1 e).2 hbI)]
      exact first (.inl hbI) (hbadI i p _ hi hbI hpu)
    · by_cases hend : p = u.length
      · rw [if_pos ((heq i p hi hpu).2 ⟨hend, hbI⟩)]
        have hpre : u <+: t := by
          rw [hend, List.take_length] at he
          rw [he]; exact List.take_prefix _ _
        refine ⟨fun _ => by rw [decide_eq_true hpre], fun g h1 h2 h3 _ => ?_⟩
        have e : g = p := by omega
        subst e
        rcases h3 with h3 | h3
        · exact absurd h3 hbI
        · omega
      · rw [if_neg (fun e => hend ((heq i p hi hpu).1 e).1)]
        have hpu' : p < u.length := by omega
        have hpt : p < t.length := by omega
        rw [hderefI i p hi hbI hpu', Outcome.bind_ok]
        by_cases hb : badJ p
        · exact first (.inr ⟨hpu', hb⟩) (hbad j p _ hj hb hpt)
        · rw [hderef j p hj hb hpt, Outcome.bind_ok]
          have hnb : ¬(badI p ∨ (p < u.length ∧ badJ p)) := by
            rintro (h | h)
            · exact hbI h
            · exact hb h.2
          by_cases hxy : u[p] = t[p]
          · rw [if_pos hxy]
            obtain ⟨i', ei, hi'⟩ := hnextI i p hi hbI hpu'
            obtain ⟨j', ej, hj'⟩ := hnext j p hj hb hpt
            rw [ei, Outcome.bind_ok, ej, Outcome.bind_ok]
            obtain ⟨ih1, ih2⟩ := ih i' j' (p + 1) hi' hj' (by omega) (by omega) (by
              rw [List.take_succ_eq_append_getElem hpu', List.take_succ_eq_append_getElem hpt, he, hxy])
            refine ⟨fun h => ih1 (fun o h1 h2 => h o (by omega) h2), fun g h1 h2 h3 h4 => ?_⟩
            have : g ≠ p := fun e => hnb (e ▸ h3)
            exact ih2 g (by omega) h2 h3 (fun o h5 h6 => h4 o (by omega) h6)
          · rw [if_neg hxy]
            have hnp : ¬u <+: t := fun hpre => hxy (hpre.getElem hpu')
            refine ⟨fun _ => by rw [decide_eq_false hnp]; rfl, fun g h1 h2 h3 h4 => ⟨fun he => absurd ?_ hxy, fun _ => rfl⟩⟩
            have hne : g ≠ p := fun e => hnb (e ▸ h3)
            have h5 : (u.take g)[p]'(by rw [List.length_take]; omega) = (t.take g)[p]'(by rw [List.length_take]; omega) := by
              simp only [he]
            simpa using h5

/-- The iterator that moving backward from `end()` to offset `p` gives. -/
def Back (fs : FragStr C) (it : It) (p : Nat) : Prop :=
  At fs it p ∧ ((p = length fs ∧ end' fs = .ok it) ∨ ∃ s, fs[it.frag]? = some s ∧ it.cur < s.chars.length)

theorem Back.begin_iff {fs : FragStr C} {it : It} {p : Nat} (h : Back fs it p) :
    it.eq ⟨0, 0⟩ = true ↔ p = 0 ∧ ¬GapAt fs 0 := by
  obtain ⟨⟨s, hs, hc, hp⟩, h2⟩ := h
  have hf : it.frag < fs.length := (List.getElem?_eq_some_iff.mp hs).1
  rw [It.eq_iff]
  constructor
  · rintro rfl
    refine ⟨by simpa [length] using hp, fun hg => ?_⟩
    obtain ⟨k, t, hk, hkt, hte, hl⟩ := (gapAt_iff fs 0).1 hg
    rcases h2 with ⟨h2, h3⟩ | ⟨s', hs', h3⟩
    · rw [end'] at h3
      cases hlast : fs.getLast? with
      | none => rw [hlast] at h3; cases h3
      | some e =>
        rw [hlast] at h3
        injection h3 with h3
        injection h3 with h3 _
        omega
    · have h4 := length_take_succ hs'
      rw [hs] at hs'
      cases hs'
      rcases Nat.eq_zero_or_pos k with hk0 | hk0
      · subst hk0
        rw [hs] at hkt
        cases hkt
        rw [hte] at h3
        simp at h3
      · have := length_take_mono fs (i := 0 + 1) (j := k) (by omega)
        dsimp only at h3 h4
        omega
  · rintro ⟨rfl, hg⟩
    have hcur : it.cur = 0 := by omega
    have hfr : it.frag = 0 := by
      by_contra hne
      apply hg
      have ht : fs[0]? = some (fs[0]'(by omega)) := List.getElem?_eq_getElem (by omega)
      have h4 := length_take_succ ht
      have := length_take_mono fs (i := 0 + 1) (j := it.frag) (by omega)
      refine (gapAt_iff fs 0).2 ⟨0, _, by omega, ht, List.length_eq_zero_iff.mp (by omega), by simp [length]⟩
    obtain ⟨f, c⟩ := it
    dsimp only at hcur hfr
    rw [hcur, hfr]

theorem Back.end' {fs : FragStr C} {it : It} (h0 : fs ≠ []) (h : end' fs = .ok it) : Back fs it (length fs) := by
  obtain ⟨l, el, hl⟩ := end_at h0
  rw [el] at h
  cases h
  exact ⟨hl, .inl ⟨rfl, el⟩⟩

theorem Back.decr {fs : FragStr C} {it : It} {p : Nat} (h : Back fs it p) (b : Build) :
    (¬GapAt fs p → 0 < p → ∃ it', Str.decr b fs it = .ok it' ∧ Back fs it' (p - 1)) ∧ (GapAt fs p → Str.decr b fs it = .ub) := by
  by_cases hp : 0 < p
  · refine ⟨fun hg _ => ?_, (h.1.decr_gaps hp b).2⟩
    obtain ⟨it', e, h'⟩ := (h.1.decr_gaps hp b).1 hg
    refine ⟨it', e, h', .inr ?_⟩
    obtain ⟨s, hs, hc, hq⟩ := h.1
    rw [Str.decr] at e
    rcases hd : debugAssert b (!(decide (it.frag = 0) && decide (it.cur = 0)))
      "fragment_string::operator--: already at beginning" with x | x | _ | _ | _
    · rw [hd, Outcome.bind_ok] at e
      by_cases hz : it.cur = 0
      · rw [if_pos hz] at e
        by_cases hf : it.frag = 0
        · rw [if_pos hf] at e; cases e
        · rw [if_neg hf] at e
          have hfl : it.frag < fs.length := (List.getElem?_eq_some_iff.mp hs).1
          have ht : fs[it.frag - 1]? = some (fs[it.frag - 1]'(by omega)) := List.getElem?_eq_getElem (by omega)
          rw [fragAt_of ht, Outcome.bind_ok] at e
          by_cases hl : (fs[it.frag - 1]'(by omega)).chars.length = 0
          · rw [if_pos hl] at e; cases e
          · rw [if_neg hl] at e
            cases e
            exact ⟨_, ht, by dsimp only; omega⟩
      · rw [if_neg hz] at e
        cases e
        refine ⟨s, hs, ?_⟩
        dsimp only
        rcases hc with hc | ⟨_, hc⟩ <;> omega
    all_goals (rw [hd] at e; cases e)
  · refine ⟨fun _ h => absurd h hp, fun hg => ?_⟩
    have hp0 : p = 0 := by omega
    subst hp0
    have hne : ¬it.eq ⟨0, 0⟩ = true := fun e => ((h.begin_iff).1 e).2 hg
    rw [It.eq_iff] at hne
    obtain ⟨s, hs, hc, hq⟩ := h.1
    have hfl : it.frag < fs.length := (List.getElem?_eq_some_iff.mp hs).1
    have hcur : it.cur = 0 := by omega
    have hfr : it.frag ≠ 0 := fun hf => hne (by
      obtain ⟨f, c⟩ := it
      dsimp only at hcur hf
      rw [hcur, hf])
    have ha : debugAssert b (!(decide (it.frag = 0) && decide (it.cur = 0)))
      "fragment_string::operator--: already at beginning" = .ok () := by cases b <;> simp [debugAssert, hfr]
    have ht : fs[it.frag - 1]? = some (fs[it.frag - 1]'(by omega)) := List.getElem?_eq_getElem (by omega)
    have h4 := length_take_succ ht
    rw [show it.frag - 1 + 1 = it.frag by omega] at h4
    rw [Str.decr, ha, Outcome.bind_ok, if_pos hcur, if_neg hfr, fragAt_of ht, Outcome.bind_ok, if_pos (by omega)]

/-- Reading a reverse iterator. -/
theorem Back.rev {fs : FragStr C} {it : It} {p : Nat} (h : Back fs it p) (b : Build) :
    (¬GapAt fs p → 0 < p → (∀ hl : p - 1 < (text fs).length, (rev b fs).deref it = .ok (text fs)[p - 1]) ∧
      ∃ it', (Str.rev b fs).next it = .ok it' ∧ Back fs it' (p - 1)) ∧
    (GapAt fs p → (Str.rev b fs).deref it = .ub) := by
  obtain ⟨h1, h2⟩ := h.decr b
  constructor
  · intro hg hp
    obtain ⟨it', e, h'⟩ := h1 hg hp
    refine ⟨fun hl => ?_, it', e, h'⟩
    show (Str.decr b fs it >>= fun t => Str.deref b fs t) = _
    rw [e, Outcome.bind_ok]
    exact h'.1.deref b hl
  · intro hg
    show (Str.decr b fs it >>= fun t => Str.deref b fs t) = _
    rw [h2 hg]
    rfl

/-! ## Moving forward from any position -/

theorem seekForward_cur (b : Build) (i : Nat) (s : Frag C) (rest : FragStr C) (cur off : Nat) (ho : 0 < off)
    (hc : cur ≤ s.chars.length) : seekForward b i (s :: rest) cur off = seekForward b i (s :: rest) 0 (cur + off) := by
  cases rest with
  | nil =>
    rw [Str.seekForward, Str.seekForward, if_neg (c := off = 0) (by omega), if_neg (c := cur + off = 0) (by omega)]
    simp only [Nat.sub_zero, Nat.zero_add]
    by_cases h : off < s.chars.length - cur
    · rw [if_pos h, if_pos (by omega)]
    · rw [if_neg h, if_neg (c := cur + off < s.chars.length) (by omega)]
      have h1 : decide (off = s.chars.length - cur) = decide (cur + off = s.chars.length) := by
        rw [decide_eq_decide]; omega
      have h2 : off - (s.chars.length - cur) = cur + off - s.chars.length := by omega
      rw [h1, h2]
  | cons t rest =>
    rw [Str.seekForward, Str.seekForward, if_neg (c := off = 0) (by omega), if_neg (c := cur + off = 0) (by omega)]
    simp only [Nat.sub_zero, Nat.zero_add]
    by_cases h : off < s.chars.length - cur
    · rw [if_pos h, if_pos (by omega)]
    · rw [if_neg h, if_neg (c := cur + off < s.chars.length) (by omega)]
      have h2 : off - (s.chars.length - cur) = cur + off - s.chars.length := by omega
      rw [h2]

theorem On.plusFrom {fs : FragStr C} {it : It} {p : Nat} (h : On fs it p) (b : Build) {n : Nat} (hn : p + n ≤ length fs)
    (hsz : length fs < 2 ^ 63) : ∃ it', Str.plus b fs it (toDiff n) = .ok it' ∧ On fs it' (p + n) := by
  rw [toDiff_small (by omega), Str.plus, seek]
  by_cases hz : 0 < (n : Int)
  · rw [if_pos hz, Int.toNat_natCast]
    have hlt := h.frag_lt
    obtain ⟨⟨s, hs, hc⟩, hp, hm⟩ := id h
    have hd : fs.drop it.frag = s :: fs.drop (it.frag + 1) := by
      rw [List.drop_eq_getElem_cons hlt]
      have := List.getElem?_eq_getElem hlt
      rw [hs] at this
      rw [← Option.some.inj this]
    have hcl : it.cur ≤ s.chars.length := by
      rcases hc with hc | ⟨_, hc⟩ | ⟨hc, _⟩ <;> omega
    have := On.seekForward (fs := fs) b _ it.frag (p + n) (it.cur + n) rfl hlt (by omega) hn (by
      intro k hk
      have := length_take_mono fs (i := k) (j := it.frag) (by omega)
      omega)
    rw [hd] at this ⊢
    rw [seekForward_cur b _ _ _ _ _ (by omega) hcl]
    exact this
  · have hn0 : n = 0 := by omega
    subst hn0
    rw [if_neg hz, negDiff, if_neg (by omega), Outcome.bind_ok]
    refine ⟨it, ?_, h⟩
    have : (-((0 : Nat) : Int)).toNat = 0 := by simp
    rw [this]
    obtain ⟨f, c⟩ := it
    cases f <;> rw [Str.seekBackward, if_pos (Nat.zero_le _)] <;> rfl

/-! ## Iterators of the fragments from one on -/

/-- The same place, counted from `i` fragments further up. -/
def It.up (i : Nat) (it : It) : It := ⟨it.frag + i, it.cur⟩

theorem fragAt_up (fs : FragStr C) (i f : Nat) : fragAt fs (f + i) = fragAt (fs.drop i) f := by
  rw [fragAt, fragAt, List.getElem?_drop, Nat.add_comm]

theorem deref_up (b : Build) (fs : FragStr C) (i : Nat) (it : It) : Str.deref b fs (it.up i) = Str.deref b (fs.drop i) it := by
  rw [Str.deref, Str.deref, It.up, fragAt_up]

theorem incr_up (b : Build) (fs : FragStr C) (i : Nat) (it : It) (hi : i < fs.length) :
    Str.incr b fs (it.up i) = (Str.incr b (fs.drop i) it >>= fun it' => .ok (it'.up i)) := by
  have hl : (it.frag + i + 1 = fs.length) ↔ (it.frag + 1 = (fs.drop i).length) := by rw [List.length_drop]; omega
  rw [Str.incr, Str.incr]
  simp only [It.up, fragAt_up]
  rcases fragAt (fs.drop i) it.frag with s | _ | _ | _ | _
  · simp only [Outcome.bind_ok]
    have hd : (!(decide (it.frag + i + 1 = fs.length) && decide (it.cur = s.length))) =
        (!(decide (it.frag + 1 = (fs.drop i).length) && decide (it.cur = s.length))) := by
      by_cases h3 : it.frag + 1 = (fs.drop i).length
      · rw [decide_eq_true h3, decide_eq_true (hl.2 h3)]
      · rw [decide_eq_false h3, decide_eq_false (fun h => h3 (hl.1 h))]
    have key : ∀ (x y : Bool), x = y → ∀ (K L : Unit → Outcome It), (∀ u, K u = (L u >>= fun it' => .ok (It.mk (it'.frag + i) it'.cur))) →
        (debugAssert b x "fragment_string::operator++: already at end" >>= K) =
          ((debugAssert b y "fragment_string::operator++: already at end" >>= L) >>= fun it' => .ok (It.mk (it'.frag + i) it'.cur)) := by
      intro x y hxy K L hK
      subst hxy
      rcases debugAssert b x "fragment_string::operator++: already at end" with u | _ | _ | _ | _
      · exact hK u
      all_goals rfl
    refine key _ _ hd _ _ (fun _ => ?_)
    by_cases h1 : it.cur < s.length
    · simp only [h1, if_true]
      by_cases h2 : it.cur + 1 = s.length
      · simp only [h2, if_true]
        by_cases h3 : it.frag + 1 = (fs.drop i).length
        · simp only [h3, hl.2 h3, if_true]; rfl
        · simp only [h3, show ¬ it.frag + i + 1 = List.length fs from fun h => h3 (hl.1 h), if_false]
          show Outcome.ok (It.mk (it.frag + i + 1) 0) = Outcome.ok (It.mk (it.frag + 1 + i) 0)
          rw [show it.frag + i + 1 = it.frag + 1 + i by omega]
      · simp only [h2, if_false]; rfl
    · simp only [h1, if_false]; rfl
  all_goals rfl

theorem diff_up (fs : FragStr C) (i : Nat) (x y : It) : Str.diff fs (x.up i) (y.up i) = Str.diff (fs.drop i) x y := by
  have hsub : ∀ lo hi, sublength fs (lo + i) (hi + i) = sublength (fs.drop i) lo hi := by
    intro lo hi
    rw [sublength, sublength, List.drop_drop, Nat.add_comm i lo, show hi + i - (lo + i) = hi - lo by omega]
  simp only [Str.diff, Str.distance, It.up, hsub, Nat.add_lt_add_iff_right]

theorem eq_up (i : Nat) (x y : It) : (x.up i).eq (y.up i) = x.eq y := by
  rw [It.eq, It.eq]
  congr 1
  exact decide_eq_decide.mpr (Nat.add_right_cancel_iff (m := x.frag) (k := y.frag) (n := i))

theorem equalLoop_up [DecidableEq C] {σ : Type} (I : Iter σ C) (b : Build) (fs : FragStr C) (i : Nat) (hi : i < fs.length) (last : σ) :
    ∀ (n : Nat) (k : σ) (j : It), equalLoop I (fwd b fs) n k last (j.up i) = equalLoop I (fwd b (fs.drop i)) n k last j := by
  intro n
  induction n with
  | zero => intro k j; rfl
  | succ n ih =>
    intro k j
    have hd : (fwd b fs).deref (j.up i) = (fwd b (fs.drop i)).deref j := deref_up b fs i j
    have hn : (fwd b fs).next (j.up i) = ((fwd b (fs.drop i)).next j >>= fun it' => .ok (it'.up i)) := incr_up b fs i j hi
    rw [equalLoop, equalLoop, hd, hn]
    split
    · rfl
    · congr 1
      funext x
      congr 1
      funext y
      split
      · congr 1
        funext k'
        rcases (fwd b (fs.drop i)).next j with j' | _ | _ | _ | _
        · simp only [Outcome.bind_ok]; exact ih k' j'
        all_goals rfl
      · rfl

theorem findLoop_up [DecidableEq C] (b : Build) (fs : FragStr C) (i : Nat) (hi : i < fs.length) (s : List C) (e : It) :
    ∀ (n : Nat) (it ce : It) (out : Nat),
      findLoop b fs s (e.up i) n (it.up i) (ce.up i) out = findLoop b (fs.drop i) s e n it ce out := by
  intro n
  induction n with
  | zero => intro it ce out; rfl
  | succ n ih =>
    intro it ce out
    have hdf : (fwd b fs).diff (ce.up i) (it.up i) = (fwd b (fs.drop i)).diff ce it := diff_up fs i ce it
    rw [findLoop, findLoop, stdEqual, stdEqual, hdf, equalLoop_up _ b fs i hi, eq_up, incr_up b fs i it hi, incr_up b fs i ce hi]
    congr 1
    funext same
    split
    · rfl
    · split
      · rfl
      · rcases Str.incr b (fs.drop i) it with it' | _ | _ | _ | _
        · simp only [Outcome.bind_ok]
          rcases Str.incr b (fs.drop i) ce with ce' | _ | _ | _ | _
          · simp only [Outcome.bind_ok]; exact ih it' ce' _
          all_goals rfl
        all_goals rfl

theorem seekForward_up (b : Build) (i : Nat) :
    ∀ (rest : FragStr C) (j cur off : Nat),
      seekForward b (j + i) rest cur off = (seekForward b j rest cur off >>= fun it => .ok (it.up i)) := by
  intro rest
  induction rest with
  | nil => intro j cur off; rfl
  | cons f rest ih =>
    intro j cur off
    cases rest with
    | nil =>
      rw [Str.seekForward, Str.seekForward]
      split
      · rfl
      · dsimp only
        split
        · rfl
        · cases debugAssert b (decide (off = f.chars.length - cur))
            "fragment_string::_seek_forward: trying to seek beyond end of range"
          · simp only [Outcome.bind_ok]
            split <;> rfl
          all_goals rfl
    | cons g rest =>
      rw [Str.seekForward, Str.seekForward]
      split
      · rfl
      · dsimp only
        split
        · rfl
        · rw [← ih (j + 1), show j + i + 1 = j + 1 + i by omega]

/-- A position of the fragments from `i` on that is moved forward. -/
theorem plus_up (b : Build) (fs : FragStr C) (i : Nat) (it : It) (n : Nat) (hn : n < 2 ^ 63) :
    Str.plus b fs (it.up i) (toDiff n) = (Str.plus b (fs.drop i) it (toDiff n) >>= fun it' => .ok (it'.up i)) := by
  rw [toDiff_small hn, Str.plus, Str.plus, seek, seek]
  by_cases hz : 0 < (n : Int)
  · rw [if_pos hz, if_pos hz, List.drop_drop, Int.toNat_natCast, It.up, ← seekForward_up, Nat.add_comm i]
  · have hn0 : n = 0 := by omega
    subst hn0
    rw [if_neg hz, if_neg hz, negDiff, if_neg (by omega), Outcome.bind_ok, Outcome.bind_ok]
    have : (-((0 : Nat) : Int)).toNat = 0 := by simp
    rw [this]
    have k : ∀ (gs : FragStr C) (f c : Nat), Str.seekBackward b gs f c 0 = .ok ⟨f, c⟩ := by
      intro gs f c
      cases f <;> rw [Str.seekBackward, if_pos (Nat.zero_le _)] <;> rfl
    rw [k, k]
    rfl

theorem end_up (fs : FragStr C) (i : Nat) (hi : i < fs.length) :
    end' fs = (end' (fs.drop i) >>= fun it => .ok (it.up i)) := by
  have e : (fs.drop i).getLast? = fs.getLast? := by
    rw [List.getLast?_drop, if_neg (by omega)]
  rw [end', end', e]
  cases h : fs.getLast? with
  | none => rfl
  | some f =>
    show Outcome.ok _ = Outcome.ok _
    rw [It.up, List.length_drop, show fs.length - i - 1 + i = fs.length - 1 by omega]

theorem On.incr_gap {fs : FragStr C} {it : It} {p : Nat} (h : On fs it p) (b : Build) (hg : GapAt fs p) :
    Str.incr b fs it = .ub := by
  obtain ⟨hc, hl, s, hs, he⟩ := h.gap hg
  rw [Str.incr, fragAt_of hs, Outcome.bind_ok, he, hc]
  have : debugAssert b (!(decide (it.frag + 1 = fs.length) && decide (0 = ([] : List C).length)))
      "fragment_string::operator++: already at end" = .ok () := by
    rw [decide_eq_false (by omega)]
    cases b <;> rfl
  rw [this, Outcome.bind_ok, if_neg (by simp)]

/-! ## Searching, round by round -/

/-- `s` is found at `r`: it occurs there and no bad place is in the way. -/
def Hit (bad : Nat → Prop) (t s : List C) (r : Nat) : Prop :=
  (∀ o, r ≤ o → o < r + s.length → ¬bad o) ∧ s <+: t.drop r

/-- The comparison at `r` comes to a bad place: it agrees up to the first of them. -/
def Stuck (bad : Nat → Prop) (t s : List C) (r : Nat) : Prop :=
  ∃ g, r ≤ g ∧ g < r + s.length ∧ bad g ∧ (∀ o, r ≤ o → o < g → ¬bad o) ∧ s.take (g - r) = (t.drop r).take (g - r)

theorem round_eq [DecidableEq C] {fs : FragStr C} (b : Build) (s : List C) {it ce : It} {r : Nat} (hi : On fs it r)
    (hc : On fs ce (r + s.length)) :
    (Hit (GapAt fs) (text fs) s r → stdEqual (view s) (fwd b fs) 0 s.length it ce = .ok true) ∧
    (Stuck (GapAt fs) (text fs) s r → stdEqual (view s) (fwd b fs) 0 s.length it ce = badStar b) ∧
    (¬Hit (GapAt fs) (text fs) s r → ¬Stuck (GapAt fs) (text fs) s r →
      stdEqual (view s) (fwd b fs) 0 s.length it ce = .ok false) := by
  have hle := hc.le
  have hlt := length_text fs
  have e : stdEqual (view s) (fwd b fs) 0 s.length it ce = equalLoop (view s) (fwd b fs) (s.length + 1) 0 s.length it := by
    rw [stdEqual]
    have d1 : (view s).diff s.length 0 = (s.length : Int) := by simp [view]
    have d2 : (fwd b fs).diff ce it = (s.length : Int) := by
      have h2 : (fwd b fs).diff ce it = diff fs ce it := rfl
      rw [h2, diff_of hc.2.1 hi.2.1]; omega
    rw [d1, d2, if_pos rfl, Int.toNat_natCast]
  obtain ⟨k1, k2⟩ := equalLoop_bad (view_tracks s) (J := fwd b fs) (relJ := fun j q => On fs j (r + q)) (t := (text fs).drop r)
    (fun q => GapAt fs (r + q)) (badStar b)
    (fun j q h hb hl => by
      have := h.deref b hb (by rw [List.length_drop] at hl; omega)
      have h2 : (fwd b fs).deref j = Str.deref b fs j := rfl
      rw [h2, this, List.getElem_drop])
    (fun j q f h hb _ => by
      have : (fwd b fs).deref j = badStar b := h.deref_gap b hb
      rw [this, badStar_bind])
    (fun j q h hb hl => h.incr b hb (by rw [List.length_drop] at hl; omega))
    (by rw [List.length_drop]; omega) (last := s.length) ⟨rfl, le_refl _⟩ (s.length + 1) 0 it 0 ⟨rfl, by omega⟩ hi
    (by omega) rfl
  rw [e]
  refine ⟨fun h => ?_, fun h => ?_, fun h1 h2 => ?_⟩
  · rw [k1 (fun o _ ho => h.1 _ (by omega) (by omega)), decide_eq_true h.2]
  · obtain ⟨g, g1, g2, g3, g4, g5⟩ := h
    exact (k2 (g - r) (by omega) (by omega) (by rwa [show r + (g - r) = g by omega])
      (fun o _ ho => g4 _ (by omega) (by omega))).1 g5
  · by_cases hb : ∃ q, q < s.length ∧ GapAt fs (r + q)
    · have hq : ∃ q, (q < s.length ∧ GapAt fs (r + q)) ∧ ∀ o, o < q → ¬(o < s.length ∧ GapAt fs (r + o)) := by
        classical
        exact ⟨Nat.find hb, Nat.find_spec hb, fun o ho => Nat.find_min hb ho⟩
      obtain ⟨q, ⟨q1, q2⟩, q3⟩ := hq
      refine (k2 q (by omega) q1 q2 (fun o _ ho hg => q3 o ho ⟨by omega, hg⟩)).2 (fun he => h2 ⟨r + q, by omega, by omega, q2, ?_, ?_⟩)
      · intro o h3 h4 hg
        exact q3 (o - r) (by omega) ⟨by omega, by rwa [show r + (o - r) = o by omega]⟩
      · rwa [show r + q - r = q by omega]
    · have hn : ∀ o, o < s.length → ¬GapAt fs (r + o) := fun o ho hg => hb ⟨o, ho, hg⟩
      rw [k1 (fun o _ => hn o)]
      have : ¬s <+: (text fs).drop r := fun hp => h1 ⟨fun o h3 h4 hg => hn (o - r) (by omega) (by
        rwa [show r + (o - r) = o by omega]), hp⟩
      rw [decide_eq_false this]

theorem findLoop_rounds [DecidableEq C] {fs : FragStr C} (b : Build) (s : List C) (hs : s ≠ []) {e : It} (he : end' fs = .ok e) :
    ∀ (n : Nat) (it ce : It) (p out : Nat), On fs it p → On fs ce (p + s.length) → length fs - (p + s.length) < n →
      ∀ r, p ≤ r → r + s.length ≤ length fs →
        (∀ k, p ≤ k → k < r → ¬Hit (GapAt fs) (text fs) s k ∧ ¬Stuck (GapAt fs) (text fs) s k ∧ ¬GapAt fs (k + s.length)) →
        (Hit (GapAt fs) (text fs) s r → findLoop b fs s e n it ce out = .ok (out + (r - p))) ∧
        (Stuck (GapAt fs) (text fs) s r → findLoop b fs s e n it ce out = badStar b) ∧
        (¬Hit (GapAt fs) (text fs) s r → ¬Stuck (GapAt fs) (text fs) s r →
          (GapAt fs (r + s.length) → findLoop b fs s e n it ce out = .ub) ∧
          (¬GapAt fs (r + s.length) → r + s.length = length fs → findLoop b fs s e n it ce out = .ok npos)) := by
  have hsl := List.length_pos_iff.mpr hs
  intro n
  induction n with
  | zero => intro it ce p out _ _ hn; omega
  | succ n ih =>
    intro it ce p out hi hc hn r hpr hr hk
    obtain ⟨c1, c2, c3⟩ := round_eq b s hi hc
    have hend : ce.eq e = true ↔ p + s.length = length fs ∧ ¬GapAt fs (length fs) := hc.eq_end he
    rw [findLoop]
    by_cases hrp : r = p
    · subst hrp
      refine ⟨fun h => by rw [c1 h, Outcome.bind_ok, if_pos rfl, Nat.sub_self]; rfl,
        fun h => by rw [c2 h, badStar_bind], fun h1 h2 => ⟨fun hg => ?_, fun hg hl => ?_⟩⟩
      · have hnp : ¬GapAt fs r := fun hg' => h2 ⟨r, by omega, by omega, hg', fun o _ _ => by omega, by simp⟩
        obtain ⟨i', ei, _⟩ := hi.incr b hnp (by omega)
        rw [c3 h1 h2, Outcome.bind_ok, if_neg (by simp), if_neg (fun h => by
          obtain ⟨h3, h4⟩ := hend.1 h
          exact h4 (h3 ▸ hg)), ei, Outcome.bind_ok, hc.incr_gap b hg]
        rfl
      · rw [c3 h1 h2, Outcome.bind_ok, if_neg (by simp), if_pos (hend.2 ⟨hl, hl ▸ hg⟩)]
        rfl
    · obtain ⟨m1, m2, m3⟩ := hk p (by omega) (by omega)
      have hnp : ¬GapAt fs p := fun hg' => m2 ⟨p, by omega, by omega, hg', fun o _ _ => by omega, by simp⟩
      obtain ⟨i', ei, hi'⟩ := hi.incr b hnp (by omega)
      obtain ⟨c', ec, hc'⟩ := hc.incr b m3 (by omega)
      rw [c3 m1 m2, Outcome.bind_ok, if_neg (by simp), if_neg (fun h => by have := (hend.1 h).1; omega), ei, Outcome.bind_ok, ec,
        Outcome.bind_ok]
      rw [show p + s.length + 1 = p + 1 + s.length by omega] at hc'
      have := ih i' c' (p + 1) (out + 1) hi' hc' (by omega) r (by omega) hr (fun k h1 h2 => hk k (by omega) h2)
      rw [show out + 1 + (r - (p + 1)) = out + (r - p) by omega] at this
      exact this

theorem text_drop (fs : FragStr C) (i : Nat) : text (fs.drop i) = (text fs).drop (length (fs.take i)) := by
  have h : text fs = text (fs.take i) ++ text (fs.drop i) := by rw [← text_append, List.take_append_drop]
  rw [h, length_text, List.drop_left]

theorem length_drop_frags (fs : FragStr C) (i : Nat) : length (fs.drop i) = length fs - length (fs.take i) := by
  rw [length_text, text_drop, List.length_drop, ← length_text]

theorem gapAt_drop {fs : FragStr C} {i : Nat} {f : Frag C} (hf : fs[i]? = some f) (hne : f.chars ≠ []) (q : Nat) :
    GapAt (fs.drop i) q ↔ GapAt fs (length (fs.take i) + q) ∧ f.chars.length ≤ q := by
  have hpos := List.length_pos_iff.mpr hne
  have hsucc := length_take_succ hf
  have htake : ∀ k, length ((fs.drop i).take k) + length (fs.take i) = length (fs.take (i + k)) := by
    intro k
    rw [List.take_add, length_append]; omega
  rw [gapAt_iff, gapAt_iff]
  constructor
  · rintro ⟨k, s, hk, hs, he, hl⟩
    rw [List.length_drop] at hk
    rw [List.getElem?_drop] at hs
    have h1 := htake k
    refine ⟨⟨i + k, s, by omega, hs, he, by omega⟩, ?_⟩
    have hk0 : k ≠ 0 := by
      rintro rfl
      rw [Nat.add_zero, hf] at hs
      cases hs
      exact hne he
    have := length_take_mono fs (i := i + 1) (j := i + k) (by omega)
    omega
  · rintro ⟨⟨k, s, hk, hs, he, hl⟩, hq⟩
    have hik : i < k := by
      by_contra hlt
      have := length_take_mono fs (i := k) (j := i) (by omega)
      omega
    have h1 := htake (k - i)
    rw [show i + (k - i) = k by omega] at h1
    refine ⟨k - i, s, by rw [List.length_drop]; omega, by rw [List.getElem?_drop, show i + (k - i) = k by omega]; exact hs, he, by omega⟩

theorem hit_shift {bad bad' : Nat → Prop} {t s : List C} {c r : Nat} (hc : c ≤ r) (h : ∀ o, r ≤ o → (bad' (o - c) ↔ bad o)) :
    Hit bad' (t.drop c) s (r - c) ↔ Hit bad t s r := by
  have e : (t.drop c).drop (r - c) = t.drop r := by rw [List.drop_drop]; congr 1; omega
  rw [Hit, Hit, e]
  refine and_congr_left fun _ => ⟨fun h1 o h2 h3 hb => h1 (o - c) (by omega) (by omega) ((h o h2).2 hb), fun h1 o h2 h3 hb => ?_⟩
  refine h1 (o + c) (by omega) (by omega) ((h (o + c) (by omega)).1 ?_)
  rwa [Nat.add_sub_cancel]

theorem stuck_shift {bad bad' : Nat → Prop} {t s : List C} {c r : Nat} (hc : c ≤ r) (h : ∀ o, r ≤ o → (bad' (o - c) ↔ bad o)) :
    Stuck bad' (t.drop c) s (r - c) ↔ Stuck bad t s r := by
  have e : (t.drop c).drop (r - c) = t.drop r := by rw [List.drop_drop]; congr 1; omega
  rw [Stuck, Stuck, e]
  constructor
  · rintro ⟨g, h1, h2, h3, h4, h5⟩
    refine ⟨g + c, by omega, by omega, (h _ (by omega)).1 (by rwa [Nat.add_sub_cancel]), fun o h6 h7 hb =>
      h4 (o - c) (by omega) (by omega) ((h o h6).2 hb), ?_⟩
    rwa [show g + c - r = g - (r - c) by omega]
  · rintro ⟨g, h1, h2, h3, h4, h5⟩
    refine ⟨g - c, by omega, by omega, (h g h1).2 h3, fun o h6 h7 hb => h4 (o + c) (by omega) (by omega) ((h (o + c) (by omega)).1 ?_), ?_⟩
    · rwa [Nat.add_sub_cancel]
    · rwa [show g - c - (r - c) = g - r by omega]

/-- The empty fragments that `find` from `pos` on can come to: it begins behind those at `pos`, unless `pos` is 0. -/
def Ahead (fs : FragStr C) (pos o : Nat) : Prop := GapAt fs o ∧ (pos < o ∨ pos = 0)

theorem noexcept_badStar {α : Type} (b : Build) : noexcept (badStar b : Outcome α) = (match b with | .release => .ub | _ => .terminate) := by
  cases b <;> rfl

/-- The rounds of `find`. -/
theorem findView_rounds [DecidableEq C] (b : Build) (fs : FragStr C) (hsz : length fs < 2 ^ 63) (s : List C) (hs : s ≠ []) (pos : Nat)
    (r : Nat) (hpr : pos ≤ r) (hr : r + s.length ≤ length fs)
    (hk : ∀ k, pos ≤ k → k < r → ¬Hit (Ahead fs pos) (text fs) s k ∧ ¬Stuck (Ahead fs pos) (text fs) s k ∧ ¬Ahead fs pos (k + s.length)) :
    (Hit (Ahead fs pos) (text fs) s r → findView b fs s pos = .ok r) ∧
    (Stuck (Ahead fs pos) (text fs) s r → findView b fs s pos = (match b with | .release => .ub | _ => .terminate)) ∧
    (¬Hit (Ahead fs pos) (text fs) s r → ¬Stuck (Ahead fs pos) (text fs) s r →
      (Ahead fs pos (r + s.length) → findView b fs s pos = .ub) ∧
      (¬Ahead fs pos (r + s.length) → r + s.length = length fs → findView b fs s pos = .ok npos)) := by
  have hsl := List.length_pos_iff.mpr hs
  have h0 : fs ≠ [] := by
    rintro rfl
    have : length ([] : FragStr C) = 0 := rfl
    omega
  have hst : ∃ i c, i < fs.length ∧ seekFragment fs pos = .ok (i, c) ∧ c = length (fs.take i) ∧ c ≤ pos ∧
      On (fs.drop i) ⟨0, pos - c⟩ (pos - c) ∧ ∀ o, pos ≤ o → (GapAt (fs.drop i) (o - c) ↔ Ahead fs pos o) := by
    by_cases hz : pos = 0
    · subst hz
      refine ⟨0, 0, List.length_pos_iff.mpr h0, rfl, by simp [length], le_refl _, (On.begin h0).2, fun o _ => ?_⟩
      rw [Ahead]; simp
    · obtain ⟨i, hi, e, h3, h4⟩ := seekFragment_ok hz (show pos < length fs by omega)
      have hf := List.getElem?_eq_getElem hi
      have hsucc := length_take_succ hf
      have hne : fs[i].chars ≠ [] := by intro he; rw [he] at hsucc; simp at hsucc; omega
      refine ⟨i, _, hi, e, rfl, h3, ⟨⟨fs[i], ?_, .inl ?_⟩, ?_, ?_⟩, fun o ho => ?_⟩
      · simp
      · dsimp only; omega
      · simp [length]
      · intro _ k hk; simp at hk
      · rw [gapAt_drop hf hne, Ahead, show length (fs.take i) + (o - length (fs.take i)) = o by omega]
        refine and_congr_right fun hg => ?_
        constructor
        · intro h5; left; omega
        · rintro (h5 | h5)
          · obtain ⟨k, s', hk', hs', he', hl'⟩ := (gapAt_iff fs o).1 hg
            have : i + 1 ≤ k := by
              by_contra hlt
              have := length_take_mono fs (i := k) (j := i) (by omega)
              omega
            have := length_take_mono fs (i := i + 1) (j := k) this
            omega
          · exact absurd h5 hz
  obtain ⟨i, c, hi, e, hc, hcp, hon, hgap⟩ := hst
  have hd0 : fs.drop i ≠ [] := by rw [ne_eq, List.drop_eq_nil_iff]; omega
  have hdl := length_drop_frags fs i
  rw [← hc] at hdl
  obtain ⟨l, el, _⟩ := end_at hd0
  obtain ⟨ce, ece, hce⟩ := hon.plusFrom b (n := s.length) (by omega) (by omega)
  have hstart : (⟨i, pos - c⟩ : It) = (⟨0, pos - c⟩ : It).up i := by rw [It.up, Nat.zero_add]
  have efind : findView b fs s pos = noexcept (findLoop b (fs.drop i) s l (length fs + 1) ⟨0, pos - c⟩ ce pos) := by
    rw [findView, if_neg (by rw [Nat.mod_eq_of_lt (by omega)]; omega), if_neg (by omega), end_up fs i hi, el, Outcome.bind_ok,
      Outcome.bind_ok, e, Outcome.bind_ok]
    simp only
    rw [hstart, plus_up b fs i _ _ (by omega), ece, Outcome.bind_ok, Outcome.bind_ok, findLoop_up b fs i hi]
  have hshiftH : ∀ k, pos ≤ k → (Hit (GapAt (fs.drop i)) (text (fs.drop i)) s (k - c) ↔ Hit (Ahead fs pos) (text fs) s k) := by
    intro k hk
    rw [text_drop, ← hc]
    exact hit_shift (by omega) (fun o ho => hgap o (by omega))
  have hshiftS : ∀ k, pos ≤ k → (Stuck (GapAt (fs.drop i)) (text (fs.drop i)) s (k - c) ↔ Stuck (Ahead fs pos) (text fs) s k) := by
    intro k hk
    rw [text_drop, ← hc]
    exact stuck_shift (by omega) (fun o ho => hgap o (by omega))
  have hgap' : ∀ k, pos ≤ k → (GapAt (fs.drop i) (k - c + s.length) ↔ Ahead fs pos (k + s.length)) := by
    intro k hk
    rw [← hgap (k + s.length) (by omega), show k + s.length - c = k - c + s.length by omega]
  have key := findLoop_rounds b s hs el (length fs + 1) ⟨0, pos - c⟩ ce (pos - c) pos hon hce (by omega) (r - c) (by omega) (by omega) (by
    intro k h1 h2
    have := hk (k + c) (by omega) (by omega)
    rw [← hshiftH _ (by omega), ← hshiftS _ (by omega), ← hgap' _ (by omega), Nat.add_sub_cancel] at this
    exact this)
  rw [hshiftH r hpr, hshiftS r hpr, hgap' r hpr, show pos + (r - c - (pos - c)) = r by omega] at key
  obtain ⟨k1, k2, k3⟩ := key
  rw [efind]
  refine ⟨fun h => by rw [k1 h]; rfl, fun h => by rw [k2 h, noexcept_badStar], fun h1 h2 => ?_⟩
  obtain ⟨k4, k5⟩ := k3 h1 h2
  exact ⟨fun h => by rw [k4 h]; rfl, fun h3 h4 => by rw [k5 h3 (by omega)]; rfl⟩

/-- One round of `contains(fragment_string)`. -/
theorem round_fs [DecidableEq C] {fs gs : FragStr C} (b : Build) (hg0 : gs ≠ []) {l it stop : It} {r : Nat} (el : end' gs = .ok l)
    (hi : On fs it r) (hc : On fs stop (r + length gs)) :
    ((∀ o, ¬(GapAt gs o ∨ (o < length gs ∧ GapAt fs (r + o)))) →
      stdEqual (fwd b gs) (fwd b fs) ⟨0, 0⟩ l it stop = .ok (decide (text gs <+: (text fs).drop r))) ∧
    (∀ g, (GapAt gs g ∨ (g < length gs ∧ GapAt fs (r + g))) →
      (∀ o, o < g → ¬(GapAt gs o ∨ (o < length gs ∧ GapAt fs (r + o)))) →
      ((text gs).take g = ((text fs).drop r).take g → stdEqual (fwd b gs) (fwd b fs) ⟨0, 0⟩ l it stop = badStar b) ∧
      ((text gs).take g ≠ ((text fs).drop r).take g → stdEqual (fwd b gs) (fwd b fs) ⟨0, 0⟩ l it stop = .ok false)) := by
  have hlg := length_text gs
  have hlf := length_text fs
  have hle := hc.le
  have hl : At gs l (length gs) := by
    obtain ⟨l', e1, h1⟩ := end_at hg0
    rw [el] at e1
    cases e1
    exact h1
  have e : stdEqual (fwd b gs) (fwd b fs) ⟨0, 0⟩ l it stop = equalLoop (fwd b gs) (fwd b fs) (length gs + 1) ⟨0, 0⟩ l it := by
    rw [stdEqual]
    have d1 : (fwd b gs).diff l ⟨0, 0⟩ = (length gs : Int) := by
      have h2 : (fwd b gs).diff l ⟨0, 0⟩ = diff gs l ⟨0, 0⟩ := rfl
      obtain ⟨s, hs, hc, hq⟩ := hl
      rw [h2, diff_of hq (On.begin hg0).2.2.1]; omega
    have d2 : (fwd b fs).diff stop it = (length gs : Int) := by
      have h2 : (fwd b fs).diff stop it = diff fs stop it := rfl
      rw [h2, diff_of hc.2.1 hi.2.1]; omega
    rw [d1, d2, if_pos rfl, Int.toNat_natCast]
  obtain ⟨k1, k2⟩ := equalLoop_two (I := fwd b gs) (J := fwd b fs) (relI := On gs) (relJ := fun j q => On fs j (r + q)) (u := text gs)
    (t := (text fs).drop r) (GapAt gs) (fun q => GapAt fs (r + q)) (badStar b) (last := l)
    (fun i p h _ => by
      have := h.eq_end el
      constructor
      · intro h'
        obtain ⟨h1, h2⟩ := this.1 h'
        exact ⟨by omega, by rw [h1]; exact h2⟩
      · rintro ⟨h1, h2⟩
        exact this.2 ⟨by omega, by rw [← show p = length gs by omega]; exact h2⟩)
    (fun i p h hb hl => h.deref b hb hl)
    (fun i p f h hb _ => by
      have : (fwd b gs).deref i = badStar b := h.deref_gap b hb
      rw [this, badStar_bind])
    (fun i p h hb hl => h.incr b hb (by omega))
    (fun j q h hb hl => by
      have := h.deref b hb (by rw [List.length_drop] at hl; omega)
      have h2 : (fwd b fs).deref j = Str.deref b fs j := rfl
      rw [h2, this, List.getElem_drop])
    (fun j q f h hb _ => by
      have : (fwd b fs).deref j = badStar b := h.deref_gap b hb
      rw [this, badStar_bind])
    (fun j q h hb hl => h.incr b hb (by rw [List.length_drop] at hl; omega))
    (by rw [List.length_drop]; omega) (length gs + 1) ⟨0, 0⟩ it 0 (On.begin hg0).2 hi (by omega) (by omega) rfl
  rw [e]
  refine ⟨fun h => k1 fun o _ _ => by rw [← hlg]; exact h o, fun g hg hmin => ?_⟩
  have hgl : g ≤ (text gs).length := by
    rcases hg with hg | hg
    · rw [← hlg]; exact hg.le
    · omega
  exact k2 g (by omega) hgl (by rw [← hlg]; exact hg) (fun o _ ho => by rw [← hlg]; exact hmin o ho)

end Wite.Str
