import Verif.Model.IterProg

/-! # Lemmas about algorithms over iterators: running the same algorithm over two kinds of iterators -/

namespace Wite.Alg

variable {σ ι α β : Type}

/-- What a failing assertion does. -/
def badAssert {γ : Type} (b : Build) (msg : String) : Outcome γ :=
  match b with
  | .debug => .throw (.assertion msg)
  | .aborting => .terminate
  | .release => .ub

theorem lift_ok {γ δ : Type} {o : Outcome γ} {x : γ} (h : o = .ok x) (f : γ → St σ δ) (s : σ) :
    (St.lift o >>= f) s = f x s := by subst h; rfl

theorem lift_bad {γ δ : Type} {o : Outcome γ} {b : Build} {msg : String} (h : o = badAssert b msg) (f : γ → St σ δ) (s : σ) :
    (St.lift o >>= f) s = (badAssert b msg, s) := by subst h; cases b <;> rfl

theorem lift_inv {γ δ : Type} {o : Outcome γ} {f : γ → St σ δ} {s s' : σ} {y : δ} (h : (St.lift o >>= f) s = (.ok y, s')) :
    ∃ x, o = .ok x ∧ f x s = (.ok y, s') := by
  cases o with
  | ok x => exact ⟨x, rfl, h⟩
  | throw e => cases h
  | ub => cases h
  | terminate => cases h
  | diverge => cases h

theorem get_bind {δ : Type} (f : σ → St σ δ) (s : σ) : (St.get >>= f) s = f s s := rfl
theorem set_bind {δ : Type} (f : PUnit → St σ δ) (s t : σ) : (St.set t >>= f) s = f ⟨⟩ t := rfl

/-- The moves of the iterators `I` agree with those of `ref`, except for the checks `X`. -/
structure Sim (I : Iters σ ι α) (ref : Iters (List α) Nat α) (X : Extra) (b : Build) (R : σ → List α → Prop)
    (rel : Nat → ι → Nat → Prop) : Prop where
  load : ∀ {s l i p x}, R s l → rel l.length i p → ref.load l p = .ok x → arrayGet l p = .ok x ∧ I.load s i = .ok x
  store : ∀ {s l i p x l'}, R s l → rel l.length i p → ref.store l p x = .ok l' →
    l' = l.set p x ∧ ∃ s', I.store s i x = .ok s' ∧ R s' l'
  incr : ∀ {s l i p q}, R s l → rel l.length i p → ref.incr l p = .ok q →
    q = p + 1 ∧ ∃ j, I.incr s i = .ok j ∧ rel l.length j q
  decr : ∀ {s l i p q}, R s l → rel l.length i p → ref.decr l p = .ok q →
    q = p - 1 ∧ ∃ j, I.decr s i = .ok j ∧ rel l.length j q
  addAssign : ∀ {s l i p q n}, R s l → rel l.length i p → ref.addAssign l p n = .ok q →
    q = ((p : Int) + n).toNat ∧
    (b = .release ∨ X.addAssign l.length p n = none → ∃ j, I.addAssign s i n = .ok j ∧ rel l.length j q) ∧
    (∀ msg, X.addAssign l.length p n = some msg → b ≠ .release → I.addAssign s i n = badAssert b msg)
  subAssign : ∀ {s l i p q n}, R s l → rel l.length i p → ref.subAssign l p n = .ok q →
    q = ((p : Int) - n).toNat ∧
    (b = .release ∨ X.subAssign l.length p n = none → ∃ j, I.subAssign s i n = .ok j ∧ rel l.length j q) ∧
    (∀ msg, X.subAssign l.length p n = some msg → b ≠ .release → I.subAssign s i n = badAssert b msg)
  plus : ∀ {s l i p q n}, R s l → rel l.length i p → ref.plus l p n = .ok q →
    q = ((p : Int) + n).toNat ∧
    (b = .release ∨ X.plus l.length p n = none → ∃ j, I.plus s i n = .ok j ∧ rel l.length j q) ∧
    (∀ msg, X.plus l.length p n = some msg → b ≠ .release → I.plus s i n = badAssert b msg)
  minus : ∀ {s l i p q n}, R s l → rel l.length i p → ref.minus l p n = .ok q →
    q = ((p : Int) - n).toNat ∧
    (b = .release ∨ X.minus l.length p n = none → ∃ j, I.minus s i n = .ok j ∧ rel l.length j q) ∧
    (∀ msg, X.minus l.length p n = some msg → b ≠ .release → I.minus s i n = badAssert b msg)
  distance : ∀ {s l i j p q d}, R s l → rel l.length i p → rel l.length j q → ref.distance l p q = .ok d →
    d = (p : Int) - q ∧ I.distance s i j = .ok d
  equal : ∀ {n i j p q}, rel n i p → rel n j q → ref.equal p q = decide (p = q) ∧ I.equal i j = decide (p = q)
  compare : ∀ {n i j p q o}, rel n i p → rel n j q → ref.compare p q = .ok o → o = Ord.compare p q ∧ I.compare i j = .ok o
  subscript : ∀ {s l i p n x}, R s l → rel l.length i p → ref.subscript l p n = .ok x →
    arrayGet l ((p : Int) + n).toNat = .ok x ∧
    (b = .release ∨ X.subscript l.length p n = none → I.subscript s i n = .ok x) ∧
    (∀ msg, X.subscript l.length p n = some msg → b ≠ .release → I.subscript s i n = badAssert b msg)

/-- The variables of two runs correspond. -/
def Regs {κ : Type} (rel : ι → κ → Prop) (is : List ι) (ps : List κ) : Prop :=
  is.length = ps.length ∧ ∀ (r : Nat) (i : ι) (p : κ), is[r]? = some i → ps[r]? = some p → rel i p

theorem Regs.reg {κ : Type} {rel : ι → κ → Prop} {is : List ι} {ps : List κ} (h : Regs rel is ps) {r : Nat} {p : κ}
    (hr : reg ps r = .ok p) : ∃ i, reg is r = .ok i ∧ rel i p := by
  unfold Alg.reg at hr ⊢
  cases hp : ps[r]? with
  | none => rw [hp] at hr; cases hr
  | some q =>
    rw [hp] at hr; injection hr with hr; subst hr
    have hl := (List.getElem?_eq_some_iff.mp hp).1
    have hi : is[r]? = some (is[r]'(by rw [h.1]; exact hl)) := List.getElem?_eq_getElem _
    rw [hi]
    exact ⟨_, rfl, h.2 r _ _ hi hp⟩

theorem Regs.set {κ : Type} {rel : ι → κ → Prop} {is : List ι} {ps : List κ} (h : Regs rel is ps) (r : Nat) {i : ι} {p : κ}
    (hr : rel i p) : Regs rel (is.set r i) (ps.set r p) := by
  refine ⟨by simpa using h.1, fun q j p' hj hp => ?_⟩
  rw [List.getElem?_set] at hj hp
  by_cases e : r = q
  · subst e
    rw [if_pos rfl] at hj hp
    split at hj
    · split at hp
      · cases hj; cases hp; exact hr
      · cases hp
    · cases hj
  · rw [if_neg e] at hj hp
    exact h.2 q j p' hj hp

theorem Regs.push {κ : Type} {rel : ι → κ → Prop} {is : List ι} {ps : List κ} (h : Regs rel is ps) {i : ι} {p : κ}
    (hr : rel i p) : Regs rel (is ++ [i]) (ps ++ [p]) := by
  refine ⟨by simp [h.1], fun q j p' hj hp => ?_⟩
  rw [List.getElem?_append] at hj hp
  rw [h.1] at hj
  by_cases e : q < ps.length
  · rw [if_pos e] at hj hp
    exact h.2 q j p' hj hp
  · rw [if_neg e] at hj hp
    cases hq : q - ps.length with
    | zero => rw [hq] at hj hp; simp at hj hp; subst hj; subst hp; exact hr
    | succ n => rw [hq] at hj; simp at hj

theorem Sim.run {I : Iters σ ι α} {ref : Iters (List α) Nat α} {X : Extra} {b : Build} {R : σ → List α → Prop}
    {rel : Nat → ι → Nat → Prop} (S : Sim I ref X b R rel) (prog : Prog α β) :
    ∀ (is : List ι) (ps : List Nat) (s : σ) (l : List α) (y : β) (l' : List α), R s l → Regs (rel l.length) is ps →
      Alg.run ref prog ps l = (.ok y, l') →
      (b = .release ∨ firstCheck X prog ps l = none → ∃ s', Alg.run I prog is s = (.ok y, s') ∧ R s' l') ∧
      (∀ zs msg, firstCheck X prog ps l = some (zs, msg) → b ≠ .release →
        ∃ s', Alg.run I prog is s = (badAssert b msg, s') ∧ R s' zs) := by
  induction prog with
  | ret x =>
    intro is ps s l y l' hR _ h
    rw [Alg.run] at h ⊢
    cases h
    exact ⟨fun _ => ⟨s, rfl, hR⟩, fun _ _ h => by rw [firstCheck] at h; cases h⟩
  | load r k ih =>
    intro is ps s l y l' hR hG h
    rw [Alg.run] at h
    obtain ⟨p, hp, h⟩ := lift_inv h
    rw [get_bind] at h
    obtain ⟨x, hx, h⟩ := lift_inv h
    obtain ⟨i, hi, hr⟩ := hG.reg hp
    obtain ⟨e1, e2⟩ := S.load hR hr hx
    have hf : firstCheck X (.load r k) ps l = firstCheck X (k x) ps l := by
      rw [firstCheck, hp, Outcome.bind_ok, e1]
    rw [hf, Alg.run, lift_ok hi, get_bind, lift_ok e2]
    exact ih x is ps s l y l' hR hG h
  | store r x k ih =>
    intro is ps s l y l' hR hG h
    rw [Alg.run] at h
    obtain ⟨p, hp, h⟩ := lift_inv h
    rw [get_bind] at h
    obtain ⟨m, hm, h⟩ := lift_inv h
    rw [set_bind] at h
    obtain ⟨i, hi, hr⟩ := hG.reg hp
    obtain ⟨e1, s', e2, hR'⟩ := S.store hR hr hm
    have hf : firstCheck X (.store r x k) ps l = firstCheck X k ps m := by
      rw [firstCheck, hp, e1]
    rw [hf, Alg.run, lift_ok hi, get_bind, lift_ok e2, set_bind]
    have hlen : m.length = l.length := by rw [e1, List.length_set]
    exact ih is ps s' m y l' hR' (by rwa [hlen]) h
  | copy r k ih =>
    intro is ps s l y l' hR hG h
    rw [Alg.run] at h
    obtain ⟨p, hp, h⟩ := lift_inv h
    obtain ⟨i, hi, hr⟩ := hG.reg hp
    have hf : firstCheck X (.copy r k) ps l = firstCheck X k (ps ++ [p]) l := by rw [firstCheck, hp]
    rw [hf, Alg.run, lift_ok hi]
    exact ih _ _ s l y l' hR (hG.push hr) h
  | incr r k ih =>
    intro is ps s l y l' hR hG h
    rw [Alg.run] at h
    obtain ⟨p, hp, h⟩ := lift_inv h
    rw [get_bind] at h
    obtain ⟨q, hq, h⟩ := lift_inv h
    obtain ⟨i, hi, hr⟩ := hG.reg hp
    obtain ⟨e1, j, e2, hr'⟩ := S.incr hR hr hq
    have hf : firstCheck X (.incr r k) ps l = firstCheck X k (ps.set r q) l := by rw [firstCheck, hp, e1]
    rw [hf, Alg.run, lift_ok hi, get_bind, lift_ok e2]
    exact ih _ _ s l y l' hR (hG.set r hr') h
  | decr r k ih =>
    intro is ps s l y l' hR hG h
    rw [Alg.run] at h
    obtain ⟨p, hp, h⟩ := lift_inv h
    rw [get_bind] at h
    obtain ⟨q, hq, h⟩ := lift_inv h
    obtain ⟨i, hi, hr⟩ := hG.reg hp
    obtain ⟨e1, j, e2, hr'⟩ := S.decr hR hr hq
    have hf : firstCheck X (.decr r k) ps l = firstCheck X k (ps.set r q) l := by rw [firstCheck, hp, e1]
    rw [hf, Alg.run, lift_ok hi, get_bind, lift_ok e2]
    exact ih _ _ s l y l' hR (hG.set r hr') h
  | addAssign r n k ih =>
    intro is ps s l y l' hR hG h
    rw [Alg.run] at h
    obtain ⟨p, hp, h⟩ := lift_inv h
    rw [get_bind] at h
    obtain ⟨q, hq, h⟩ := lift_inv h
    obtain ⟨i, hi, hr⟩ := hG.reg hp
    obtain ⟨e1, e2, e3⟩ := S.addAssign hR hr hq
    rw [Alg.run, lift_ok hi, get_bind]
    cases hX : X.addAssign l.length p n with
    | none =>
      obtain ⟨j, ej, hr'⟩ := e2 (.inr hX)
      have hf : firstCheck X (.addAssign r n k) ps l = firstCheck X k (ps.set r q) l := by rw [firstCheck, hp, e1]; simp only [hX]
      rw [hf, lift_ok ej]
      exact ih _ _ s l y l' hR (hG.set r hr') h
    | some msg =>
      have hf : firstCheck X (.addAssign r n k) ps l = some (l, msg) := by rw [firstCheck, hp]; simp only [hX]
      rw [hf]
      constructor
      · rintro (hb | hb)
        · obtain ⟨j, ej, hr'⟩ := e2 (.inl hb)
          rw [lift_ok ej]
          exact (ih _ _ s l y l' hR (hG.set r hr') h).1 (.inl hb)
        · cases hb
      · intro zs m hz hb
        cases hz
        rw [lift_bad (e3 msg hX hb)]
        exact ⟨s, rfl, hR⟩
  | subAssign r n k ih =>
    intro is ps s l y l' hR hG h
    rw [Alg.run] at h
    obtain ⟨p, hp, h⟩ := lift_inv h
    rw [get_bind] at h
    obtain ⟨q, hq, h⟩ := lift_inv h
    obtain ⟨i, hi, hr⟩ := hG.reg hp
    obtain ⟨e1, e2, e3⟩ := S.subAssign hR hr hq
    rw [Alg.run, lift_ok hi, get_bind]
    cases hX : X.subAssign l.length p n with
    | none =>
      obtain ⟨j, ej, hr'⟩ := e2 (.inr hX)
      have hf : firstCheck X (.subAssign r n k) ps l = firstCheck X k (ps.set r q) l := by rw [firstCheck, hp, e1]; simp only [hX]
      rw [hf, lift_ok ej]
      exact ih _ _ s l y l' hR (hG.set r hr') h
    | some msg =>
      have hf : firstCheck X (.subAssign r n k) ps l = some (l, msg) := by rw [firstCheck, hp]; simp only [hX]
      rw [hf]
      constructor
      · rintro (hb | hb)
        · obtain ⟨j, ej, hr'⟩ := e2 (.inl hb)
          rw [lift_ok ej]
          exact (ih _ _ s l y l' hR (hG.set r hr') h).1 (.inl hb)
        · cases hb
      · intro zs m hz hb
        cases hz
        rw [lift_bad (e3 msg hX hb)]
        exact ⟨s, rfl, hR⟩
  | plus r n k ih =>
    intro is ps s l y l' hR hG h
    rw [Alg.run] at h
    obtain ⟨p, hp, h⟩ := lift_inv h
    rw [get_bind] at h
    obtain ⟨q, hq, h⟩ := lift_inv h
    obtain ⟨i, hi, hr⟩ := hG.reg hp
    obtain ⟨e1, e2, e3⟩ := S.plus hR hr hq
    rw [Alg.run, lift_ok hi, get_bind]
    cases hX : X.plus l.length p n with
    | none =>
      obtain ⟨j, ej, hr'⟩ := e2 (.inr hX)
      have hf : firstCheck X (.plus r n k) ps l = firstCheck X k (ps ++ [q]) l := by rw [firstCheck, hp, e1]; simp only [hX]
      rw [hf, lift_ok ej]
      exact ih _ _ s l y l' hR (hG.push hr') h
    | some msg =>
      have hf : firstCheck X (.plus r n k) ps l = some (l, msg) := by rw [firstCheck, hp]; simp only [hX]
      rw [hf]
      constructor
      · rintro (hb | hb)
        · obtain ⟨j, ej, hr'⟩ := e2 (.inl hb)
          rw [lift_ok ej]
          exact (ih _ _ s l y l' hR (hG.push hr') h).1 (.inl hb)
        · cases hb
      · intro zs m hz hb
        cases hz
        rw [lift_bad (e3 msg hX hb)]
        exact ⟨s, rfl, hR⟩
  | minus r n k ih =>
    intro is ps s l y l' hR hG h
    rw [Alg.run] at h
    obtain ⟨p, hp, h⟩ := lift_inv h
    rw [get_bind] at h
    obtain ⟨q, hq, h⟩ := lift_inv h
    obtain ⟨i, hi, hr⟩ := hG.reg hp
    obtain ⟨e1, e2, e3⟩ := S.minus hR hr hq
    rw [Alg.run, lift_ok hi, get_bind]
    cases hX : X.minus l.length p n with
    | none =>
      obtain ⟨j, ej, hr'⟩ := e2 (.inr hX)
      have hf : firstCheck X (.minus r n k) ps l = firstCheck X k (ps ++ [q]) l := by rw [firstCheck, hp, e1]; simp only [hX]
      rw [hf, lift_ok ej]
      exact ih _ _ s l y l' hR (hG.push hr') h
    | some msg =>
      have hf : firstCheck X (.minus r n k) ps l = some (l, msg) := by rw [firstCheck, hp]; simp only [hX]
      rw [hf]
      constructor
      · rintro (hb | hb)
        · obtain ⟨j, ej, hr'⟩ := e2 (.inl hb)
          rw [lift_ok ej]
          exact (ih _ _ s l y l' hR (hG.push hr') h).1 (.inl hb)
        · cases hb
      · intro zs m hz hb
        cases hz
        rw [lift_bad (e3 msg hX hb)]
        exact ⟨s, rfl, hR⟩
  | distance r q k ih =>
    intro is ps s l y l' hR hG h
    rw [Alg.run] at h
    obtain ⟨p, hp, h⟩ := lift_inv h
    obtain ⟨p', hp', h⟩ := lift_inv h
    rw [get_bind] at h
    obtain ⟨d, hd, h⟩ := lift_inv h
    obtain ⟨i, hi, hr⟩ := hG.reg hp
    obtain ⟨j, hj, hr'⟩ := hG.reg hp'
    obtain ⟨e1, e2⟩ := S.distance hR hr hr' hd
    have hf : firstCheck X (.distance r q k) ps l = firstCheck X (k d) ps l := by rw [firstCheck, hp, hp', e1]
    rw [hf, Alg.run, lift_ok hi, lift_ok hj, get_bind, lift_ok e2]
    exact ih d is ps s l y l' hR hG h
  | equal r q k ih =>
    intro is ps s l y l' hR hG h
    rw [Alg.run] at h
    obtain ⟨p, hp, h⟩ := lift_inv h
    obtain ⟨p', hp', h⟩ := lift_inv h
    obtain ⟨i, hi, hr⟩ := hG.reg hp
    obtain ⟨j, hj, hr'⟩ := hG.reg hp'
    obtain ⟨e1, e2⟩ := S.equal hr hr'
    have hf : firstCheck X (.equal r q k) ps l = firstCheck X (k (ref.equal p p')) ps l := by rw [firstCheck, hp, hp', e1]
    rw [hf, Alg.run, lift_ok hi, lift_ok hj, e2, ← e1]
    exact ih _ is ps s l y l' hR hG h
  | compare r q k ih =>
    intro is ps s l y l' hR hG h
    rw [Alg.run] at h
    obtain ⟨p, hp, h⟩ := lift_inv h
    obtain ⟨p', hp', h⟩ := lift_inv h
    obtain ⟨o, ho, h⟩ := lift_inv h
    obtain ⟨i, hi, hr⟩ := hG.reg hp
    obtain ⟨j, hj, hr'⟩ := hG.reg hp'
    obtain ⟨e1, e2⟩ := S.compare hr hr' ho
    have hf : firstCheck X (.compare r q k) ps l = firstCheck X (k o) ps l := by rw [firstCheck, hp, hp', e1]
    rw [hf, Alg.run, lift_ok hi, lift_ok hj, lift_ok e2]
    exact ih o is ps s l y l' hR hG h
  | subscript r n k ih =>
    intro is ps s l y l' hR hG h
    rw [Alg.run] at h
    obtain ⟨p, hp, h⟩ := lift_inv h
    rw [get_bind] at h
    obtain ⟨x, hx, h⟩ := lift_inv h
    obtain ⟨i, hi, hr⟩ := hG.reg hp
    obtain ⟨e1, e2, e3⟩ := S.subscript hR hr hx
    rw [Alg.run, lift_ok hi, get_bind]
    cases hX : X.subscript l.length p n with
    | none =>
      have hf : firstCheck X (.subscript r n k) ps l = firstCheck X (k x) ps l := by rw [firstCheck, hp]; simp only [hX, e1]
      rw [hf, lift_ok (e2 (.inr hX))]
      exact ih x _ _ s l y l' hR hG h
    | some msg =>
      have hf : firstCheck X (.subscript r n k) ps l = some (l, msg) := by rw [firstCheck, hp]; simp only [hX]
      rw [hf]
      constructor
      · rintro (hb | hb)
        · rw [lift_ok (e2 (.inl hb))]
          exact (ih x _ _ s l y l' hR hG h).1 (.inl hb)
        · cases hb
      · intro zs m hz hb
        cases hz
        rw [lift_bad (e3 msg hX hb)]
        exact ⟨s, rfl, hR⟩

/-! ## Two containers -/

theorem map_inv {γ δ : Type} {o : Outcome γ} {f : γ → δ} {y : δ} (h : (do let x ← o; pure (f x)) = Outcome.ok y) :
    ∃ x, o = .ok x ∧ f x = y := by
  cases o with
  | ok x => injection h with h; exact ⟨x, rfl, h⟩
  | throw e => cases h
  | ub => cases h
  | terminate => cases h
  | diverge => cases h

theorem map_ok {γ δ : Type} {o : Outcome γ} {f : γ → δ} {x : γ} (h : o = .ok x) : (do let x ← o; pure (f x)) = Outcome.ok (f x) := by
  subst h; rfl

theorem map_bad {γ δ : Type} {o : Outcome γ} {f : γ → δ} {b : Build} {msg : String} (h : o = badAssert b msg) :
    (do let x ← o; pure (f x)) = (badAssert b msg : Outcome δ) := by
  subst h; cases b <;> rfl

/-- The moves of the iterators `I` agree with those of `A`, except that jumps and `[]` may fail an assertion. -/
structure Weak {τ κ : Type} (I : Iters σ ι α) (A : Iters τ κ α) (b : Build) (R : σ → τ → Prop) (rel : ι → κ → Prop) : Prop where
  load : ∀ {s t i p x}, R s t → rel i p → A.load t p = .ok x → I.load s i = .ok x
  store : ∀ {s t i p x t'}, R s t → rel i p → A.store t p x = .ok t' → ∃ s', I.store s i x = .ok s' ∧ R s' t'
  incr : ∀ {s t i p q}, R s t → rel i p → A.incr t p = .ok q → ∃ j, I.incr s i = .ok j ∧ rel j q
  decr : ∀ {s t i p q}, R s t → rel i p → A.decr t p = .ok q → ∃ j, I.decr s i = .ok j ∧ rel j q
  addAssign : ∀ {s t i p q n}, R s t → rel i p → A.addAssign t p n = .ok q →
    (∃ j, I.addAssign s i n = .ok j ∧ rel j q) ∨ (b ≠ .release ∧ ∃ msg, I.addAssign s i n = badAssert b msg)
  subAssign : ∀ {s t i p q n}, R s t → rel i p → A.subAssign t p n = .ok q →
    (∃ j, I.subAssign s i n = .ok j ∧ rel j q) ∨ (b ≠ .release ∧ ∃ msg, I.subAssign s i n = badAssert b msg)
  plus : ∀ {s t i p q n}, R s t → rel i p → A.plus t p n = .ok q →
    (∃ j, I.plus s i n = .ok j ∧ rel j q) ∨ (b ≠ .release ∧ ∃ msg, I.plus s i n = badAssert b msg)
  minus : ∀ {s t i p q n}, R s t → rel i p → A.minus t p n = .ok q →
    (∃ j, I.minus s i n = .ok j ∧ rel j q) ∨ (b ≠ .release ∧ ∃ msg, I.minus s i n = badAssert b msg)
  distance : ∀ {s t i j p q d}, R s t → rel i p → rel j q → A.distance t p q = .ok d → I.distance s i j = .ok d
  equal : ∀ {i j p q}, rel i p → rel j q → I.equal i j = A.equal p q
  compare : ∀ {i j p q o}, rel i p → rel j q → A.compare p q = .ok o → I.compare i j = .ok o
  subscript : ∀ {s t i p n x}, R s t → rel i p → A.subscript t p n = .ok x →
    I.subscript s i n = .ok x ∨ (b ≠ .release ∧ ∃ msg, I.subscript s i n = badAssert b msg)

theorem Sim.weak {I : Iters σ ι α} {ref : Iters (List α) Nat α} {X : Extra} {b : Build} {R : σ → List α → Prop}
    {rel : Nat → ι → Nat → Prop} (S : Sim I ref X b R rel) (n : Nat) :
    Weak I ref b (fun s l => R s l ∧ l.length = n) (rel n) where
  load hR hr h := by obtain ⟨hR, rfl⟩ := hR; exact (S.load hR hr h).2
  store hR hr h := by
    obtain ⟨hR, rfl⟩ := hR
    obtain ⟨e, s', h1, h2⟩ := S.store hR hr h
    exact ⟨s', h1, h2, by rw [e, List.length_set]⟩
  incr hR hr h := by obtain ⟨hR, rfl⟩ := hR; exact (S.incr hR hr h).2
  decr hR hr h := by obtain ⟨hR, rfl⟩ := hR; exact (S.decr hR hr h).2
  addAssign {_ l _ p _ m} hR hr h := by
    obtain ⟨hR, rfl⟩ := hR
    obtain ⟨_, h1, h2⟩ := S.addAssign hR hr h
    cases hx : X.addAssign l.length p m with
    | none => exact .inl (h1 (.inr hx))
    | some msg =>
      by_cases hb : b = .release
      · exact .inl (h1 (.inl hb))
      · exact .inr ⟨hb, msg, h2 msg hx hb⟩
  subAssign {_ l _ p _ m} hR hr h := by
    obtain ⟨hR, rfl⟩ := hR
    obtain ⟨_, h1, h2⟩ := S.subAssign hR hr h
    cases hx : X.subAssign l.length p m with
    | none => exact .inl (h1 (.inr hx))
    | some msg =>
      by_cases hb : b = .release
      · exact .inl (h1 (.inl hb))
      · exact .inr ⟨hb, msg, h2 msg hx hb⟩
  plus {_ l _ p _ m} hR hr h := by
    obtain ⟨hR, rfl⟩ := hR
    obtain ⟨_, h1, h2⟩ := S.plus hR hr h
    cases hx : X.plus l.length p m with
    | none => exact .inl (h1 (.inr hx))
    | some msg =>
      by_cases hb : b = .release
      · exact .inl (h1 (.inl hb))
      · exact .inr ⟨hb, msg, h2 msg hx hb⟩
  minus {_ l _ p _ m} hR hr h := by
    obtain ⟨hR, rfl⟩ := hR
    obtain ⟨_, h1, h2⟩ := S.minus hR hr h
    cases hx : X.minus l.length p m with
    | none => exact .inl (h1 (.inr hx))
    | some msg =>
      by_cases hb : b = .release
      · exact .inl (h1 (.inl hb))
      · exact .inr ⟨hb, msg, h2 msg hx hb⟩
  distance hR hr hr' h := by obtain ⟨hR, rfl⟩ := hR; exact (S.distance hR hr hr' h).2
  equal hr hr' := by obtain ⟨h1, h2⟩ := S.equal hr hr'; rw [h1, h2]
  compare hr hr' h := (S.compare hr hr' h).2
  subscript {_ l _ p m _} hR hr h := by
    obtain ⟨hR, rfl⟩ := hR
    obtain ⟨_, h1, h2⟩ := S.subscript hR hr h
    cases hx : X.subscript l.length p m with
    | none => exact .inl (h1 (.inr hx))
    | some msg =>
      by_cases hb : b = .release
      · exact .inl (h1 (.inl hb))
      · exact .inr ⟨hb, msg, h2 msg hx hb⟩

/-- Iterators of two containers correspond if they belong to the same one and correspond there. -/
def bothRel {ι κ μ ν : Type} (rel : ι → κ → Prop) (rel' : μ → ν → Prop) : ι ⊕ μ → κ ⊕ ν → Prop
  | .inl i, .inl p => rel i p
  | .inr i, .inr p => rel' i p
  | _, _ => False

theorem Weak.both {τ κ σ' ι' τ' κ' : Type} {I : Iters σ ι α} {A : Iters τ κ α} {J : Iters σ' ι' α} {B : Iters τ' κ' α} {b : Build}
    {R : σ → τ → Prop} {rel : ι → κ → Prop} {R' : σ' → τ' → Prop} {rel' : ι' → κ' → Prop} (S : Weak I A b R rel)
    (T : Weak J B b R' rel') :
    Weak (bothIters I J) (bothIters A B) b (fun s t => R s.1 t.1 ∧ R' s.2 t.2) (bothRel rel rel') where
  load {_ _ i p _} hR hr h := by
    cases i <;> cases p <;> first | exact S.load hR.1 hr h | exact T.load hR.2 hr h | exact hr.elim
  store {_ _ i p _ _} hR hr h := by
    cases i <;> cases p
    · obtain ⟨l, hl, h⟩ := map_inv h
      cases h
      obtain ⟨s', h1, h2⟩ := S.store hR.1 hr hl
      exact ⟨_, map_ok h1, h2, hR.2⟩
    · exact hr.elim
    · exact hr.elim
    · obtain ⟨l, hl, h⟩ := map_inv h
      cases h
      obtain ⟨s', h1, h2⟩ := T.store hR.2 hr hl
      exact ⟨_, map_ok h1, hR.1, h2⟩
  incr {_ _ i p _} hR hr h := by
    cases i <;> cases p
    · obtain ⟨q, hq, h⟩ := map_inv h
      cases h
      obtain ⟨j, h1, h2⟩ := S.incr hR.1 hr hq
      exact ⟨_, map_ok h1, h2⟩
    · exact hr.elim
    · exact hr.elim
    · obtain ⟨q, hq, h⟩ := map_inv h
      cases h
      obtain ⟨j, h1, h2⟩ := T.incr hR.2 hr hq
      exact ⟨_, map_ok h1, h2⟩
  decr {_ _ i p _} hR hr h := by
    cases i <;> cases p
    · obtain ⟨q, hq, h⟩ := map_inv h
      cases h
      obtain ⟨j, h1, h2⟩ := S.decr hR.1 hr hq
      exact ⟨_, map_ok h1, h2⟩
    · exact hr.elim
    · exact hr.elim
    · obtain ⟨q, hq, h⟩ := map_inv h
      cases h
      obtain ⟨j, h1, h2⟩ := T.decr hR.2 hr hq
      exact ⟨_, map_ok h1, h2⟩
  addAssign {_ _ i p _ _} hR hr h := by
    cases i <;> cases p
    · obtain ⟨q, hq, h⟩ := map_inv h
      cases h
      rcases S.addAssign hR.1 hr hq with ⟨j, h1, h2⟩ | ⟨hb, msg, h1⟩
      · exact .inl ⟨_, map_ok h1, h2⟩
      · exact .inr ⟨hb, msg, map_bad h1⟩
    · exact hr.elim
    · exact hr.elim
    · obtain ⟨q, hq, h⟩ := map_inv h
      cases h
      rcases T.addAssign hR.2 hr hq with ⟨j, h1, h2⟩ | ⟨hb, msg, h1⟩
      · exact .inl ⟨_, map_ok h1, h2⟩
      · exact .inr ⟨hb, msg, map_bad h1⟩
  subAssign {_ _ i p _ _} hR hr h := by
    cases i <;> cases p
    · obtain ⟨q, hq, h⟩ := map_inv h
      cases h
      rcases S.subAssign hR.1 hr hq with ⟨j, h1, h2⟩ | ⟨hb, msg, h1⟩
      · exact .inl ⟨_, map_ok h1, h2⟩
      · exact .inr ⟨hb, msg, map_bad h1⟩
    · exact hr.elim
    · exact hr.elim
    · obtain ⟨q, hq, h⟩ := map_inv h
      cases h
      rcases T.subAssign hR.2 hr hq with ⟨j, h1, h2⟩ | ⟨hb, msg, h1⟩
      · exact .inl ⟨_, map_ok h1, h2⟩
      · exact .inr ⟨hb, msg, map_bad h1⟩
  plus {_ _ i p _ _} hR hr h := by
    cases i <;> cases p
    · obtain ⟨q, hq, h⟩ := map_inv h
      cases h
      rcases S.plus hR.1 hr hq with ⟨j, h1, h2⟩ | ⟨hb, msg, h1⟩
      · exact .inl ⟨_, map_ok h1, h2⟩
      · exact .inr ⟨hb, msg, map_bad h1⟩
    · exact hr.elim
    · exact hr.elim
    · obtain ⟨q, hq, h⟩ := map_inv h
      cases h
      rcases T.plus hR.2 hr hq with ⟨j, h1, h2⟩ | ⟨hb, msg, h1⟩
      · exact .inl ⟨_, map_ok h1, h2⟩
      · exact .inr ⟨hb, msg, map_bad h1⟩
  minus {_ _ i p _ _} hR hr h := by
    cases i <;> cases p
    · obtain ⟨q, hq, h⟩ := map_inv h
      cases h
      rcases S.minus hR.1 hr hq with ⟨j, h1, h2⟩ | ⟨hb, msg, h1⟩
      · exact .inl ⟨_, map_ok h1, h2⟩
      · exact .inr ⟨hb, msg, map_bad h1⟩
    · exact hr.elim
    · exact hr.elim
    · obtain ⟨q, hq, h⟩ := map_inv h
      cases h
      rcases T.minus hR.2 hr hq with ⟨j, h1, h2⟩ | ⟨hb, msg, h1⟩
      · exact .inl ⟨_, map_ok h1, h2⟩
      · exact .inr ⟨hb, msg, map_bad h1⟩
  distance {_ _ i j p q _} hR hr hr' h := by
    cases i <;> cases p <;> first | exact hr.elim | skip
    all_goals cases j <;> cases q <;> first | exact hr'.elim | skip
    all_goals first | exact S.distance hR.1 hr hr' h | exact T.distance hR.2 hr hr' h | cases h
  equal {i j p q} hr hr' := by
    cases i <;> cases p <;> first | exact hr.elim | skip
    all_goals cases j <;> cases q <;> first | exact hr'.elim | skip
    all_goals first | exact S.equal hr hr' | exact T.equal hr hr' | rfl
  compare {i j p q _} hr hr' h := by
    cases i <;> cases p <;> first | exact hr.elim | skip
    all_goals cases j <;> cases q <;> first | exact hr'.elim | skip
    all_goals first | exact S.compare hr hr' h | exact T.compare hr hr' h | cases h
  subscript {_ _ i p _ _} hR hr h := by
    cases i <;> cases p <;> first | exact S.subscript hR.1 hr h | exact T.subscript hR.2 hr h | exact hr.elim

/-- The same algorithm over two kinds of iterators: the same result, or a failed assertion. -/
theorem Weak.run {τ κ : Type} {I : Iters σ ι α} {A : Iters τ κ α} {b : Build} {R : σ → τ → Prop} {rel : ι → κ → Prop}
    (S : Weak I A b R rel) (prog : Prog α β) :
    ∀ (is : List ι) (ps : List κ) (s : σ) (t : τ) (y : β) (t' : τ), R s t → Regs rel is ps →
      Alg.run A prog ps t = (.ok y, t') →
      (∃ s', Alg.run I prog is s = (.ok y, s') ∧ R s' t') ∨
      (b ≠ .release ∧ ¬ StepsOnly prog ∧ ∃ msg s' zs, Alg.run I prog is s = (badAssert b msg, s') ∧ R s' zs) := by
  induction prog with
  | ret x =>
    intro is ps s t y t' hR _ h
    rw [Alg.run] at h ⊢
    cases h
    exact .inl ⟨s, rfl, hR⟩
  | load r k ih =>
    intro is ps s t y t' hR hG h
    rw [Alg.run] at h
    obtain ⟨p, hp, h⟩ := lift_inv h
    rw [get_bind] at h
    obtain ⟨x, hx, h⟩ := lift_inv h
    obtain ⟨i, hi, hr⟩ := hG.reg hp
    rw [Alg.run, lift_ok hi, get_bind, lift_ok (S.load hR hr hx)]
    exact (ih x is ps s t y t' hR hG h).imp id fun h => ⟨h.1, fun e => h.2.1 (e x), h.2.2⟩
  | store r x k ih =>
    intro is ps s t y t' hR hG h
    rw [Alg.run] at h
    obtain ⟨p, hp, h⟩ := lift_inv h
    rw [get_bind] at h
    obtain ⟨m, hm, h⟩ := lift_inv h
    rw [set_bind] at h
    obtain ⟨i, hi, hr⟩ := hG.reg hp
    obtain ⟨s', e2, hR'⟩ := S.store hR hr hm
    rw [Alg.run, lift_ok hi, get_bind, lift_ok e2, set_bind]
    exact ih is ps s' m y t' hR' hG h
  | copy r k ih =>
    intro is ps s t y t' hR hG h
    rw [Alg.run] at h
    obtain ⟨p, hp, h⟩ := lift_inv h
    obtain ⟨i, hi, hr⟩ := hG.reg hp
    rw [Alg.run, lift_ok hi]
    exact ih _ _ s t y t' hR (hG.push hr) h
  | incr r k ih =>
    intro is ps s t y t' hR hG h
    rw [Alg.run] at h
    obtain ⟨p, hp, h⟩ := lift_inv h
    rw [get_bind] at h
    obtain ⟨q, hq, h⟩ := lift_inv h
    obtain ⟨i, hi, hr⟩ := hG.reg hp
    obtain ⟨j, e2, hr'⟩ := S.incr hR hr hq
    rw [Alg.run, lift_ok hi, get_bind, lift_ok e2]
    exact ih _ _ s t y t' hR (hG.set r hr') h
  | decr r k ih =>
    intro is ps s t y t' hR hG h
    rw [Alg.run] at h
    obtain ⟨p, hp, h⟩ := lift_inv h
    rw [get_bind] at h
    obtain ⟨q, hq, h⟩ := lift_inv h
    obtain ⟨i, hi, hr⟩ := hG.reg hp
    obtain ⟨j, e2, hr'⟩ := S.decr hR hr hq
    rw [Alg.run, lift_ok hi, get_bind, lift_ok e2]
    exact ih _ _ s t y t' hR (hG.set r hr') h
  | addAssign r n k ih =>
    intro is ps s t y t' hR hG h
    rw [Alg.run] at h
    obtain ⟨p, hp, h⟩ := lift_inv h
    rw [get_bind] at h
    obtain ⟨q, hq, h⟩ := lift_inv h
    obtain ⟨i, hi, hr⟩ := hG.reg hp
    rw [Alg.run, lift_ok hi, get_bind]
    rcases S.addAssign hR hr hq with ⟨j, e2, hr'⟩ | ⟨hb, msg, e⟩
    · rw [lift_ok e2]
      exact (ih _ _ s t y t' hR (hG.set r hr') h).imp id fun h => ⟨h.1, fun e => e.elim, h.2.2⟩
    · rw [lift_bad e]
      exact .inr ⟨hb, fun e => e.elim, msg, s, t, rfl, hR⟩
  | subAssign r n k ih =>
    intro is ps s t y t' hR hG h
    rw [Alg.run] at h
    obtain ⟨p, hp, h⟩ := lift_inv h
    rw [get_bind] at h
    obtain ⟨q, hq, h⟩ := lift_inv h
    obtain ⟨i, hi, hr⟩ := hG.reg hp
    rw [Alg.run, lift_ok hi, get_bind]
    rcases S.subAssign hR hr hq with ⟨j, e2, hr'⟩ | ⟨hb, msg, e⟩
    · rw [lift_ok e2]
      exact (ih _ _ s t y t' hR (hG.set r hr') h).imp id fun h => ⟨h.1, fun e => e.elim, h.2.2⟩
    · rw [lift_bad e]
      exact .inr ⟨hb, fun e => e.elim, msg, s, t, rfl, hR⟩
  | plus r n k ih =>
    intro is ps s t y t' hR hG h
    rw [Alg.run] at h
    obtain ⟨p, hp, h⟩ := lift_inv h
    rw [get_bind] at h
    obtain ⟨q, hq, h⟩ := lift_inv h
    obtain ⟨i, hi, hr⟩ := hG.reg hp
    rw [Alg.run, lift_ok hi, get_bind]
    rcases S.plus hR hr hq with ⟨j, e2, hr'⟩ | ⟨hb, msg, e⟩
    · rw [lift_ok e2]
      exact (ih _ _ s t y t' hR (hG.push hr') h).imp id fun h => ⟨h.1, fun e => e.elim, h.2.2⟩
    · rw [lift_bad e]
      exact .inr ⟨hb, fun e => e.elim, msg, s, t, rfl, hR⟩
  | minus r n k ih =>
    intro is ps s t y t' hR hG h
    rw [Alg.run] at h
    obtain ⟨p, hp, h⟩ := lift_inv h
    rw [get_bind] at h
    obtain ⟨q, hq, h⟩ := lift_inv h
    obtain ⟨i, hi, hr⟩ := hG.reg hp
    rw [Alg.run, lift_ok hi, get_bind]
    rcases S.minus hR hr hq with ⟨j, e2, hr'⟩ | ⟨hb, msg, e⟩
    · rw [lift_ok e2]
      exact (ih _ _ s t y t' hR (hG.push hr') h).imp id fun h => ⟨h.1, fun e => e.elim, h.2.2⟩
    · rw [lift_bad e]
      exact .inr ⟨hb, fun e => e.elim, msg, s, t, rfl, hR⟩
  | distance r q k ih =>
    intro is ps s t y t' hR hG h
    rw [Alg.run] at h
    obtain ⟨p, hp, h⟩ := lift_inv h
    obtain ⟨p', hp', h⟩ := lift_inv h
    rw [get_bind] at h
    obtain ⟨d, hd, h⟩ := lift_inv h
    obtain ⟨i, hi, hr⟩ := hG.reg hp
    obtain ⟨j, hj, hr'⟩ := hG.reg hp'
    rw [Alg.run, lift_ok hi, lift_ok hj, get_bind, lift_ok (S.distance hR hr hr' hd)]
    exact (ih d is ps s t y t' hR hG h).imp id fun h => ⟨h.1, fun e => h.2.1 (e d), h.2.2⟩
  | equal r q k ih =>
    intro is ps s t y t' hR hG h
    rw [Alg.run] at h
    obtain ⟨p, hp, h⟩ := lift_inv h
    obtain ⟨p', hp', h⟩ := lift_inv h
    obtain ⟨i, hi, hr⟩ := hG.reg hp
    obtain ⟨j, hj, hr'⟩ := hG.reg hp'
    rw [Alg.run, lift_ok hi, lift_ok hj, S.equal hr hr']
    exact (ih _ is ps s t y t' hR hG h).imp id fun h => ⟨h.1, fun e => h.2.1 (e _), h.2.2⟩
  | compare r q k ih =>
    intro is ps s t y t' hR hG h
    rw [Alg.run] at h
    obtain ⟨p, hp, h⟩ := lift_inv h
    obtain ⟨p', hp', h⟩ := lift_inv h
    obtain ⟨o, ho, h⟩ := lift_inv h
    obtain ⟨i, hi, hr⟩ := hG.reg hp
    obtain ⟨j, hj, hr'⟩ := hG.reg hp'
    rw [Alg.run, lift_ok hi, lift_ok hj, lift_ok (S.compare hr hr' ho)]
    exact (ih o is ps s t y t' hR hG h).imp id fun h => ⟨h.1, fun e => h.2.1 (e o), h.2.2⟩
  | subscript r n k ih =>
    intro is ps s t y t' hR hG h
    rw [Alg.run] at h
    obtain ⟨p, hp, h⟩ := lift_inv h
    rw [get_bind] at h
    obtain ⟨x, hx, h⟩ := lift_inv h
    obtain ⟨i, hi, hr⟩ := hG.reg hp
    rw [Alg.run, lift_ok hi, get_bind]
    rcases S.subscript hR hr hx with e2 | ⟨hb, msg, e⟩
    · rw [lift_ok e2]
      exact (ih x _ _ s t y t' hR hG h).imp id fun h => ⟨h.1, fun e => e.elim, h.2.2⟩
    · rw [lift_bad e]
      exact .inr ⟨hb, fun e => e.elim, msg, s, t, rfl, hR⟩

end Wite.Alg
