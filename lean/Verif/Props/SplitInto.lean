import Verif.Model.SplitInto
import Verif.Lemmas.StaticVector
import Verif.Props.Strings

/-!
# C187: splitting into containers other than `std::vector`
-/

namespace Wite.Props

open Wite.Split Wite.Collections Wite.Spec.StaticVector

variable {α : Type} [DecidableEq α] {σ : Type}

/-- `push_back` of each piece in turn, up to the first that does not end normally. -/
private def pushEach (push : List α → St σ Unit) : List (List α) → σ → Outcome Unit × σ
  | [], out => (.ok (), out)
  | p :: ps, out =>
    match (push p).run out with
    | (.ok (), out') => pushEach push ps out'
    | stopped => stopped

private theorem splitLoop_eq (push : List α → St σ Unit) (delim : α) (b : Behaviour) : ∀ (n : Nat) (s : List α),
    s.length = n → ∀ out, (splitLoop push s delim b).run out = pushEach push (splitTo s delim b) out := by
  intro n
  induction n using Nat.strongRecOn with
  | _ n ih =>
    intro s hs out
    rw [St.run, splitLoop, splitTo]
    by_cases hc : b = .keepEmpty ∨ (b = .dropEmpty ∧ (firstToken s delim b).1 ≠ [])
    · rw [if_pos hc, if_pos hc]
      by_cases h : (firstToken s delim b).2.2 = true
      · rw [dif_pos h, List.singleton_append, pushEach]
        rcases (push (firstToken s delim b).1).run out with ⟨o, out'⟩
        cases o <;> simp only []
        rw [dif_pos h]
        exact ih _ (hs ▸ firstToken_shorter s delim b h) _ rfl _
      · rw [dif_neg h, pushEach]
        rcases (push (firstToken s delim b).1).run out with ⟨o, out'⟩
        cases o <;> simp only [pushEach]
        rw [dif_neg h]
    · rw [if_neg hc, if_neg hc]
      by_cases h : (firstToken s delim b).2.2 = true
      · simp only [dif_pos h, List.nil_append]
        exact ih _ (hs ▸ firstToken_shorter s delim b h) _ rfl _
      · simp only [dif_neg h, pushEach]

omit [DecidableEq α] in
private theorem pushEach_fits {cap : Nat} (hcap : cap < 2 ^ 64 - 1) : ∀ (ps : List (List α)) (l : List (List α))
    (v : StaticVector (List α)), StaticVector.Holds cap v l →
    if l.length + ps.length ≤ cap then
      ∃ v', pushEach StaticVector.pushBack ps v = (.ok (), v') ∧ StaticVector.Holds cap v' (l ++ ps)
    else ∃ v' e, pushEach StaticVector.pushBack ps v = (.throw e, v') := by
  intro ps
  induction ps with
  | nil =>
    intro l v h
    have hl : l.length ≤ cap := by
      obtain ⟨rest, h1, h2, h3⟩ := h
      rw [← h3, h1]; simp
    rw [if_pos (by simpa using hl)]
    exact ⟨v, rfl, by simpa using h⟩
  | cons p ps ih =>
    intro l v h
    have hsz : v.size = l.length := h.choose_spec.2.1
    have hl : l.length ≤ cap := by
      obtain ⟨rest, h1, h2, h3⟩ := h
      rw [← h3, h1]; simp
    have hr := StaticVector.resize_eq h (l.length + 1) p
    have hp : (StaticVector.pushBack p).run v = StaticVector.resize (l.length + 1) p v := by
      show StaticVector.resize ((v.size + 1) % 2 ^ 64) p v = _
      rw [hsz, Nat.mod_eq_of_lt (by omega)]
    by_cases hroom : l.length + 1 ≤ cap
    · rw [if_pos hroom] at hr
      obtain ⟨v', h1, h2⟩ := hr
      have hres : resized l (l.length + 1) p = l ++ [p] := by
        rw [resized, List.take_of_length_le (by omega)]; simp
      rw [hres] at h2
      have := ih (l ++ [p]) v' h2
      rw [List.length_append, List.append_assoc] at this
      simp only [List.length_cons, List.length_nil, List.singleton_append] at this ⊢
      rw [pushEach, hp, h1]
      have hn : l.length + (0 + 1) + ps.length = l.length + (ps.length + 1) := by omega
      rw [hn] at this
      exact this
    · rw [if_neg hroom] at hr
      rw [if_neg (by simp only [List.length_cons]; omega)]
      exact ⟨v, _, by rw [pushEach, hp, hr]; rfl⟩

/-- C187: into every container whose `push_back` appends and does not fail, the pieces are those of
`split`, in order: `items` says what the container holds. -/
theorem c187_any_container_partial (start : σ) (push : List α → St σ Unit) (items : σ → List (List α))
    (h0 : items start = [])
    (hpush : ∀ p out, ∃ out', (push p).run out = (.ok (), out') ∧ items out' = items out ++ [p])
    (s : List α) (c : α) (b : Behaviour) :
    ∃ out, splitInto start push s c b = .ok out ∧ items out = split s c b := by
  have key : ∀ (ps : List (List α)) out, ∃ out', pushEach push ps out = (.ok (), out') ∧
      items out' = items out ++ ps := by
    intro ps
    induction ps with
    | nil => intro out; exact ⟨out, rfl, by simp⟩
    | cons p ps ih =>
      intro out
      obtain ⟨o1, h1, h2⟩ := hpush p out
      obtain ⟨o2, h3, h4⟩ := ih o1
      exact ⟨o2, by rw [pushEach, h1]; exact h3, by rw [h4, h2]; simp⟩
  obtain ⟨out, h1, h2⟩ := key (splitTo s c b) start
  refine ⟨out, ?_, by rw [h2, h0]; rfl⟩
  rw [splitInto, splitLoop_eq push c b _ s rfl, h1]
  rfl

/-- C187: into a container whose `push_back` throws at some piece, the program is terminated: no
exception ever reaches the caller of `split_to`. -/
theorem c187_no_exception (start : σ) (push : List α → St σ Unit) (s : List α) (c : α) (b : Behaviour) (e : Exc) :
    splitInto start push s c b ≠ .throw e := by
  unfold splitInto
  rcases (splitLoop push s c b).run start with ⟨o, out⟩
  cases o <;> simp [noexcept]

/-- C187: a `static_vector` with room for all pieces shows exactly the pieces of `split`. -/
theorem c187_static_fits_partial (cap : Nat) (hcap : cap < 2 ^ 64 - 1) (s : List α) (c : α) (b : Behaviour)
    (hfit : (split s c b).length ≤ cap) :
    ∃ v, splitToStatic cap s c b = .ok v ∧ Shows cap v (split s c b) := by
  have := pushEach_fits hcap (splitTo s c b) [] _ (StaticVector.holds_empty cap)
  rw [if_pos (by simpa [split] using hfit)] at this
  obtain ⟨v, h1, h2⟩ := this
  refine ⟨v, ?_, StaticVector.holds_shows (by omega) (by simpa [split] using h2)⟩
  rw [splitToStatic, splitInto, splitLoop_eq _ c b _ s rfl, h1]
  rfl

/-- C187 refuted, for every string, delimiter, behaviour and capacity: one piece more than the
capacity and the program is terminated, although `push_back` throws an exception that says why. -/
theorem c187_refuted_full (cap : Nat) (hcap : cap < 2 ^ 64 - 1) (s : List α) (c : α) (b : Behaviour)
    (hfull : cap < (split s c b).length) : splitToStatic cap s c b = .terminate := by
  have := pushEach_fits hcap (splitTo s c b) [] _ (StaticVector.holds_empty cap)
  rw [if_neg (by simpa [split] using hfull)] at this
  obtain ⟨v, e, h1⟩ := this
  rw [splitToStatic, splitInto, splitLoop_eq _ c b _ s rfl, h1]
  rfl

/-- C187: with `keep_empty` the number of delimiters decides: the call returns exactly when there are
fewer than the capacity, and terminates the program otherwise. -/
theorem c187_refuted_delimiters (cap : Nat) (hcap : cap < 2 ^ 64 - 1) (s : List α) (c : α) :
    ((∃ v, splitToStatic cap s c .keepEmpty = .ok v) ↔ s.count c < cap) ∧
    (splitToStatic cap s c .keepEmpty = .terminate ↔ cap ≤ s.count c) := by
  have hc := c02_keep_empty_count c s
  by_cases h : s.count c < cap
  · obtain ⟨v, h1, _⟩ := c187_static_fits_partial cap hcap s c .keepEmpty (by omega)
    rw [h1]
    exact ⟨⟨fun _ => h, fun _ => ⟨v, rfl⟩⟩, ⟨nofun, fun h' => absurd h (by omega)⟩⟩
  · rw [c187_refuted_full cap hcap s c .keepEmpty (by omega)]
    exact ⟨⟨nofun, fun h' => absurd h' h⟩, ⟨fun _ => by omega, fun _ => rfl⟩⟩

/-- C187: splitting a C string does the same to the text before its first NUL, and a null pointer gives
an empty vector. -/
theorem c187_pointer (cap : Nat) (m rest : List Nat) (hm : 0 ∉ m) (c : Nat) (b : Behaviour) :
    splitToStaticPtr cap (some (m ++ 0 :: rest)) c b = splitToStatic cap m c b ∧
    ∃ v, splitToStaticPtr cap none c b = .ok v ∧ v.size = 0 ∧ v.iterate = .ok [] := by
  refine ⟨?_, _, rfl, rfl, rfl⟩
  have h1 : (m ++ 0 :: rest).takeWhile (· != 0) = m := by
    rw [List.takeWhile_append_of_pos (fun a ha => by simpa using fun h : a = 0 => hm (h ▸ ha))]
    simp
  rw [splitToStaticPtr, viewOfPtr, if_pos (by simp), h1]
  rfl

/-! `"a,,b"` has three pieces, two of which are not empty; the delimiter is `,` = 44. -/

private theorem keep3 : (split [97, 44, 44, 98] 44 .keepEmpty).length = 3 := by
  rw [split, splitTo_keep]; decide
private theorem drop2 : (split [97, 44, 44, 98] 44 .dropEmpty).length = 2 := by
  rw [split, splitTo_drop]; decide

example : splitToStatic 2 [97, 44, 44, 98] 44 .keepEmpty = .terminate :=
  c187_refuted_full 2 (by decide) _ _ _ (by rw [keep3]; decide)
example : ∃ v, splitToStatic 2 [97, 44, 44, 98] 44 .dropEmpty = .ok v ∧ v.iterate = .ok [[97], [98]] := by
  obtain ⟨v, h1, h2⟩ := c187_static_fits_partial 2 (by decide) [97, 44, 44, 98] 44 .dropEmpty (by rw [drop2])
  refine ⟨v, h1, ?_⟩
  rw [h2.2.2.2.1, split, splitTo_drop]; decide
example : splitToStaticPtr 2 (some [97, 44, 44, 98, 0, 7]) 44 .keepEmpty = .terminate := by
  have := (c187_pointer 2 [97, 44, 44, 98] [7] (by decide) 44 .keepEmpty).1
  rw [List.cons_append, List.cons_append, List.cons_append, List.cons_append, List.nil_append] at this
  rw [this]
  exact ((c187_refuted_delimiters 2 (by decide) [97, 44, 44, 98] 44).2).2 (by decide)

end Wite.Props
