import Verif.Model.StringCalls

/-!
# Which calls of the string functions compile

C146: the trimming functions and their arguments.  C147: splitting and joining.
-/

namespace Wite.Props

open Wite.StringCalls

/-- The argument that is a variable holding a value of type `t`, declared `const auto` as in the documentation. -/
abbrev asVariable (t : Ty) : Arg := ⟨t, true, true⟩

/-- The argument that is the result of a call, or of `std::move`. -/
abbrev asTemporary (t : Ty) : Arg := ⟨t, false, false⟩

/-- The three trimming functions. -/
abbrev trimmers : List (Arg → Verdict Ty) := [trimLeft, trimRight, strip]

private theorem trimmers_cases {P : (Arg → Verdict Ty) → Prop} (h1 : P trimLeft) (h2 : P trimRight) (h3 : P strip) :
    ∀ f ∈ trimmers, P f := by
  intro f hf
  simp only [trimmers, List.mem_cons, List.not_mem_nil, or_false] at hf
  rcases hf with rfl | rfl | rfl <;> assumption

/-! ## C146: trimming -/

/-- C146 refuted: no variable of a string, view or container type is accepted.  For a variable the type
parameter of the forwarding overload is deduced as a reference, references have no nested `value_type`, and the
overload for pointers takes no classes.  The only variables accepted are C strings and character arrays. -/
theorem c146_refuted_variables :
    ∀ f ∈ trimmers, ∀ (k : Bool),
      (∀ c, f ⟨.str c, k, true⟩ = .noMatch ∧ f ⟨.view c, k, true⟩ = .noMatch) ∧
      (∀ t, f ⟨.vec t, k, true⟩ = .noMatch ∧ f ⟨.ilist t, k, true⟩ = .noMatch) ∧
      (∀ t r, f ⟨t, k, true⟩ = .ok r ↔
        ∃ c, (c = .char ∨ c = .wchar) ∧ (t = .ptr c ∨ ∃ n, t = .arr c n) ∧ r = .str c) := by
  refine trimmers_cases ?_ ?_ ?_ <;>
  · intro k
    refine ⟨fun c => ⟨rfl, rfl⟩, fun t => ⟨rfl, rfl⟩, fun t r => ?_⟩
    constructor
    · intro h
      cases t with
      | ptr c => cases c <;> first | exact ⟨_, .inl rfl, .inl rfl, (Verdict.ok.inj h).symm⟩ |
          exact ⟨_, .inr rfl, .inl rfl, (Verdict.ok.inj h).symm⟩ | exact nomatch h
      | arr c n => cases c <;> first | exact ⟨_, .inl rfl, .inr ⟨_, rfl⟩, (Verdict.ok.inj h).symm⟩ |
          exact ⟨_, .inr rfl, .inr ⟨_, rfl⟩, (Verdict.ok.inj h).symm⟩ | exact nomatch h
      | _ => exact nomatch h
    · rintro ⟨c, rfl | rfl, rfl | ⟨n, rfl⟩, rfl⟩ <;> rfl

-- `std::string s = " text "; trim_left(s);` does not compile; `const char* s = " text "; trim_left(s);` does
example : trimLeft (asVariable (.str .char)) = .noMatch ∧ trimLeft (asVariable (.ptr .char)) = .ok (.str .char) :=
  ⟨rfl, rfl⟩

/-- C146 refuted: the documentation trims a text in two steps, `const auto tidier = trim_left(messy); const auto tidy =
trim_right(tidier);`.  For whatever argument the first step compiles, and whichever two of the functions are used,
the second step does not.  Nesting the calls compiles. -/
theorem c146_refuted_chained :
    ∀ f ∈ trimmers, ∀ g ∈ trimmers, ∀ (a : Arg) (t : Ty), f a = .ok t →
      g (asVariable t) = .noMatch ∧ g (asTemporary t) = .ok t := by
  have key : ∀ f ∈ trimmers, ∀ (a : Arg) (t : Ty), f a = .ok t → t = .str .char ∨ t = .str .wchar := by
    refine trimmers_cases ?_ ?_ ?_ <;>
    · rintro ⟨ty, k, l⟩ t h
      cases l
      · cases ty with
        | str c => cases c <;> first | exact .inl (Verdict.ok.inj h).symm | exact .inr (Verdict.ok.inj h).symm | exact nomatch h
        | view c => cases c <;> first | exact .inl (Verdict.ok.inj h).symm | exact .inr (Verdict.ok.inj h).symm | exact nomatch h
        | ptr c => cases c <;> first | exact .inl (Verdict.ok.inj h).symm | exact .inr (Verdict.ok.inj h).symm | exact nomatch h
        | arr c n => cases c <;> first | exact .inl (Verdict.ok.inj h).symm | exact .inr (Verdict.ok.inj h).symm | exact nomatch h
        | vec e =>
          cases e with
          | chr c => cases c <;> first | exact .inl (Verdict.ok.inj h).symm | exact .inr (Verdict.ok.inj h).symm | exact nomatch h
          | _ => exact nomatch h
        | ilist e =>
          cases e with
          | chr c => cases c <;> first | exact .inl (Verdict.ok.inj h).symm | exact .inr (Verdict.ok.inj h).symm | exact nomatch h
          | _ => exact nomatch h
        | _ => exact nomatch h
      · cases ty with
        | ptr c => cases c <;> first | exact .inl (Verdict.ok.inj h).symm | exact .inr (Verdict.ok.inj h).symm | exact nomatch h
        | arr c n => cases c <;> first | exact .inl (Verdict.ok.inj h).symm | exact .inr (Verdict.ok.inj h).symm | exact nomatch h
        | _ => exact nomatch h
  intro f hf g hg a t h
  rcases key f hf a t h with rfl | rfl <;>
  · revert g
    exact trimmers_cases ⟨rfl, rfl⟩ ⟨rfl, rfl⟩ ⟨rfl, rfl⟩

-- the documentation's example, and the same with the calls nested
example : trimLeft (asVariable (.ptr .char)) = .ok (.str .char) ∧ trimRight (asVariable (.str .char)) = .noMatch ∧
    trimRight (asTemporary (.str .char)) = .ok (.str .char) := ⟨rfl, rfl, rfl⟩

/-- C146, what holds of temporaries: exactly the texts of `char` and `wchar_t` are accepted, and the result is a
string of the same character type.  `trim_left` takes initialiser lists of characters too, which the others do not. -/
theorem c146_temporaries_partial (t : Ty) (k : Bool) (r : Ty) :
    (trimLeft ⟨t, k, false⟩ = .ok r ↔ ∃ c, (c = .char ∨ c = .wchar) ∧ r = .str c ∧
      (t = .str c ∨ t = .view c ∨ t = .ptr c ∨ (∃ n, t = .arr c n) ∨ t = .vec (.chr c) ∨ t = .ilist (.chr c))) ∧
    (∀ f ∈ [trimRight, strip], f ⟨t, k, false⟩ = .ok r ↔ ∃ c, (c = .char ∨ c = .wchar) ∧ r = .str c ∧
      (t = .str c ∨ t = .view c ∨ t = .ptr c ∨ (∃ n, t = .arr c n) ∨ t = .vec (.chr c))) := by
  constructor
  · constructor
    · intro h
      cases t with
      | str c | view c | ptr c | arr c n =>
        cases c <;> first
          | exact ⟨_, .inl rfl, (Verdict.ok.inj h).symm, by simp⟩
          | exact ⟨_, .inr rfl, (Verdict.ok.inj h).symm, by simp⟩
          | exact nomatch h
      | vec e | ilist e =>
        cases e with
        | chr c => cases c <;> first
          | exact ⟨_, .inl rfl, (Verdict.ok.inj h).symm, by simp⟩
          | exact ⟨_, .inr rfl, (Verdict.ok.inj h).symm, by simp⟩
          | exact nomatch h
        | _ => exact nomatch h
      | _ => exact nomatch h
    · rintro ⟨c, rfl | rfl, rfl, rfl | rfl | rfl | ⟨n, rfl⟩ | rfl | rfl⟩ <;> rfl
  · intro f hf
    simp only [List.mem_cons, List.not_mem_nil, or_false] at hf
    rcases hf with rfl | rfl <;>
    · constructor
      · intro h
        cases t with
        | str c | view c | ptr c | arr c n =>
          cases c <;> first
            | exact ⟨_, .inl rfl, (Verdict.ok.inj h).symm, by simp⟩
            | exact ⟨_, .inr rfl, (Verdict.ok.inj h).symm, by simp⟩
            | exact nomatch h
        | vec e | ilist e =>
          cases e with
          | chr c => cases c <;> first
            | exact ⟨_, .inl rfl, (Verdict.ok.inj h).symm, by simp⟩
            | exact ⟨_, .inr rfl, (Verdict.ok.inj h).symm, by simp⟩
            | exact nomatch h
          | _ => exact nomatch h
        | _ => exact nomatch h
      · rintro ⟨c, rfl | rfl, rfl, rfl | rfl | rfl | ⟨n, rfl⟩ | rfl⟩ <;> rfl

-- an initialiser list of characters can be trimmed on the left only; UTF-16 text not at all
example : trimLeft (asTemporary (.ilist (.chr .char))) = .ok (.str .char) ∧
    trimRight (asTemporary (.ilist (.chr .char))) = .error ∧ trimLeft (asTemporary (.str .char16)) = .error :=
  ⟨rfl, rfl, rfl⟩

/-- C146, the ways round: for a variable holding a string of `char` or `wchar_t`, the calls with `std::move(s)`, with a
view made of it on the spot, and with `s.c_str()` all compile, and all give a string of the same type. -/
theorem c146_ways_round_partial :
    ∀ f ∈ trimmers, ∀ (c : CharTy), c = .char ∨ c = .wchar →
      f ⟨.str c, true, true⟩ = .noMatch ∧ f ⟨.str c, false, true⟩ = .noMatch ∧
      f (asTemporary (.str c)) = .ok (.str c) ∧ f (asTemporary (.view c)) = .ok (.str c) ∧
      f (asTemporary (.ptr c)) = .ok (.str c) := by
  refine trimmers_cases ?_ ?_ ?_ <;>
  · rintro c (rfl | rfl) <;> exact ⟨rfl, rfl, rfl, rfl, rfl⟩

example : strip (asTemporary (.view .wchar)) = .ok (.str .wchar) := rfl

/-! ## C147: splitting and joining -/

/-- C147 refuted: `split` takes no `std::string`, neither as a variable nor as a temporary, with or without a
delimiter, in no version of the language. -/
theorem c147_refuted_strings (std : Std) (c : CharTy) (k l : Bool) (delim : Option CharTy) :
    split std ⟨.str c, k, l⟩ delim = .noMatch := by
  cases delim <;> rfl

example : split .cpp20 (asVariable (.str .char)) (some .char) = .noMatch := rfl

/-- C147 refuted: a C string or literal can be split with the default delimiter only; with a delimiter no overload
of `split` takes it.  The documentation's `const auto csv_row = { "..." }; split(csv_row, ',')` passes an initialiser
list, which `split` takes neither with nor without a delimiter. -/
theorem c147_refuted_delimiters (std : Std) (c d : CharTy) (n : Nat) (k l : Bool) :
    split std ⟨.ptr c, k, l⟩ (some d) = .noMatch ∧ split std ⟨.arr c n, k, l⟩ (some d) = .noMatch ∧
    (∀ t delim, split std ⟨.ilist t, k, l⟩ delim = .noMatch) := by
  refine ⟨rfl, rfl, fun t delim => by cases delim <;> rfl⟩

example : split .cpp20 (asVariable (.ptr .char)) none = .ok (.vec (.str .char)) ∧
    split .cpp20 (asVariable (.ptr .char)) (some .char) = .noMatch := ⟨rfl, rfl⟩

/-- C147 refuted: `join` takes no collection of views and none of C strings, whatever holds them and whether or not a
delimiter is given: of views because a view does not convert to the string to be returned, of C strings because they
have no `value_type`.  So the pieces `split_to` returns as views cannot be joined again. -/
theorem c147_refuted_views (c : CharTy) (k l : Bool) (delim : Option CharTy) :
    join ⟨.vec (.view c), k, l⟩ delim = .error ∧ join ⟨.ilist (.view c), k, l⟩ delim = .error ∧
    join ⟨.vec (.ptr c), k, l⟩ delim = .noMatch ∧ join ⟨.ilist (.ptr c), k, l⟩ delim = .noMatch := by
  refine ⟨?_, ?_, rfl, rfl⟩ <;> simp [join, Ty.valueType, returnsAsString]

-- the documentation's example `const auto strings = {"One", "small", ...}; join(strings)`
example : join (asVariable (.ilist (.ptr .char))) none = .noMatch ∧
    join (asVariable (.vec (.str .char))) none = .ok (.str .char) := ⟨rfl, rfl⟩

/-- C147 refuted: the literal `nullptr`, and a null pointer with a delimiter of another character type, reach the
overload of `split_to` for views, where the null pointer is undefined behaviour; the null pointer tested for is the
one that comes with a delimiter of its own character type or none.  Since C++23 `nullptr` does not compile. -/
theorem c147_refuted_null (c d : CharTy) (k l : Bool) (hc : c = .char ∨ c = .wchar) (hd : d ≠ c)
    (delim : Nat) (b : Split.Behaviour) :
    (∀ std ∈ [Std.cpp17, .cpp20], ∀ dl, splitTo std (.vec (.str c)) ⟨.null, k, l⟩ dl = .ok .viewOverload) ∧
    (∀ dl, splitTo .cpp23 (.vec (.str c)) ⟨.null, k, l⟩ dl = .error) ∧
    (∀ std, splitTo std (.vec (.str c)) ⟨.ptr c, k, l⟩ (some d) = .ok .viewOverload) ∧
    (∀ std, splitTo std (.vec (.str c)) ⟨.ptr c, k, l⟩ (some c) = .ok .pointerOverload ∧
      splitTo std (.vec (.str c)) ⟨.ptr c, k, l⟩ none = .ok .pointerOverload) ∧
    runSplitTo .viewOverload none delim b = .ub ∧ runSplitTo .pointerOverload none delim b = .ok [] := by
  refine ⟨?_, ?_, ?_, ?_, rfl, rfl⟩
  · intro std hs dl
    simp only [List.mem_cons, List.not_mem_nil, or_false] at hs
    rcases hc with rfl | rfl <;> rcases hs with rfl | rfl <;> cases dl <;> rfl
  · intro dl
    rcases hc with rfl | rfl <;> cases dl <;> rfl
  · intro std
    rcases hc with rfl | rfl <;> cases d <;> first | exact absurd rfl hd | rfl
  · intro std
    rcases hc with rfl | rfl <;> exact ⟨rfl, rfl⟩

-- `split_to<std::vector<std::string>>(p, L',')` with a null `const char* p`
example : splitTo .cpp20 (.vec (.str .char)) (asVariable (.ptr .char)) (some .wchar) = .ok .viewOverload ∧
    runSplitTo .viewOverload none 44 .keepEmpty = .ub := ⟨rfl, rfl⟩

/-- C147, for a text that is not null it does not matter which overload of `split_to` runs: both give the pieces of the
text before the terminator, whatever lies behind it. -/
theorem c147_overloads_agree_partial (o : Overload) (s rest : List Nat) (hs : 0 ∉ s) (delim : Nat) (b : Split.Behaviour) :
    runSplitTo o (some (s ++ 0 :: rest)) delim b = .ok (Split.splitTo s delim b) := by
  have hv : Split.viewOfPtr (s ++ 0 :: rest) = .ok s := by
    have h0 : ∀ x ∈ s, (x != 0) = true := fun x hx => by
      simp only [bne_iff_ne]; rintro rfl; exact hs hx
    simp only [Split.viewOfPtr, List.mem_append, List.mem_cons, true_or, or_true, if_true]
    rw [List.takeWhile_append_of_pos h0]
    simp
  cases o <;> simp only [runSplitTo, Split.splitToPtr, hv] <;> rfl

example : runSplitTo .viewOverload (some [97, 44, 98, 0]) 44 .keepEmpty = .ok [[97], [98]] := by
  decide +kernel

/-- C147, exactly which calls of `split` compile: a view with no delimiter or one of its own character type, and a C
string or character array alone; the default delimiter exists for `char` and `wchar_t`. -/
theorem c147_split_partial (std : Std) (a : Arg) (delim : Option CharTy) (r : Ty) :
    split std a delim = .ok r ↔ ∃ c, r = .vec (.str c) ∧
      ((a.ty = .view c ∧ (delim = some c ∨ (delim = none ∧ (c = .char ∨ c = .wchar)))) ∨
       ((a.ty = .ptr c ∨ ∃ n, a.ty = .arr c n) ∧ delim = none ∧ (c = .char ∨ c = .wchar))) := by
  obtain ⟨t, k, l⟩ := a
  constructor
  · intro h
    cases t with
    | view c =>
      cases delim with
      | none =>
        cases c <;> first
          | exact ⟨_, (Verdict.ok.inj h).symm, .inl ⟨rfl, .inr ⟨rfl, .inl rfl⟩⟩⟩
          | exact ⟨_, (Verdict.ok.inj h).symm, .inl ⟨rfl, .inr ⟨rfl, .inr rfl⟩⟩⟩
          | exact nomatch h
      | some d =>
        by_cases hd : d = c
        · subst hd
          refine ⟨d, ?_, .inl ⟨rfl, .inl rfl⟩⟩
          have h' : split std ⟨.view d, k, l⟩ (some d) = .ok (.vec (.str d)) := by
            cases std <;> cases d <;> rfl
          rw [h'] at h
          exact (Verdict.ok.inj h).symm
        · have h' : split std ⟨.view c, k, l⟩ (some d) = .noMatch := by
            simp [split, splitView, splitPtr, choose, pointee, hd]
          rw [h'] at h
          exact nomatch h
    | ptr c =>
      cases delim with
      | none =>
        cases c <;> first
          | exact ⟨_, (Verdict.ok.inj h).symm, .inr ⟨.inl rfl, rfl, .inl rfl⟩⟩
          | exact ⟨_, (Verdict.ok.inj h).symm, .inr ⟨.inl rfl, rfl, .inr rfl⟩⟩
          | exact nomatch h
      | some d => exact nomatch h
    | arr c n =>
      cases delim with
      | none =>
        cases c <;> first
          | exact ⟨_, (Verdict.ok.inj h).symm, .inr ⟨.inr ⟨_, rfl⟩, rfl, .inl rfl⟩⟩
          | exact ⟨_, (Verdict.ok.inj h).symm, .inr ⟨.inr ⟨_, rfl⟩, rfl, .inr rfl⟩⟩
          | exact nomatch h
      | some d => exact nomatch h
    | _ => cases delim <;> exact nomatch h
  · rintro ⟨c, rfl, ⟨ht, rfl | ⟨rfl, rfl | rfl⟩⟩ | ⟨ht | ⟨n, ht⟩, rfl, rfl | rfl⟩⟩ <;> simp only at ht <;> subst ht <;>
      first | rfl | (cases std <;> cases c <;> rfl)

-- views of `char16_t` need a delimiter
example : split .cpp20 (asTemporary (.view .char16)) none = .error ∧
    split .cpp20 (asTemporary (.view .char16)) (some .char16) = .ok (.vec (.str .char16)) := ⟨rfl, rfl⟩

/-- C147, exactly which calls of `join` compile: collections of strings, with any delimiter, or without one if the
characters are `char` or `wchar_t`. -/
theorem c147_join_partial (a : Arg) (delim : Option CharTy) (r : Ty) :
    join a delim = .ok r ↔ ∃ c, r = .str c ∧ (a.ty = .vec (.str c) ∨ a.ty = .ilist (.str c)) ∧
      (delim = none → c = .char ∨ c = .wchar) := by
  obtain ⟨t, k, l⟩ := a
  constructor
  · intro h
    cases t with
    | vec e | ilist e =>
      cases e with
      | str c =>
        cases delim with
        | none =>
          cases c <;> first
            | exact ⟨_, (Verdict.ok.inj h).symm, by simp, fun _ => by simp⟩
            | exact nomatch h
        | some d => exact ⟨c, (Verdict.ok.inj h).symm, by simp, fun h => nomatch h⟩
      | view c => cases delim <;> simp [join, Ty.valueType, returnsAsString] at h
      | vec e => cases e <;> cases delim <;> simp [join, Ty.valueType, returnsAsString] at h
      | ilist e => cases e <;> cases delim <;> simp [join, Ty.valueType, returnsAsString] at h
      | _ => exact nomatch h
    | _ => exact nomatch h
  · rintro ⟨c, rfl, ht | ht, h⟩ <;> simp only at ht <;> subst ht <;>
    · cases delim with
      | none => rcases h rfl with rfl | rfl <;> rfl
      | some d => rfl

-- an initialiser list of strings joins, with a delimiter of another type as well
example : join (asVariable (.ilist (.str .char))) (some .wchar) = .ok (.str .char) := rfl

/-- C147, what `split` returns can be passed on: to `join` as a variable or as a temporary, and every piece to the
trimming functions as a temporary view. -/
theorem c147_round_trip_partial (std : Std) (a : Arg) (delim : Option CharTy) (r : Ty) (k l : Bool)
    (h : split std a delim = .ok r) :
    ∃ c, r = .vec (.str c) ∧ (∀ d, join ⟨r, k, l⟩ (some d) = .ok (.str c)) ∧
      (c = .char ∨ c = .wchar → join ⟨r, k, l⟩ none = .ok (.str c) ∧
        ∀ f ∈ trimmers, f (asTemporary (.view c)) = .ok (.str c)) := by
  obtain ⟨c, rfl, -⟩ := (c147_split_partial std a delim r).1 h
  refine ⟨c, rfl, fun d => rfl, ?_⟩
  rintro (rfl | rfl) <;> exact ⟨rfl, trimmers_cases rfl rfl rfl⟩

example : split .cpp20 (asTemporary (.view .char)) (some .char) = .ok (.vec (.str .char)) ∧
    join (asVariable (.vec (.str .char))) (some .char) = .ok (.str .char) := ⟨rfl, rfl⟩

/-- C147, `split_to` with a result that is a container of strings takes a text in any of its forms, as a variable or as a
temporary, with a delimiter of the text's character type, in every version of the language; results that are
views of the text need C++20. -/
theorem c147_split_to_partial (std : Std) (c : CharTy) (k l : Bool) (n : Nat) :
    (∀ t ∈ [Ty.str c, .view c], splitTo std (.vec (.str c)) ⟨t, k, l⟩ (some c) = .ok .viewOverload ∧
      splitTo std (.vec (.view c)) ⟨t, k, l⟩ (some c) = if std = .cpp17 then .error else .ok .viewOverload) ∧
    (∀ t ∈ [Ty.ptr c, .arr c n], splitTo std (.vec (.str c)) ⟨t, k, l⟩ (some c) = .ok .pointerOverload ∧
      splitTo std (.vec (.view c)) ⟨t, k, l⟩ (some c) = if std = .cpp17 then .error else .ok .pointerOverload) ∧
    (∀ d t, d ≠ c → t ∈ [Ty.str d, .view d] → splitTo std (.vec (.str c)) ⟨t, k, l⟩ (some c) = .noMatch) := by
  refine ⟨?_, ?_, ?_⟩
  · intro t ht
    simp only [List.mem_cons, List.not_mem_nil, or_false] at ht
    rcases ht with rfl | rfl <;> cases std <;> cases c <;> exact ⟨rfl, rfl⟩
  · intro t ht
    simp only [List.mem_cons, List.not_mem_nil, or_false] at ht
    rcases ht with rfl | rfl <;> cases std <;> cases c <;> exact ⟨rfl, rfl⟩
  · intro d t hd ht
    simp only [List.mem_cons, List.not_mem_nil, or_false] at ht
    rcases ht with rfl | rfl <;> cases c <;> cases d <;> first | exact absurd rfl hd | rfl

-- narrow text does not split into wide strings
example : splitTo .cpp20 (.vec (.str .wchar)) (asVariable (.str .char)) (some .wchar) = .noMatch := rfl

end Wite.Props
