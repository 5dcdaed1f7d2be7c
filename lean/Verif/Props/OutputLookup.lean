import Verif.Model.OutputLookup

/-!
# C198: where the library's types can be inserted into streams
-/

namespace Wite.Props

open Wite Wite.Config Wite.OutputLookup

/-- The operator a type needs from the global namespace, if any; headers: core/io.hpp, geometry/io.hpp, maths/io.hpp, string/fragment_string.hpp. -/
def neededOp : OutTy → Option Decl
  | .number | .text | .cls (some _) => none
  | .cls none => some .classes
  | .uuidLike _ | .uuid => some .uuid
  | .index _ => some .index
  | .id _ _ => some .id
  | .point => some .point
  | .range _ => some .range
  | .frag => some .frag

/-- The first type is that of the value inside the second. -/
inductive InsideOf : OutTy → OutTy → Prop
  | id (o v : OutTy) : InsideOf v (.id o v)
  | range (v : OutTy) : InsideOf v (.range v)

/-- The same to any depth, from the type itself on. -/
inductive Occurs : OutTy → OutTy → Prop
  | here (t : OutTy) : Occurs t t
  | there {s t u : OutTy} : InsideOf t u → Occurs s t → Occurs s u

/-- The type or one of its template arguments to any depth is a class in the global namespace. -/
inductive NamesGlobal : OutTy → Prop
  | cls : NamesGlobal (.cls none)
  | uuidLike : NamesGlobal (.uuidLike none)
  | index {o : OutTy} : NamesGlobal o → NamesGlobal (.index o)
  | idObject {o v : OutTy} : NamesGlobal o → NamesGlobal (.id o v)
  | idValue {o v : OutTy} : NamesGlobal v → NamesGlobal (.id o v)
  | range {v : OutTy} : NamesGlobal v → NamesGlobal (.range v)

/-- The first operator is declared before the second or is the second. -/
def DeclaredBy (decls : List Decl) (a b : Decl) : Prop := a = b ∨ ∃ pre post, decls = pre ++ post ∧ a ∈ pre ∧ b ∉ pre

private theorem global_iff (t : OutTy) : Space.global ∈ assoc t ↔ NamesGlobal t := by
  induction t with
  | number => simp [assoc]; nofun
  | text => simp [assoc]; nofun
  | cls p => cases p <;> simp [assoc, classSpace] <;> first | exact .cls | nofun
  | uuidLike p => cases p <;> simp [assoc, classSpace] <;> first | exact .uuidLike | nofun
  | uuid => simp [assoc]; nofun
  | index o ih =>
    simp only [assoc, List.mem_cons, reduceCtorEq, false_or, ih]
    exact ⟨.index, fun | .index h => h⟩
  | id o v iho ihv =>
    simp only [assoc, List.mem_cons, List.mem_append, reduceCtorEq, false_or, iho, ihv]
    exact ⟨fun h => h.elim .idObject .idValue, fun | .idObject h => .inl h | .idValue h => .inr h⟩
  | point => simp [assoc]; nofun
  | range v ih =>
    simp only [assoc, List.mem_cons, reduceCtorEq, false_or, ih]
    exact ⟨.range, fun | .range h => h⟩
  | frag => simp [assoc]; nofun

private theorem mem_upTo (decls : List Decl) (a b : Decl) : a ∈ upTo decls b ↔ DeclaredBy decls a b := by
  unfold upTo DeclaredBy
  rw [List.mem_append, List.mem_singleton, or_comm]
  refine or_congr Iff.rfl ⟨fun h => ?_, ?_⟩
  · refine ⟨_, _, List.takeWhile_append_dropWhile.symm, h, fun hb => ?_⟩
    have := List.all_takeWhile (p := fun x => decide (x ≠ b)) (l := decls)
    rw [List.all_eq_true] at this
    simpa using this b hb
  · rintro ⟨pre, post, rfl, ha, hb⟩
    rw [List.takeWhile_append_of_pos]
    · exact List.mem_append_left _ ha
    · intro x hx
      simp only [ne_eq, decide_eq_true_eq]
      rintro rfl
      exact hb hx

private theorem occurs_leaf {t : OutTy} (h : ∀ s, ¬InsideOf s t) {s : OutTy} (hs : Occurs s t) : s = t := by
  cases hs with
  | here => rfl
  | there hi _ => exact absurd hi (h _)

private theorem occurs_node {t v : OutTy} (hv : ∀ s, InsideOf s t ↔ s = v) (s : OutTy) : Occurs s t ↔ s = t ∨ Occurs s v := by
  constructor
  · intro h
    cases h with
    | here => exact .inl rfl
    | there hi h => exact .inr ((hv _).mp hi ▸ h)
  · rintro (rfl | h)
    · exact .here _
    · exact .there ((hv _).mpr rfl) h

private theorem finds_iff (decls visible : List Decl) (hides : Bool) (t : OutTy) (d : Decl) (hv : ∀ x, x ∈ visible → x ∈ decls) :
    finds decls hides visible t d = true ↔ d ∈ decls ∧ ((hides = false ∧ d ∈ visible) ∨ NamesGlobal t) := by
  simp only [finds, Bool.or_eq_true, Bool.and_eq_true, Bool.not_eq_true', decide_eq_true_eq, global_iff]
  constructor
  · rintro (⟨h1, h2⟩ | ⟨h1, h2⟩)
    · exact ⟨hv _ h2, .inl ⟨h1, h2⟩⟩
    · exact ⟨h2, .inr h1⟩
  · rintro ⟨h1, h2 | h2⟩
    · exact .inl h2
    · exact .inr ⟨h2, h1⟩

private def AllIn (decls : List Decl) (t : OutTy) : Prop := ∀ s d, Occurs s t → neededOp s = some d → d ∈ decls

private def Ordered (decls : List Decl) (t : OutTy) : Prop :=
  ∀ s u d e, Occurs u t → InsideOf s u → neededOp s = some d → neededOp u = some e → DeclaredBy decls d e ∨ NamesGlobal s

private def Narrow (wide : Bool) (t : OutTy) : Prop := wide = true → ∀ s, Occurs s t → (∀ o, s ≠ .index o) ∧ ∀ o v, s ≠ .id o v

private def Seen (hides : Bool) (visible : List Decl) (t : OutTy) : Prop :=
  ∀ d, neededOp t = some d → (hides = false ∧ d ∈ visible) ∨ NamesGlobal t

private theorem leaf_iff (wide : Bool) (decls : List Decl) {t : OutTy} (h : ∀ s, ¬InsideOf s t) :
    (AllIn decls t ↔ ∀ d, neededOp t = some d → d ∈ decls) ∧ Ordered decls t ∧
    (Narrow wide t ↔ (wide = true → (∀ o, t ≠ .index o) ∧ ∀ o v, t ≠ .id o v)) := by
  refine ⟨⟨fun ha d => ha t d (.here t), fun ha s d hs => ?_⟩, fun s u d e hu hi => ?_, ⟨fun hn w => hn w t (.here t), fun hn w s hs => ?_⟩⟩
  · rw [occurs_leaf h hs]; exact ha d
  · rw [occurs_leaf h hu] at hi; exact absurd hi (h s)
  · rw [occurs_leaf h hs]; exact hn w

private theorem node_iff (wide : Bool) (decls : List Decl) {t v : OutTy} {e : Decl} (hv : ∀ s, InsideOf s t ↔ s = v) (he : neededOp t = some e) :
    (AllIn decls t ↔ e ∈ decls ∧ AllIn decls v) ∧
    (Ordered decls t ↔ (∀ d, neededOp v = some d → DeclaredBy decls d e ∨ NamesGlobal v) ∧ Ordered decls v) ∧
    (Narrow wide t ↔ (wide = true → (∀ o, t ≠ .index o) ∧ ∀ o v, t ≠ .id o v) ∧ Narrow wide v) := by
  have ho := occurs_node hv
  refine ⟨⟨fun ha => ⟨ha t e (.here t) he, fun s d hs => ha s d ((ho s).mpr (.inr hs))⟩, fun ⟨h1, h2⟩ s d hs hd => ?_⟩,
    ⟨fun hord => ⟨fun d hd => hord v t d e (.here t) ((hv v).mpr rfl) hd he, fun s u d e hu => hord s u d e ((ho u).mpr (.inr hu))⟩,
      fun ⟨h1, h2⟩ s u d e' hu hi hd he' => ?_⟩,
    ⟨fun hn => ⟨fun w => hn w t (.here t), fun w s hs => hn w s ((ho s).mpr (.inr hs))⟩, fun ⟨h1, h2⟩ w s hs => ?_⟩⟩
  · rcases (ho s).mp hs with rfl | hs
    · rw [he] at hd; cases hd; exact h1
    · exact h2 s d hs hd
  · rcases (ho u).mp hu with rfl | hu
    · rw [(hv s).mp hi] at hd ⊢
      rw [he] at he'; cases he'
      exact h1 d hd
    · exact h2 s u d e' hu hi hd he'
  · rcases (ho s).mp hs with rfl | hs
    · exact h1 w
    · exact h2 w s hs

private theorem upTo_sub {decls : List Decl} {d : Decl} (h : d ∈ decls) : ∀ x, x ∈ upTo decls d → x ∈ decls := by
  intro x hx
  rw [upTo, List.mem_append, List.mem_singleton] at hx
  rcases hx with hx | rfl
  · exact List.takeWhile_subset _ hx
  · exact h

private theorem insertable_iff (wide : Bool) (decls : List Decl) (t : OutTy) : ∀ (hides : Bool) (visible : List Decl), (∀ x, x ∈ visible → x ∈ decls) →
    (insertable wide decls hides visible t = true ↔ AllIn decls t ∧ Seen hides visible t ∧ Ordered decls t ∧ Narrow wide t) := by
  have leaf : ∀ (t : OutTy) (d : Decl) (hides : Bool) (visible : List Decl), (∀ x, x ∈ visible → x ∈ decls) → (∀ s, ¬InsideOf s t) →
      neededOp t = some d → ((∀ o, t ≠ .index o) ∧ ∀ o v, t ≠ .id o v) →
      (finds decls hides visible t d = true ↔ AllIn decls t ∧ Seen hides visible t ∧ Ordered decls t ∧ Narrow wide t) := by
    intro t d hides visible hv hl hd hn
    obtain ⟨h1, h2, h3⟩ := leaf_iff wide decls hl
    rw [finds_iff decls visible hides t d hv, h1, h3]
    simp only [Seen, hd, Option.some.injEq, forall_eq', h2, hn, true_and, implies_true, and_true, ne_eq, not_false_eq_true]
  have free : ∀ (t : OutTy) (hides : Bool) (visible : List Decl), (∀ s, ¬InsideOf s t) → neededOp t = none →
      ((∀ o, t ≠ .index o) ∧ ∀ o v, t ≠ .id o v) → AllIn decls t ∧ Seen hides visible t ∧ Ordered decls t ∧ Narrow wide t := by
    intro t hides visible hl hd hn
    obtain ⟨h1, h2, h3⟩ := leaf_iff wide decls hl
    refine ⟨h1.mpr ?_, ?_, h2, h3.mpr fun _ => hn⟩ <;> simp [Seen, hd]
  have node : ∀ (t v : OutTy) (e : Decl) (hides : Bool) (visible : List Decl), (∀ x, x ∈ visible → x ∈ decls) → (∀ s, InsideOf s t ↔ s = v) →
      neededOp t = some e →
      (∀ (hides : Bool) (visible : List Decl), (∀ x, x ∈ visible → x ∈ decls) →
        (insertable wide decls hides visible v = true ↔ AllIn decls v ∧ Seen hides visible v ∧ Ordered decls v ∧ Narrow wide v)) →
      ((finds decls hides visible t e = true ∧ insertable wide decls false (upTo decls e) v = true ∧
        (wide = true → (∀ o, t ≠ .index o) ∧ ∀ o v, t ≠ .id o v)) ↔ AllIn decls t ∧ Seen hides visible t ∧ Ordered decls t ∧ Narrow wide t) := by
    intro t v e hides visible hv hi he ih
    obtain ⟨h1, h2, h3⟩ := node_iff wide decls hi he
    rw [finds_iff decls visible hides t e hv, h1, h2, h3]
    have hseen : Seen false (upTo decls e) v ↔ ∀ d, neededOp v = some d → DeclaredBy decls d e ∨ NamesGlobal v := by
      simp [Seen, mem_upTo]
    have hst : Seen hides visible t ↔ (hides = false ∧ e ∈ visible) ∨ NamesGlobal t := by simp [Seen, he]
    rw [hst]
    constructor
    · rintro ⟨⟨ha, hb⟩, hc, hw⟩
      obtain ⟨i1, i2, i3, i4⟩ := (ih _ _ (upTo_sub ha)).mp hc
      exact ⟨⟨ha, i1⟩, hb, ⟨hseen.mp i2, i3⟩, hw, i4⟩
    · rintro ⟨⟨ha, i1⟩, hb, ⟨i2, i3⟩, hw, i4⟩
      exact ⟨⟨ha, hb⟩, (ih _ _ (upTo_sub ha)).mpr ⟨i1, hseen.mpr i2, i3, i4⟩, hw⟩
  induction t with
  | number => intro hides visible hv; simpa [insertable] using free .number hides visible nofun rfl (by simp)
  | text => intro hides visible hv; simpa [insertable] using free .text hides visible nofun rfl (by simp)
  | cls p =>
    intro hides visible hv
    cases p with
    | none => exact leaf _ _ hides visible hv nofun rfl (by simp)
    | some n => simpa [insertable] using free (.cls (some n)) hides visible nofun rfl (by simp)
  | uuidLike p => intro hides visible hv; exact leaf _ _ hides visible hv nofun rfl (by simp)
  | uuid => intro hides visible hv; exact leaf _ _ hides visible hv nofun rfl (by simp)
  | index o =>
    intro hides visible hv
    obtain ⟨h1, h2, h3⟩ := leaf_iff wide decls (t := .index o) nofun
    rw [insertable, Bool.and_eq_true, finds_iff decls visible hides _ _ hv, h1, h3]
    simp only [Seen, neededOp, Option.some.injEq, forall_eq', h2, true_and]
    cases wide <;> simp
  | id o v _ ih =>
    intro hides visible hv
    rw [← node (.id o v) v .id hides visible hv (fun s => ⟨fun | .id _ _ => rfl, fun h => h ▸ .id o v⟩) rfl ih, insertable]
    cases wide <;> simp
  | point => intro hides visible hv; exact leaf _ _ hides visible hv nofun rfl (by simp)
  | range v ih =>
    intro hides visible hv
    rw [← node (.range v) v .range hides visible hv (fun s => ⟨fun | .range _ => rfl, fun h => h ▸ .range v⟩) rfl ih, insertable]
    simp
  | frag => intro hides visible hv; exact leaf _ _ hides visible hv nofun rfl (by simp)

/-- C198, exactly: `os << x` compiles if and only if every operator needed is declared; it is not hidden by an `operator<<` of an enclosing
namespace, or the type names a class in the global namespace; the operator for a value inside another is declared before that of the other,
or its type names such a class; and no id or index goes into a wide stream. -/
theorem c198_exact (wide : Bool) (decls : List Decl) (own : Nat → Bool) (enclosing : List Space) (t : OutTy) :
    inserts wide decls own enclosing t = true ↔
      (∀ s d, Occurs s t → neededOp s = some d → d ∈ decls) ∧
      ((∃ e ∈ enclosing, e = .std ∨ ∃ n, e = .user n ∧ own n = true) → neededOp t ≠ none → NamesGlobal t) ∧
      (∀ s u d e, Occurs u t → InsideOf s u → neededOp s = some d → neededOp u = some e → DeclaredBy decls d e ∨ NamesGlobal s) ∧
      (wide = true → ∀ s, Occurs s t → (∀ o, s ≠ .index o) ∧ ∀ o v, s ≠ .id o v) := by
  have hhides : (∃ e ∈ enclosing, e = .std ∨ ∃ n, e = .user n ∧ own n = true) ↔ enclosing.any (declares own) = true := by
    simp only [List.any_eq_true]
    refine exists_congr fun e => and_congr_right fun _ => ?_
    cases e <;> simp [declares]
  rw [hhides, inserts, insertable_iff wide decls t _ _ fun _ h => h]
  unfold AllIn Seen Ordered Narrow
  constructor
  · rintro ⟨h1, h2, h3, h4⟩
    refine ⟨h1, fun hh hn => ?_, h3, h4⟩
    obtain ⟨d, hd⟩ := Option.ne_none_iff_exists'.mp hn
    rcases h2 d hd with ⟨h, -⟩ | h
    · rw [hh] at h; cases h
    · exact h
  · rintro ⟨h1, h2, h3, h4⟩
    refine ⟨h1, fun d hd => ?_, h3, h4⟩
    by_cases hh : enclosing.any (declares own) = true
    · exact .inr (h2 hh (by simp [hd]))
    · exact .inl ⟨by simpa using hh, h1 t d (.here t) hd⟩

/-- C198, what holds: in code whose enclosing namespaces declare no `operator<<`, a value goes into a narrow stream if all operators needed are declared,
that of each value before that of the type it is inside of. -/
theorem c198_plain_partial (decls : List Decl) (own : Nat → Bool) (enclosing : List Space) (t : OutTy)
    (hall : ∀ s d, Occurs s t → neededOp s = some d → d ∈ decls)
    (hord : ∀ s u d e, Occurs u t → InsideOf s u → neededOp s = some d → neededOp u = some e → DeclaredBy decls d e)
    (hplain : ∀ e ∈ enclosing, e ≠ .std ∧ ∀ n, e = .user n → own n = false) : inserts false decls own enclosing t = true := by
  rw [c198_exact]
  refine ⟨hall, ?_, fun s u d e h1 h2 h3 h4 => .inl (hord s u d e h1 h2 h3 h4), nofun⟩
  rintro ⟨e, he, rfl | ⟨n, rfl, hn⟩⟩
  · exact absurd rfl (hplain _ he).1
  · rw [(hplain _ he).2 n rfl] at hn; cases hn

/-- C198 is false in every namespace that declares an `operator<<` for whatever type, and in those inside of it: nothing of the library goes into a
stream there, whatever was included, unless its type names a class in the global namespace. -/
theorem c198_refuted_namespaces (wide : Bool) (decls : List Decl) (own : Nat → Bool) (enclosing : List Space) (n : Nat) (hn : Space.user n ∈ enclosing)
    (hd : own n = true) (t : OutTy) (hneed : neededOp t ≠ none) (hg : ¬NamesGlobal t) : inserts wide decls own enclosing t = false := by
  rw [← Bool.not_eq_true, c198_exact]
  rintro ⟨-, h, -⟩
  exact hg (h ⟨_, hn, .inr ⟨n, rfl, hd⟩⟩ hneed)

/-- C198 is false for what the standard library inserts, as `std::ostream_iterator` does. -/
theorem c198_refuted_standard (wide : Bool) (decls : List Decl) (own : Nat → Bool) (t : OutTy) (hneed : neededOp t ≠ none) (hg : ¬NamesGlobal t) :
    inserts wide decls own [.std] t = false := by
  rw [← Bool.not_eq_true, c198_exact]
  rintro ⟨-, h, -⟩
  exact hg (h ⟨_, by simp, .inl rfl⟩ hneed)

/-- C198, the order of includes: a value inside an id or range whose operator comes later is not inserted anywhere. -/
theorem c198_refuted_order (wide : Bool) (decls : List Decl) (own : Nat → Bool) (enclosing : List Space) (s u t : OutTy) (d e : Decl) (hu : Occurs u t)
    (hs : InsideOf s u) (hd : neededOp s = some d) (he : neededOp u = some e) (hlater : ¬DeclaredBy decls d e) (hg : ¬NamesGlobal s) :
    inserts wide decls own enclosing t = false := by
  rw [← Bool.not_eq_true, c198_exact]
  rintro ⟨-, -, h, -⟩
  exact (h s u d e hu hs hd he).elim hlater hg

/-- C198, wide streams: no id or index goes into one. -/
theorem c198_refuted_wide (decls : List Decl) (own : Nat → Bool) (enclosing : List Space) (o v : OutTy) :
    inserts true decls own enclosing (.index o) = false ∧ inserts true decls own enclosing (.id o v) = false := ⟨rfl, rfl⟩

private theorem not_included (cfg : Macros) (h : Header) : Header.coreIo ∉ includes cfg h ∧ Header.fragmentString ∉ includes cfg h := by
  cases h <;> simp [includes] <;> split <;> simp

private theorem expand_other (cfg : Macros) (x : Header) (hx : ∀ h, x ∉ includes cfg h) : ∀ (depth : Nat) (out : List Header) (h : Header), x ∉ out → h ≠ x →
    x ∉ expandHeader cfg depth out h := by
  intro depth
  induction depth with
  | zero => intro out h ho _; exact ho
  | succ depth ih =>
    intro out h ho hh
    rw [expandHeader]
    split
    · exact ho
    · have fold : ∀ (l : List Header) (out : List Header), x ∉ l → x ∉ out → x ∉ l.foldl (expandHeader cfg depth) out := by
        intro l
        induction l with
        | nil => intro out _ ho; exact ho
        | cons a l ihl =>
          intro out hl ho
          rw [List.mem_cons, not_or] at hl
          exact ihl _ hl.2 (ih out a ho (Ne.symm hl.1))
      rw [List.mem_append, List.mem_singleton, not_or]
      exact ⟨fold _ _ (hx h) ho, Ne.symm hh⟩

private theorem declared_other (cfg : Macros) (x : Header) (hx : ∀ h, x ∉ includes cfg h) (d : Decl) (hd : ∀ h, d ∈ headerOps h → h = x)
    (hc : d ≠ .classes) : ∀ (items : List Item) (done : List Header), x ∉ done → Item.header x ∉ items → d ∉ declared cfg done items := by
  intro items
  induction items with
  | nil => intro done _ _; simp [declared]
  | cons i items ih =>
    intro done hdone hi
    rw [List.mem_cons, not_or] at hi
    cases i with
    | classOps => simp [declared, hc, ih done hdone hi.2]
    | header h =>
      have hv := expand_other cfg x hx 20 done h hdone fun e => hi.1 (by rw [e])
      rw [declared, List.mem_append, not_or]
      refine ⟨fun hm => ?_, ih _ hv hi.2⟩
      obtain ⟨y, hy, hdy⟩ := List.mem_flatMap.mp hm
      exact hv (hd y hdy ▸ List.mem_of_mem_drop hy)

/-- C198, the other headers are not enough: without an `#include` of core/io.hpp itself no UUID, id or index goes into a stream anywhere, and without one of
string/fragment_string.hpp no fragment string, whatever else is included, in particular wite.hpp, core.hpp and string.hpp. -/
theorem c198_refuted_umbrella (cfg : Macros) (items : List Item) (wide : Bool) (own : Nat → Bool) (enclosing : List Space) :
    (Item.header .coreIo ∉ items → inserts wide (declared cfg [] items) own enclosing .uuid = false ∧
      (∀ o, inserts wide (declared cfg [] items) own enclosing (.index o) = false) ∧
      ∀ o v, inserts wide (declared cfg [] items) own enclosing (.id o v) = false) ∧
    (Item.header .fragmentString ∉ items → inserts wide (declared cfg [] items) own enclosing .frag = false) := by
  have key : ∀ (t : OutTy) (d : Decl), neededOp t = some d → d ∉ declared cfg [] items → inserts wide (declared cfg [] items) own enclosing t = false := by
    intro t d hd hn
    rw [← Bool.not_eq_true, c198_exact]
    rintro ⟨h, -⟩
    exact hn (h t d (.here t) hd)
  refine ⟨fun h => ?_, fun h => key _ _ rfl (declared_other cfg .fragmentString (fun h => (not_included cfg h).2) .frag
    (by intro h; cases h <;> simp [headerOps]) (by simp) items [] (by simp) h)⟩
  have other : ∀ d, d = Decl.uuid ∨ d = .index ∨ d = .id → d ∉ declared cfg [] items := by
    intro d hd
    refine declared_other cfg .coreIo (fun h => (not_included cfg h).1) d ?_ ?_ items [] (by simp) h
    · intro h; rcases hd with rfl | rfl | rfl <;> cases h <;> simp [headerOps]
    · rcases hd with rfl | rfl | rfl <;> simp
  exact ⟨key _ _ rfl (other _ (by simp)), fun o => key _ _ rfl (other _ (by simp)), fun o v => key _ _ rfl (other _ (by simp))⟩

/-- The operators of the library one header gives, as a user would look them up: maths.hpp and geometry.hpp give their own, wite.hpp those two. -/
def givenBy : Header → List Decl
  | .coreIo => [.uuid, .index, .id]
  | .geometryIo => [.point]
  | .geometry => [.point]
  | .mathsIo => [.range]
  | .maths => [.range]
  | .wite => [.point, .range]
  | .fragmentString => [.frag]
  | _ => []

private def plainMacros (idType : Bool) : Macros := ⟨false, false, false, false, false, false, idType, true, true⟩

private theorem expand_plain (cfg : Macros) : ∀ depth, expandHeader cfg depth = expandHeader (plainMacros cfg.idType) depth := by
  have hi : ∀ h, includes cfg h = includes (plainMacros cfg.idType) h := by intro h; cases h <;> rfl
  intro depth
  induction depth with
  | zero => rfl
  | succ depth ih =>
    funext out h
    rw [expandHeader, expandHeader, ih, hi]

/-- C198, header by header, in every configuration: an `#include` of one header declares the operators of the table and no others.  So value_range.hpp, point.hpp,
uuid.hpp, id.hpp and index.hpp declare the types and not the operators. -/
theorem c198_headers (cfg : Macros) (h : Header) : declared cfg [] [.header h] = givenBy h := by
  rw [declared, declared, expand_plain]
  cases cfg.idType <;> cases h <;> decide +kernel

/-- C198, a class that only looks like a UUID: any class of the program of sixteen bytes with a member `data` and no operator of its own is inserted as one. -/
theorem c198_lookalikes (wide : Bool) (decls : List Decl) (own : Nat → Bool) (enclosing : List Space) (n : Nat) :
    inserts wide decls own enclosing (.uuidLike (some n)) = inserts wide decls own enclosing .uuid := by
  simp [inserts, insertable, finds, assoc, classSpace]

private def noMacros : Macros := ⟨false, false, false, false, false, false, false, true, true⟩

/- After `<wite/core/io.hpp>` and `<wite/maths/io.hpp>` ranges of ids go into streams; not in the other order, nor in a namespace with an operator of its own. -/
example : inserts false (declared noMacros [] [.header .coreIo, .header .mathsIo]) (fun _ => false) [.user 0] (.range (.id (.cls (some 0)) .uuid)) = true ∧
    inserts false (declared noMacros [] [.header .mathsIo, .header .coreIo]) (fun _ => false) [.user 0] (.range (.id (.cls (some 0)) .uuid)) = false ∧
    inserts false (declared noMacros [] [.header .coreIo, .header .mathsIo]) (fun _ => true) [.user 0] (.range (.id (.cls (some 0)) .uuid)) = false ∧
    inserts false (declared noMacros [] [.header .mathsIo, .header .coreIo]) (fun _ => true) [.user 0] (.range (.id (.cls none) .uuid)) = true := by
  decide +kernel

/- `<wite/wite.hpp>` declares the operators of points and ranges only. -/
example : declared noMacros [] [.header .wite] = [.point, .range] := by decide +kernel

end Wite.Props
