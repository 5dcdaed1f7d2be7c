import Verif.Model.Checks
import Verif.Model.Index
import Verif.Model.DerefIterator

/-!
# C162: which builds check for misuse

What the macros of the compiler and the command line make of `_WITE_DEBUG_ASSERT`, `_WITE_RELEASE_NOEXCEPT` and
`_WITE_RELEASE_CONSTEXPR`.
-/

namespace Wite.Props
open Wite Wite.Checks

/-- The compiler is gcc: it says it is GNU compatible and not clang. -/
def IsGcc (env : Env) : Prop := isDefined env .clang = false ∧ (isDefined env .gnuc = true ∨ isDefined env .gnug = true)

private theorem def_define (n m : Name) (t : Text) (env : Env) :
    isDefined (define n t env) m = (decide (m = n) || isDefined env m) := by
  unfold isDefined define; split <;> simp_all

private theorem def_undef (n m : Name) (env : Env) :
    isDefined (undef n env) m = (!decide (m = n) && isDefined env m) := by
  unfold isDefined undef; split <;> simp_all

private theorem def_ite (c : Prop) [Decidable c] (e e' : Env) (m : Name) :
    isDefined (if c then e else e') m = if c then isDefined e m else isDefined e' m := by split <;> rfl

/-- `_WITE_CONFIG_DEBUG` comes from `NDEBUG` with gcc and from `_DEBUG` with every other compiler. -/
private theorem config (env : Env) :
    isDefined (configurationHpp env) .configDebug = true ↔
      (IsGcc env ∧ isDefined env .ndebug = false) ∨ (¬ IsGcc env ∧ isDefined env .debug = true) := by
  unfold IsGcc configurationHpp compilerHpp
  simp only [def_define, def_undef, def_ite]
  cases h1 : isDefined env .clang <;> cases h2 : isDefined env .gnuc <;> cases h3 : isDefined env .gnug <;>
    cases h4 : isDefined env .mscVer <;> cases h5 : isDefined env .ndebug <;> cases h6 : isDefined env .debug <;>
    simp

private theorem config_given (env : Env) :
    isDefined (configurationHpp env) .assertWithException = isDefined env .assertWithException := by
  unfold configurationHpp compilerHpp
  simp [def_define, def_undef, def_ite]

private theorem last_step (e : Env) (h : isDefined e .releaseConstexpr = false) :
    (if !isDefined e .releaseConstexpr then
        if isDefined e .configDebug then define .releaseConstexpr .nothing e else define .releaseConstexpr .constexpr e
      else e) .releaseConstexpr =
    some (if isDefined (if !isDefined e .releaseConstexpr then
        if isDefined e .configDebug then define .releaseConstexpr .nothing e else define .releaseConstexpr .constexpr e
      else e) .configDebug then .nothing else .constexpr) := by
  rw [h]
  cases hc : isDefined e .configDebug <;> simp [def_define, hc] <;> simp [define]

private theorem config_constexpr (env : Env) (h : isDefined env .releaseConstexpr = false) :
    configurationHpp env .releaseConstexpr =
      some (if isDefined (configurationHpp env) .configDebug then .nothing else .constexpr) := by
  refine last_step _ ?_
  unfold compilerHpp
  simp [def_define, def_undef, def_ite, h]

/-- C162 with gcc: every build without `NDEBUG` checks, and no build with it does.  A failed check throws if the
exceptions were asked for and ends the program otherwise. -/
theorem c162_gcc_partial (env : Env) (h : IsGcc env) :
    build env = if isDefined env .ndebug then .release else if isDefined env .assertWithException then .debug else .aborting := by
  have hc := config env
  have hg := config_given env
  unfold build assertHpp
  cases hn : isDefined env .ndebug <;> cases ha : isDefined env .assertWithException <;>
    cases hd : isDefined (configurationHpp env) .configDebug <;>
    simp_all [define, undef]

/-- C162 with every other compiler, exactly: `_DEBUG` decides, and `NDEBUG` takes away the checks that would end the
program but not those that throw. -/
theorem c162_others_partial (env : Env) (h : ¬ IsGcc env) :
    build env =
      if isDefined env .debug then
        if isDefined env .assertWithException then .debug else if isDefined env .ndebug then .release else .aborting
      else .release := by
  have hc := config env
  have hg := config_given env
  unfold build assertHpp
  cases hn : isDefined env .ndebug <;> cases ha : isDefined env .assertWithException <;>
    cases hb : isDefined env .debug <;>
    cases hd : isDefined (configurationHpp env) .configDebug <;>
    simp_all [define, undef]

/-- What clang defines, on any system: it claims to be GNU compatible, too. -/
def IsClang (env : Env) : Prop := isDefined env .clang = true

/-- C162 is false for clang: without `_DEBUG`, which no clang on Linux or macOS defines by itself, nothing is checked
in any build, whether or not `NDEBUG` is defined and whatever else is.  For example, incrementing the largest index
gives 0, and an iterator moves beyond the end of its vector. -/
theorem c162_refuted_clang (env : Env) (h : IsClang env) (hd : isDefined env .debug = false) :
    build env = .release ∧ Index.inc (build env) (2 ^ 64 - 1) = .ok 0 ∧
    ∀ parent size slots, size < slots →
      Collections.DerefIter.incr (build env) slots (Collections.DerefIter.end' parent size) =
        .ok ⟨size + 1, parent, size⟩ := by
  have hr : build env = .release := by
    rw [c162_others_partial env (by rintro ⟨h', -⟩; rw [h] at h'; cases h'), hd]; rfl
  rw [hr]
  refine ⟨rfl, by decide +kernel, fun parent size slots hs => ?_⟩
  have : (0 : Int) ≤ (size : Int) + 1 ∧ (size : Int) + 1 ≤ slots := by omega
  simp [Collections.DerefIter.incr, Collections.DerefIter.end', Collections.DerefIter.ptrAdd, debugAssert, this]

/-- C162 is false for `_DEBUG` together with `NDEBUG`, with every compiler but gcc: the headers take the build for a
debug build, and nothing is checked in it. -/
theorem c162_refuted_ndebug (env : Env) (h : ¬ IsGcc env) (hd : isDefined env .debug = true)
    (hn : isDefined env .ndebug = true) (ha : isDefined env .assertWithException = false) :
    isDefined (assertHpp env) .configDebug = true ∧ build env = .release ∧
      Index.inc (build env) (2 ^ 64 - 1) = .ok 0 := by
  have hc := (config env).2 (Or.inr ⟨h, hd⟩)
  have hr : build env = .release := by rw [c162_others_partial env h, hd, hn, ha]; rfl
  refine ⟨?_, hr, by rw [hr]; decide +kernel⟩
  unfold assertHpp
  simp [def_define, def_undef, def_ite, hc]

/-- C162: the moves are `noexcept` exactly in the builds whose failed checks do not throw, with every compiler and
whatever was defined before.  So no failed check ever throws out of a `noexcept` function. -/
theorem c162_noexcept_partial (env : Env) : movesNoexcept env = true ↔ build env ≠ .debug := by
  have hg := config_given env
  unfold movesNoexcept build assertHpp
  cases hd : isDefined (configurationHpp env) .configDebug <;>
    cases ha : isDefined (configurationHpp env) .assertWithException <;>
    simp [define, undef]
  split <;> simp

/-- C162 (refuted for constant expressions): in no debug configuration, neither the one with exceptions nor the one in
which the functions are `noexcept`, can an iterator be moved in a constant expression, unless the user defines
`_WITE_RELEASE_CONSTEXPR`; the line meant for it defines another macro. -/
theorem c162_refuted_constexpr (env : Env) (h : isDefined env .releaseConstexpr = false) :
    (movesConstexpr env = true ↔ isDefined (assertHpp env) .configDebug = false) ∧
    assertHpp env .witwReleaseConstexpr = some (if build env = .debug then .nothing else .constexpr) := by
  have hk := config_constexpr env h
  constructor
  · unfold movesConstexpr assertHpp
    cases hd : isDefined (configurationHpp env) .configDebug <;>
      cases ha : isDefined (configurationHpp env) .assertWithException <;>
      simp_all [define, undef, def_define, def_undef]
  · unfold build assertHpp
    cases hd : isDefined (configurationHpp env) .configDebug <;>
      cases ha : isDefined (configurationHpp env) .assertWithException <;>
      simp [define, undef]
    split <;> simp

/-- C162: it does not matter which header is included first: every header that uses these macros includes
`core/assert.hpp` itself, or includes a header that does, so the macros have their final meaning. -/
theorem c162_order_partial (cfg : Config.Macros) (h : Config.Header) (hu : usesMacros h = true) :
    Config.Reaches cfg h .assert := by
  have one : ∀ {a b}, b ∈ Config.includes cfg a → Config.Reaches cfg a b := fun h => Relation.ReflTransGen.single h
  have hd : Config.Reaches cfg .dereferencingIterator .assert := one (by simp [Config.includes])
  have hi : Config.Reaches cfg .itemCollection .dereferencingIterator := one (by simp [Config.includes])
  cases h <;> first
    | (exact absurd hu (by decide))
    | (exact hi.trans hd)
    | (refine one ?_; simp [Config.includes])

/-- C162: the other way round, a header that includes `core/assert.hpp` itself has checks of its own, except for
`core.hpp`, which only includes, and `static_vector.hpp`, whose checks are those of its iterators. -/
theorem c162_order_needed (cfg : Config.Macros) (h : Config.Header) (hi : Config.Header.assert ∈ Config.includes cfg h) :
    usesMacros h = true ∨ h = .core ∨ h = .staticVector := by
  cases h <;> first
    | (exact Or.inl rfl)
    | (exact Or.inr (Or.inl rfl))
    | (exact Or.inr (Or.inr rfl))
    | (exfalso; revert hi; simp [Config.includes]; done)
    | (exfalso; revert hi; simp only [Config.includes]; split <;> simp)

/-- gcc, nothing else defined -/
private def gccDebug : Env := fun n => if n = .gnuc ∨ n = .gnug then some .other else none

/-- clang, nothing else defined -/
private def clangDebug : Env := fun n => if n = .clang ∨ n = .gnuc ∨ n = .gnug then some .other else none

example : IsGcc gccDebug ∧ build gccDebug = .aborting ∧ movesNoexcept gccDebug = true ∧ movesConstexpr gccDebug = false ∧
    Index.inc (build gccDebug) (2 ^ 64 - 1) = .terminate ∧ Index.inc (build clangDebug) (2 ^ 64 - 1) = .ok 0 ∧
    build clangDebug = .release ∧ movesConstexpr clangDebug = true ∧
    build (define .assertWithException .nothing gccDebug) = .debug ∧
    build (define .ndebug .nothing (define .assertWithException .nothing gccDebug)) = .release ∧
    build (define .debug .nothing clangDebug) = .aborting := by
  refine ⟨⟨rfl, Or.inl rfl⟩, ?_⟩
  decide +kernel

end Wite.Props
