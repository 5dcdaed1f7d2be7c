import Verif.Model.Config
import Verif.Model.Outcome

/-!
# Model of the macros that turn the debug checks on and off

`env/compiler.hpp`, `env/configuration.hpp` and `core/assert.hpp` are run as the preprocessor runs them, on the macros
that matter here: the ones the compiler and the command line define, which are given, and the ones the headers define.
Each header is run once (`#pragma once`), in the order of the `#include` lines at its top.
-/

namespace Wite.Checks

/-- The macros involved.  `witwReleaseConstexpr` is the name core/assert.hpp defines: `_WITW_RELEASE_CONSTEXPR`. -/
inductive Name where
  /-- `__clang__` -/
  | clang
  /-- `__GNUC__` -/
  | gnuc
  /-- `__GNUG__` -/
  | gnug
  /-- `_MSC_VER` -/
  | mscVer
  /-- `NDEBUG` -/
  | ndebug
  /-- `_DEBUG` -/
  | debug
  /-- `_WITE_ASSERT_WITH_EXCEPTION` -/
  | assertWithException
  /-- `_WITE_COMPILER_CLANG` -/
  | compilerClang
  /-- `_WITE_COMPILER_GCC` -/
  | compilerGcc
  /-- `_WITE_COMPILER_MSVC` -/
  | compilerMsvc
  /-- `_WITE_CONFIG_DEBUG` -/
  | configDebug
  /-- `_WITE_RELEASE_NOEXCEPT` -/
  | releaseNoexcept
  /-- `_WITE_RELEASE_CONSTEXPR` -/
  | releaseConstexpr
  /-- `_WITW_RELEASE_CONSTEXPR` -/
  | witwReleaseConstexpr
  /-- `_WITE_DEBUG_ASSERT` -/
  | debugAssert
  deriving DecidableEq, Repr

/-- What a macro stands for, as far as it is used here. -/
inductive Text where
  /-- nothing -/
  | nothing
  /-- `noexcept` -/
  | noexcept
  /-- `constexpr` -/
  | constexpr
  /-- `if (!(pred)) _throw_assertion_error(...)` -/
  | throwing
  /-- `assert(pred)` -/
  | cAssert
  /-- any other text -/
  | other
  deriving DecidableEq, Repr

/-- The macros defined at some point, with what they stand for. -/
abbrev Env := Name → Option Text

/-- `#define` -/
def define (n : Name) (t : Text) (env : Env) : Env := fun m => if m = n then some t else env m

/-- `#undef` -/
def undef (n : Name) (env : Env) : Env := fun m => if m = n then none else env m

/-- `#ifdef`, `defined(...)` -/
def isDefined (env : Env) (n : Name) : Bool := (env n).isSome

/-- env/compiler.hpp:10-20. -/
def compilerHpp (env : Env) : Env :=
  let env := undef .compilerMsvc (undef .compilerGcc (undef .compilerClang env))
  if isDefined env .clang then define .compilerClang .nothing env
  else if isDefined env .gnuc || isDefined env .gnug then define .compilerGcc .nothing env
  else if isDefined env .mscVer then define .compilerMsvc .nothing env
  else env

/-- env/configuration.hpp:10-52, which includes env/compiler.hpp first.  (The word size, env/configuration.hpp:25-36, is
used nowhere.) -/
def configurationHpp (env : Env) : Env :=
  let env := compilerHpp env
  let env := undef .configDebug env
  let env :=
    if !isDefined env .compilerGcc then
      if isDefined env .debug then define .configDebug .nothing env else env
    else
      if !isDefined env .ndebug then define .configDebug .nothing env else env
  let env :=
    if !isDefined env .releaseNoexcept then
      if isDefined env .configDebug then define .releaseNoexcept .nothing env else define .releaseNoexcept .noexcept env
    else env
  if !isDefined env .releaseConstexpr then
    if isDefined env .configDebug then define .releaseConstexpr .nothing env else define .releaseConstexpr .constexpr env
  else env

/-- core/assert.hpp:10-72, which includes env/environment.hpp and with it env/configuration.hpp. -/
def assertHpp (env : Env) : Env :=
  let env := configurationHpp env
  if isDefined env .configDebug then
    if isDefined env .assertWithException then
      define .debugAssert .throwing (define .witwReleaseConstexpr .nothing (define .releaseNoexcept .nothing env))
    else
      let env := define .debugAssert .cAssert env
      let env := define .releaseNoexcept .noexcept (undef .releaseNoexcept env)
      define .witwReleaseConstexpr .constexpr (undef .witwReleaseConstexpr env)
  else
    let env := define .debugAssert .nothing env
    let env := define .releaseNoexcept .noexcept (undef .releaseNoexcept env)
    define .witwReleaseConstexpr .constexpr (undef .witwReleaseConstexpr env)

/-- What a `_WITE_DEBUG_ASSERT` does in a translation unit (core/assert.hpp:42-47, 52 and 64), in the terms of the rest of
the model.  `assert` does nothing when `NDEBUG` is defined, and does not evaluate its argument then. -/
def build (env : Env) : Build :=
  match assertHpp env .debugAssert with
  | some .throwing => .debug
  | some .cAssert => if isDefined env .ndebug then .release else .aborting
  | _ => .release

/-- Whether the functions marked `_WITE_RELEASE_NOEXCEPT` are `noexcept`, for example `++` of an index
(core/index.hpp:40). -/
def movesNoexcept (env : Env) : Bool := assertHpp env .releaseNoexcept = some .noexcept

/-- Whether the functions marked `_WITE_RELEASE_CONSTEXPR` are `constexpr`: all moves of the iterators of a static_vector
(collections/dereferencing_iterator.hpp:60, 67, 73, 80, 86, 93, 100, 109). -/
def movesConstexpr (env : Env) : Bool := assertHpp env .releaseConstexpr = some .constexpr

/-- The headers with a use of `_WITE_RELEASE_NOEXCEPT`, `_WITE_RELEASE_CONSTEXPR` or `_WITE_DEBUG_ASSERT`
(string/fragment_string.hpp:76, maths/value_range.hpp:55, core/index.hpp:40,
collections/dereferencing_iterator.hpp:60, collections/identifiable_item_collection.hpp:191). -/
def usesMacros : Config.Header → Bool
  | .fragmentString | .valueRange | .index | .dereferencingIterator | .itemCollection => true
  | _ => false

end Wite.Checks
