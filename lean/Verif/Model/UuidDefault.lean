import Verif.Model.Uuid
import Verif.Model.OStream

/-!
# Model of the default UUID format

`WITE_DEFAULT_UUID_FMT` is the format letter of every call that does not name one (core/uuid/basic_uuid.hpp:17-19 and 27,
core/uuid.hpp:39-41).  Here it is the argument `fmt`; the default of the default is `'D'`.
-/

namespace Wite.Uuid.Default

/-- `str()`, `wstr()` (core/uuid.hpp:96-97), `to_string(id)` and `to_wstring(id)` (core/uuid/uuid_functions.hpp:102 and
107). -/
def str (fmt : Char) (host : Io.Endian) (id : List Nat) : Outcome (List Nat) := Uuid.str host id fmt

/-- `into_c_str(out, size)` (core/uuid.hpp:90-95) and `to_c_str(id, buffer, max)` (core/uuid/uuid_functions.hpp:97). -/
def intoCStr (fmt : Char) (host : Io.Endian) (id : List Nat) (maxLen : Nat) : St (List Nat) Bool :=
  toCStr host id maxLen fmt

/-- `uuid{s}` (core/uuid.hpp:79-85). -/
def ofString (fmt : Char) (s behind : List Nat) : Outcome (List Nat) := Uuid.ofString s fmt behind

/-- `try_make_uuid(s)` (core/uuid.hpp:244-250). -/
def tryMake (fmt : Char) (s behind : List Nat) : Outcome (Result (List Nat) MakeError) := Uuid.tryMake s fmt behind

/-- `operator<<` (core/io.hpp:20-24 and 28-32), which calls `to_string(id)`. -/
def insert (fmt : Char) (host : Io.Endian) (id : List Nat) : St (OStream Nat) Unit := do
  let s ← St.lift (str fmt host id)
  let os ← St.get
  St.set (os.insertText s)

end Wite.Uuid.Default
