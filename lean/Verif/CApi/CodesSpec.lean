import Verif.Error.Error
import Verif.Symbolize.Types

/-!
# The codes of the C header (`capi/include/blazesym.h`)
-/

set_option autoImplicit false

namespace Blazesym.CApi

open Blazesym.Error Blazesym.Symbolize

/-- `capi/include/blazesym.h:26-84`: the error codes (`BLAZE_ERR_*`).  The ones with a counterpart
among the errors of the operating system are the negated `errno` values. -/
def headerErr : List (ErrorKind × Int) :=
  [(.notFound, -2), (.permissionDenied, -1), (.alreadyExists, -17), (.wouldBlock, -11), (.invalidData, -22),
   (.timedOut, -110), (.unsupported, -95), (.outOfMemory, -12), (.invalidInput, -256), (.writeZero, -257),
   (.unexpectedEof, -258), (.invalidDwarf, -259), (.other, -260)]

/-- `capi/include/blazesym.h:422-453` (`BLAZE_SYMBOLIZE_REASON_*`); 0 is success. -/
def headerSymbolizeReason : List (Reason × Nat) :=
  [(.unmapped, 1), (.invalidFileOffset, 2), (.missingComponent, 3), (.missingSyms, 4), (.unknownAddr, 5),
   (.unsupported, 6), (.ignoredError, 7)]

/-- `capi/include/blazesym.h:258-283` (`BLAZE_NORMALIZE_REASON_*`). -/
def headerNormalizeReason : List (Reason × Nat) :=
  [(.unmapped, 0), (.missingComponent, 1), (.unsupported, 2), (.invalidFileOffset, 3), (.missingSyms, 4),
   (.unknownAddr, 5), (.ignoredError, 7)]

/-- The bytes a pointer leads to are the C string `s`. -/
def IsCStr (bytes s : Bytes) : Prop := bytes = s ++ [0] ∧ 0 ∉ s

instance (bytes s : Bytes) : Decidable (IsCStr bytes s) := inferInstanceAs (Decidable (_ ∧ _))

end Blazesym.CApi
