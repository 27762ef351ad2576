import Verif.Error.Error
import Verif.Symbolize.Types

/-!
# Model of the C error and reason codes (`capi/src/error.rs`, `capi/src/symbolize.rs`, `capi/src/normalize.rs`)
-/

set_option autoImplicit false

namespace Blazesym.CApi

open Blazesym.Error Blazesym.Symbolize

/-- `capi/src/error.rs:51-70` (`From<ErrorKind>`) with the constants of `:14-49`. -/
def errCode : ErrorKind → Int
  | .notFound => -2
  | .permissionDenied => -1
  | .alreadyExists => -17
  | .wouldBlock => -11
  | .invalidInput => -256
  | .invalidData => -22
  | .invalidDwarf => -259
  | .timedOut => -110
  | .writeZero => -257
  | .unsupported => -95
  | .unexpectedEof => -258
  | .outOfMemory => -12
  | .other => -260

/-- `capi/src/error.rs:92-109` (`blaze_err_str`): the bytes the returned pointer leads to. -/
def errStr (err : Int) : Bytes :=
  if err = 0 then ascii "success" ++ [0]
  else if err = -2 then ErrorKind.notFound.asBytes
  else if err = -1 then ErrorKind.permissionDenied.asBytes
  else if err = -17 then ErrorKind.alreadyExists.asBytes
  else if err = -11 then ErrorKind.wouldBlock.asBytes
  else if err = -256 then ErrorKind.invalidInput.asBytes
  else if err = -22 then ErrorKind.invalidData.asBytes
  else if err = -259 then ErrorKind.invalidDwarf.asBytes
  else if err = -110 then ErrorKind.timedOut.asBytes
  else if err = -257 then ErrorKind.writeZero.asBytes
  else if err = -95 then ErrorKind.unsupported.asBytes
  else if err = -258 then ErrorKind.unexpectedEof.asBytes
  else if err = -12 then ErrorKind.outOfMemory.asBytes
  else ErrorKind.other.asBytes

/-- `src/symbolize/mod.rs:488-498` (`Reason::as_bytes`), with the terminating NUL. -/
def reasonBytes : Reason → Bytes
  | .unmapped => ascii "absolute address not found in virtual memory map of process" ++ [0]
  | .invalidFileOffset => ascii "file offset does not map to a valid piece of code/data" ++ [0]
  | .missingComponent => ascii "proc maps entry has no component" ++ [0]
  | .missingSyms => ascii "symbolization source has no or no relevant symbols" ++ [0]
  | .unsupported => ascii "address belongs to unsupported entity" ++ [0]
  | .unknownAddr => ascii "address not found in symbolization source" ++ [0]
  | .ignoredError => ascii "an error occurred but was ignored in batch mode" ++ [0]

/-- `capi/src/symbolize.rs:493-506` (`From<Reason>`) with the constants of `:470-490`. -/
def symbolizeReason : Reason → Nat
  | .unmapped => 1
  | .invalidFileOffset => 2
  | .missingComponent => 3
  | .missingSyms => 4
  | .unsupported => 6
  | .unknownAddr => 5
  | .ignoredError => 7

/-- `capi/src/symbolize.rs:512-528` (`blaze_symbolize_reason_str`). -/
def symbolizeReasonStr (reason : Nat) : Bytes :=
  if reason = 0 then ascii "success" ++ [0]
  else if reason = 1 then reasonBytes .unmapped
  else if reason = 2 then reasonBytes .invalidFileOffset
  else if reason = 3 then reasonBytes .missingComponent
  else if reason = 4 then reasonBytes .missingSyms
  else if reason = 5 then reasonBytes .unknownAddr
  else if reason = 6 then reasonBytes .unsupported
  else if reason = 7 then reasonBytes .ignoredError
  else ascii "unknown reason" ++ [0]

/-- `capi/src/normalize.rs:505-518` (`From<Reason>`) with the constants of `:486-503`. -/
def normalizeReason : Reason → Nat
  | .unmapped => 0
  | .missingComponent => 1
  | .unsupported => 2
  | .invalidFileOffset => 3
  | .missingSyms => 4
  | .unknownAddr => 5
  | .ignoredError => 7

/-- `capi/src/normalize.rs:523-538` (`blaze_normalize_reason_str`). -/
def normalizeReasonStr (reason : Nat) : Bytes :=
  if reason = 0 then reasonBytes .unmapped
  else if reason = 1 then reasonBytes .missingComponent
  else if reason = 2 then reasonBytes .unsupported
  else if reason = 3 then reasonBytes .invalidFileOffset
  else if reason = 4 then reasonBytes .missingSyms
  else if reason = 5 then reasonBytes .unknownAddr
  else if reason = 7 then reasonBytes .ignoredError
  else ascii "unknown reason" ++ [0]

end Blazesym.CApi
