import Verif.Basic

/-! # The types symbolization results are made of (`src/symbolize/mod.rs`) -/

set_option autoImplicit false

namespace Blazesym.Symbolize

/-- `src/symbolize/mod.rs:459-483` (`Reason`). -/
inductive Reason where
  | unmapped
  | invalidFileOffset
  | missingComponent
  | missingSyms
  | unsupported
  | unknownAddr
  | ignoredError
  deriving DecidableEq, Repr

/-- `src/symbolize/mod.rs:133-142` (`FindSymOpts`). -/
inductive FindSymOpts where
  | basic
  | codeInfo
  | codeInfoAndInlined
  deriving DecidableEq, Repr

/-- `src/symbolize/mod.rs:146-151` (`code_info`). -/
def FindSymOpts.wantsCodeInfo : FindSymOpts → Bool
  | .basic => false
  | .codeInfo | .codeInfoAndInlined => true

/-- `src/symbolize/mod.rs:154-159` (`inlined_fns`). -/
def FindSymOpts.wantsInlined : FindSymOpts → Bool
  | .basic | .codeInfo => false
  | .codeInfoAndInlined => true

/-- `src/symbolize/mod.rs:241-258` (`CodeInfo`). -/
structure CodeInfo where
  dir : Option Bytes
  file : Bytes
  line : Option Nat
  column : Option Nat
  deriving DecidableEq, Repr

/-- `src/symbolize/mod.rs:299-308` (`InlinedFn`). -/
structure InlinedFn where
  name : Bytes
  codeInfo : Option CodeInfo
  deriving DecidableEq, Repr

/-- `src/symbolize/mod.rs:328-339` (`SrcLang`): the language a symbol originates from. -/
inductive SrcLang where
  | unknown
  | cpp
  | rust
  deriving DecidableEq, Repr

/-- `src/symbolize/mod.rs:343-365` (`ResolvedSym`). -/
structure ResolvedSym where
  name : Bytes
  module : Option Bytes
  addr : Nat
  size : Option Nat
  lang : SrcLang
  codeInfo : Option CodeInfo
  inlined : List InlinedFn
  deriving DecidableEq, Repr

end Blazesym.Symbolize
