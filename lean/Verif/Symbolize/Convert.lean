import Verif.Symbolize.Types

/-!
# Model of the conversion of a resolver's symbol (`src/symbolize/symbolizer.rs`)

Demangling is done by other libraries: what a scheme makes of a name is an arbitrary function.
-/

set_option autoImplicit false

namespace Blazesym.Symbolize

/-- `src/symbolize/mod.rs:369-418` (`Sym`). -/
structure Sym where
  name : Bytes
  module : Option Bytes
  addr : Nat
  offset : Nat
  size : Option Nat
  codeInfo : Option CodeInfo
  inlined : List InlinedFn
  deriving DecidableEq, Repr

/-- `src/symbolize/mod.rs:516-524` (`Symbolized`). -/
inductive Symbolized where
  | sym (sym : Sym)
  | unknown (reason : Reason)
  deriving DecidableEq, Repr

/-- `Symbolize::find_sym` of a resolver (`src/symbolize/mod.rs`). -/
abbrev SymFn := Nat → FindSymOpts → Except Err (Except Reason ResolvedSym)

/-- The demanglers (`rustc_demangle`, `cpp_demangle`): what they make of a name, if it is one of theirs. -/
structure Demangler where
  rust : Bytes → Option Bytes
  cpp : Bytes → Option Bytes

/-- `src/symbolize/symbolizer.rs:125-145` (`maybe_demangle_impl`), with the feature `demangle`. -/
def maybeDemangleImpl (d : Demangler) (name : Bytes) (lang : SrcLang) : Bytes :=
  (match lang with
    | .rust => d.rust name
    | .cpp => d.cpp name
    | .unknown => (d.rust name).orElse fun _ => d.cpp name).getD name

/-- `src/symbolize/symbolizer.rs:154-160` (`maybe_demangle`). -/
def maybeDemangle (d : Demangler) (demangle : Bool) (lang : SrcLang) (name : Bytes) : Bytes :=
  if demangle then maybeDemangleImpl d name lang else name

/-- `src/symbolize/symbolizer.rs:172-199` (`convert_sym`). -/
def convertSym (demangler : Demangler) (demangle : Bool) (addr : Nat) (sym : ResolvedSym) : Except Err Sym :=
  let inlined := sym.inlined.map (fun fn => { fn with name := maybeDemangle demangler demangle sym.lang fn.name })
  match subU addr sym.addr with
  | .error e => .error e
  | .ok offset =>
    .ok { name := maybeDemangle demangler demangle sym.lang sym.name, module := sym.module, addr := sym.addr, offset,
          size := sym.size, codeInfo := sym.codeInfo, inlined }

/-- `src/symbolize/symbolizer.rs:164-214` (`symbolize_with_resolver`).  Whether the resolver is
cached only determines who owns the result. -/
def symbolizeWithResolver (demangler : Demangler) (demangle : Bool) (opts : FindSymOpts) (addr : Nat)
    (resolver : SymFn) : Except Err Symbolized :=
  match resolver addr opts with
  | .error e => .error e
  | .ok (.error reason) => .ok (.unknown reason)
  | .ok (.ok sym) =>
    match convertSym demangler demangle addr sym with
    | .error e => .error e
    | .ok sym => .ok (.sym sym)

end Blazesym.Symbolize
