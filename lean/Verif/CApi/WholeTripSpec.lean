import Verif.CApi.WholeSpec
import Verif.Session.RoundTripSpec

/-! # Normalizing addresses and symbolizing the result later, with the C interface -/

set_option autoImplicit false

namespace Blazesym.CApi

variable {M : Type} [DecidableEq M]

/-- A program makes a call for symbolization by the rules, of a symbolizer that was made with these options. -/
def Asks (p : Platform) (n : Sizes) (alloc : Allocator) (ok : Conditions M) (opts : SymbolizerOpts) (w : Normalize.World M)
    (fn : SymbolizeFn) (source : Symbolize.Source) (input : Symbolize.Input (List Nat)) (x : Whole M) (c : SymCall) : Prop :=
  ∃ (a : Account) (os : List Block) (o : Object M) (src addrs cnt : Nat), WholeRuns p n alloc ok x a os ∧
    WholeAbides p ok x a w (.sym c) ∧ o ∈ x.symbolizers ∧ o.opts = opts ∧ c = .symbolize o.addr fn src addrs cnt ∧
    SymbolizeArgs x.store.mem src addrs cnt fn source input

/-- The outputs for these addresses are these offsets in the file at `path`. -/
def InFile (addrs : List Nat) (out : UserOutput) (path : Bytes) (pairs : List (Nat × Nat)) : Prop :=
  ∀ (q : Nat × Nat), q ∈ pairs → ∃ (i idx : Nat) (id : Option Bytes),
    addrs[i]? = some q.1 ∧ out.outputs[i]? = some (q.2, idx) ∧ out.metas[idx]? = some (.elf path id)

/-- A program that symbolizes offsets in a file gets the symbols that a program gets that symbolizes the addresses. -/
def SameLater (p : Platform) (n : Sizes) (alloc : Allocator) (ok : Conditions M) (opts : SymbolizerOpts)
    (w : Normalize.World M) (src : Symbolize.ProcessSource) (path : Bytes) (pairs : List (Nat × Nat)) : Prop :=
  ∀ (y y' z : Whole M) (c d : SymCall) (thread thread' ret : Nat),
    Asks p n alloc ok opts w .process (.process src) (.absAddr (pairs.map (·.1))) y c →
    y.step p n alloc w thread (.sym c) = .ok (ret, y') → ret ≠ 0 →
    Asks p n alloc ok opts w .elfFile (.elf path src.debugSyms) (.fileOffset (pairs.map (·.2))) z d →
    ∃ (results : List Symbolize.Symbolized), ResultsAt y'.store.mem ret results ∧
      Delivers alloc z.syms thread' (List.Forall₂ Spec.RoundTrip.Agree results)
        ((z.step p n alloc w thread' (.sym d)).map fun r => (r.1, r.2.syms))

/-- If normalization reports a symbol for an address, or that there is none, then this is what a program gets that
symbolizes the address. -/
def Told (p : Platform) (n : Sizes) (alloc : Allocator) (ok : Conditions M) (opts : SymbolizerOpts)
    (w : Normalize.World M) (src : Symbolize.ProcessSource) (addr : Nat) (m : OutMeta) : Prop :=
  ∀ (y y' : Whole M) (c : SymCall) (thread ret : Nat),
    Asks p n alloc ok opts w .process (.process src) (.absAddr [addr]) y c →
    y.step p n alloc w thread (.sym c) = .ok (ret, y') → ret ≠ 0 →
    match m with
    | .sym sym => ResultsAt y'.store.mem ret
        [.sym (Spec.RoundTrip.shownSym (Spec.Symbolize.shownName p.demangler opts.demangle .unknown) sym)]
    | .unknown _ => ∃ (reason : Symbolize.Reason), ResultsAt y'.store.mem ret [.unknown reason]
    | _ => True

end Blazesym.CApi
