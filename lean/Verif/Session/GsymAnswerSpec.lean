import Verif.Session.AnswerSpec
import Verif.Gsym.DataSpec

/-!
# Specification of what is reported for an address from the contents of a GSYM file
-/

set_option autoImplicit false

namespace Blazesym.Spec.Symbolize
open Blazesym.Symbolize Blazesym.Util Blazesym.Spec.Gsym

/-- A GSYM file whose addresses have a known width and are in order. -/
structure GoodGsym (data : Bytes) (f : GsymFile) : Prop where
  describes : Describes data f
  width : f.width = 1 ∨ f.width = 2 ∨ f.width = 4 ∨ f.width = 8
  sorted : Ascending f

/-- What is reported for an address according to a GSYM file: the entry with the greatest start that is not above the
address, if the address is not beyond its end (entries of size zero have no end).  (Nothing is said about the location
and the inlined functions, and the name that goes with them, if the data of the entry is damaged.) -/
inductive InGsym (shown : Bytes → Bytes) (opts : FindSymOpts) (data : Bytes) (f : GsymFile) (addr : Nat) :
    Symbolized → Prop
  | entry (i start size : Nat) (own name : Bytes) (items : List Item) (ci : Option CodeInfo) (fns : List InlinedFn) :
      EntryAt data f i start size own items → IsGreatestStart f addr start → (size = 0 ∨ addr < start + size) →
      ((opts ≠ .basic → ItemsReadable items start addr) → Gsym.LocatedIn f start addr items own opts name ci fns) →
      InGsym shown opts data f addr (.sym ⟨shown name, none, start, addr - start, some size, ci,
        fns.map fun x => { name := shown x.name, codeInfo := x.codeInfo }⟩)
  | above : (∀ o ∈ f.offsets, addr < f.base + o) → InGsym shown opts data f addr (.unknown .unknownAddr)
  | beyond (i o info size nm : Nat) : f.offsets[i]? = some o → IsGreatestStart f addr (f.base + o) →
      f.infos[i]? = some info → InfoAt data info size nm → 0 < size → f.base + o + size ≤ addr →
      InGsym shown opts data f addr (.unknown .unknownAddr)

end Blazesym.Spec.Symbolize
