import Verif.Dwarf.LazyLemmas
import Verif.Dwarf.DemangleProps

/-! # C93: debug information that has been asked things before -/

set_option autoImplicit false

namespace Blazesym.Dwarf.Lazy
open Blazesym.Util Blazesym.Symbolize Blazesym.Cache

/-- **C93** (answers): whatever the debug information of a file has been asked before, in whatever order and with
whatever outcome, and whichever units refer to each other, it answers a question from the contents of the file alone.  In
particular no part is decoded while it is being decoded, which would panic. -/
theorem C93_query (σ : Sorter) (refs : Refs) (r : Resolver) (cells : Cells) (h : Asked σ refs r cells) (q : Query) :
    (q.run σ refs r cells).1 = q.now σ r :=
  (run_computes q cells (sound_of_asked h)).1

/-- **C93** (histories): the answer does not depend on what was asked before. -/
theorem C93_history (σ : Sorter) (refs : Refs) (r : Resolver) (cells₁ cells₂ : Cells) (h₁ : Asked σ refs r cells₁)
    (h₂ : Asked σ refs r cells₂) (q : Query) : (q.run σ refs r cells₁).1 = (q.run σ refs r cells₂).1 := by
  rw [C93_query σ refs r cells₁ h₁, C93_query σ refs r cells₂ h₂]

/-- **C93** (visiting functions): visiting all functions gives what the file contains, whatever was asked before and
whatever the callback asks in between. -/
theorem C93_for_each {S : Type} (σ : Sorter) (refs : Refs) (r : Resolver) (cells : Cells) (h : Asked σ refs r cells)
    (opts : Elf.FindAddrOpts) (f : S → Elf.SymInfo → S × Bool) (asks : S → Function → List Query) (s : S) :
    (forEach σ refs r opts f asks s cells).1 = r.forEach σ opts f s :=
  (forEach_sound opts f asks s cells (sound_of_asked h)).1

/-- **C93** (what is kept): what is kept of a unit after any history is what is in the file; a failure is kept only if
decoding fails. -/
theorem C93_kept (σ : Sorter) (refs : Refs) (r : Resolver) (cells : Cells) (h : Asked σ refs r cells) (i : Nat) (u : Unit)
    (hu : r.units.units[i]? = some u) (d : DieUnit) (hd : u.unitRef = .ok d) :
    (∀ (v : Except Err Functions), (cells i).funcs = some v → v = parseFunctions σ r.units.units d) ∧
    (∀ (main : MainUnit), u.header.unit = .ok main → ∀ (prog : LineProgram), main.line = some prog →
      ∀ (v : Except Err Lines), (cells i).lines = some v → v = parseLines σ main.compDir prog) ∧
    (∀ (fs : Functions), parseFunctions σ r.units.units d = .ok fs → ∀ (k : Nat) (f : Function), fs.functions[k]? = some f →
      ∀ (v : Except Err InlinedFunctions), (cells i).inlined k = some v → v = parseInlined σ r.units.units d f.offset) := by
  have := sound_of_asked h i u hu
  exact ⟨this.funcs d hd, this.lines, this.inlined d hd⟩

/-- A history: a name that does not exist, and then an address. -/
def exHistory (u : Units) (refs : Refs) : Cells :=
  ((Query.findSym 0x1008 .codeInfoAndInlined).run insertSorter refs (exMixed u)
    ((Query.findAddr (ascii "x") ⟨false, .undefined⟩).run insertSorter refs (exMixed u)
      (start insertSorter u.units)).2).2

/-- What is kept of the first two units afterwards, and what is found. -/
def exAfter (refs : Refs) : Except Err (List Bool × Bytes × List Bytes) := do
  let u ← parseUnits insertSorter (exMixSections [exRustHeader, exCppHeader])
  let s := exHistory u refs
  match ← ((Query.findSym 0x1008 .codeInfoAndInlined).run insertSorter refs (exMixed u) s).1 with
  | .sym (.ok sym) => .ok ([(s 0).funcs.isSome, (s 0).lines.isSome, ((s 0).inlined 0).isSome, ((s 0).inlined 1).isSome,
      (s 1).funcs.isSome, (s 1).dwo.isSome, (s 1).lines.isSome], sym.name, sym.inlined.map InlinedFn.name)
  | _ => .error .other

/-- The hypothesis of the theorems is met by a history after which functions, lines and inlined functions are kept, of
two units that refer to each other. -/
example : ∃ (u : Units), parseUnits insertSorter (exMixSections [exRustHeader, exCppHeader]) = .ok u ∧
    Asked insertSorter ⟨fun _ => [0, 1], fun _ _ => [1]⟩ (exMixed u) (exHistory u ⟨fun _ => [0, 1], fun _ _ => [1]⟩) ∧
    exAfter ⟨fun _ => [0, 1], fun _ _ => [1]⟩ =
      .ok ([true, true, true, false, true, true, false], ascii "_RNvC1a1f", [ascii "_Z1gv"]) := by
  obtain ⟨s, h1, h2, _⟩ := found_of exMixed_found
  obtain ⟨u, hu, _⟩ := exMixLookup_ok h1
  exact ⟨u, hu, .query _ _ (.query _ _ .start), by decide +kernel⟩

end Blazesym.Dwarf.Lazy
