import Verif.Elf.LazyLemmas
import Verif.Elf.ImageProps

/-! # C92: an ELF file that has been asked things before -/

set_option autoImplicit false

namespace Blazesym.Elf.Lazy
open Blazesym.Util Blazesym.Cache

/-- **C92** (answers): whatever an open file has been asked before, in whatever order and with whatever outcome, it
answers a question from the contents of the file alone. -/
theorem C92_query (σ : Sorter) (c : Codec) (b : Backend) (cells : Cells) (h : Asked σ c b cells) (q : Query) :
    (q.run σ c b cells).1 = q.now σ c b :=
  (run_computes q cells (sound_of_asked h)).1

/-- **C92** (histories): two open parsers of the same contents answer alike, whatever they have been asked before. -/
theorem C92_history (σ : Sorter) (c : Codec) (b : Backend) (cells₁ cells₂ : Cells) (h₁ : Asked σ c b cells₁)
    (h₂ : Asked σ c b cells₂) (q : Query) : (q.run σ c b cells₁).1 = (q.run σ c b cells₂).1 := by
  rw [C92_query σ c b cells₁ h₁, C92_query σ c b cells₂ h₂]

/-- **C92** (visiting symbols): visiting all symbols gives what the file contains, whatever the file has been asked
before and whatever the callback asks it in between. -/
theorem C92_for_each {S : Type} (σ : Sorter) (c : Codec) (b : Backend) (cells : Cells) (h : Asked σ c b cells)
    (opts : FindAddrOpts) (f : S → SymInfo → S × Bool) (asks : S → SymInfo → List Query) (s : S) :
    (forEach σ c b opts f asks (s, cells)).1 = ((File.ofImage c b).forEach σ opts f s).1
    ∧ (forEach σ c b opts f asks (s, cells)).2.1 = ((File.ofImage c b).forEach σ opts f s).2 := by
  obtain ⟨h1, h2, _⟩ := forEach_visits (opts := opts) (f := f) (asks := asks) s cells (sound_of_asked h)
  exact ⟨h1, h2⟩

/-- **C92** (asking ahead): after a file has been asked to keep everything, its questions are answered as before, and an
error is not kept: the next attempt computes anew. -/
theorem C92_cache (σ : Sorter) (c : Codec) (b : Backend) (cells : Cells) (h : Asked σ c b cells) (q : Query) :
    (q.run σ c b (Query.run σ c b .cache cells).2).1 = (q.run σ c b cells).1 :=
  C92_history σ c b _ _ (.query cells .cache h) h q

/-- **C92** (what is kept): what is kept after any history is what is in the file, so that nothing that was not read
from it can be handed out. -/
theorem C92_kept (σ : Sorter) (c : Codec) (b : Backend) (cells : Cells) (h : Asked σ c b cells) :
    (∀ (v : List Shdr), cells.shdrs = some v → Elf.parseShdrs b = .ok v) ∧
    (∀ (v : List Phdr), cells.phdrs = some v → Elf.parsePhdrs b = .ok v) ∧
    (∀ (t : SymCells), cells.symtab = some t → Elf.parseSymtab c b = .ok t.tab) ∧
    (∀ (t : SymCells), cells.dynsym = some t → Elf.parseDynsym b = .ok t.tab) ∧
    (∀ (l : List (Option Bytes)), cells.sections = some l →
      ∀ (i : Nat) (d : Bytes), l[i]? = some (some d) → Elf.sectionData c b i = .ok d) := by
  have := sound_of_asked h
  exact ⟨this.shdrs, this.phdrs, fun t ht => (this.symtab t ht).1, fun t ht => (this.dynsym t ht).1,
    fun l hl => (this.sections l hl).2⟩

set_option maxRecDepth 20000 in
/-- A file that has been asked for the contents of a section after a section that does not exist: it keeps one section,
and answers from it. -/
example (σ : Sorter) : ∃ (cells : Cells), Asked σ noCodec (.mem 4096 tinyElf) cells
    ∧ cells.sections.map (·.map Option.isSome) = some [false, false, false, true]
    ∧ cells.shdrs.map List.length = some 4 ∧ cells.symtab = none
    ∧ ((Query.sectionData 3).run σ noCodec (.mem 4096 tinyElf) cells).1 = .ok (.data [0, 102, 0])
    ∧ ((Query.sectionData 77).run σ noCodec (.mem 4096 tinyElf) cells).1 = .error .invalidInput
    ∧ ((Query.findSection (ascii ".symtab")).run σ noCodec (.mem 4096 tinyElf) cells).1 = .ok (.index (some 2)) :=
  ⟨_, .query _ (.sectionData 3) (.query _ (.sectionData 77) .new), by rfl, by rfl, by rfl, by rfl, by rfl, by rfl⟩

/-- A file that cannot be read stays so, and nothing is kept. -/
example (σ : Sorter) : Asked σ noCodec (.mem 4096 []) Cells.new
    ∧ ((Query.findSym 0).run σ noCodec (.mem 4096 []) Cells.new) = (.error .invalidData, Cells.new) := by
  exact ⟨.new, by rfl⟩

end Blazesym.Elf.Lazy
