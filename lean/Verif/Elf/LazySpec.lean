import Verif.Elf.Lazy

/-!
# What an ELF parser with any history has to answer

The answers are those computed from the contents of the file alone (`Verif.Elf.Symtab`, `Verif.Elf.Image`, about which
C04 to C10, C45 and C54 say what they are).
-/

set_option autoImplicit false

namespace Blazesym.Elf.Lazy
open Blazesym.Util Blazesym.Cache

/-- The answer for a file, without keeping anything. -/
def Query.now (σ : Sorter) (c : Codec) (b : Backend) : Query → Except Err Answer
  | .findSym addr => ((File.ofImage c b).findSym σ addr).map .sym
  | .findAddr name opts => ((File.ofImage c b).findAddr σ name opts).map .infos
  | .findFileOffset addr size => ((File.ofImage c b).findFileOffset addr size).map .offset
  | .fileOffsetToVirtOffset offset => ((File.ofImage c b).fileOffsetToVirtOffset offset).map .offset
  | .sectionData idx => (Elf.sectionData c b idx).map .data
  | .findSection name => (Elf.findSection b name).map .index
  | .sectionRelocs => (Elf.parseSectionRelocs b).map .relocs
  | .sectionHeaders => (Elf.parseShdrs b).map .shdrs
  | .programHeaders => (Elf.parsePhdrs b).map .phdrs
  | .cache => do
    let symtab ← Elf.parseSymtab c b
    let _ ← str2symtab σ symtab
    let dynsym ← Elf.parseDynsym b
    let _ ← str2dynsym σ symtab dynsym
    return .done

/-- The parsers a program can have: a new one, and what it becomes by being asked things, successfully or not, also by
callbacks while symbols are visited. -/
inductive Asked (σ : Sorter) (c : Codec) (b : Backend) : Cells → Prop where
  | new : Asked σ c b Cells.new
  | query (cells : Cells) (q : Query) : Asked σ c b cells → Asked σ c b (q.run σ c b cells).2
  | forEach (cells : Cells) (S : Type) (opts : FindAddrOpts) (f : S → SymInfo → S × Bool)
      (asks : S → SymInfo → List Query) (s : S) :
      Asked σ c b cells → Asked σ c b (forEach σ c b opts f asks (s, cells)).2.2

end Blazesym.Elf.Lazy
