import Verif.Cli.MainSpec
import Verif.Session.AnswerSpec

/-!
# What is to be read in the output of the command line tool, by the contents of files
-/

set_option autoImplicit false

namespace Blazesym.Spec.Cli
open Blazesym.Symbolize (Symbolized)
open Blazesym.Spec.Symbolize

variable {M : Type} [DecidableEq M]

/-- The text has, for every address, in their order, what is to be read for an answer that is right. -/
def Tells (display : Bytes → Bytes) (right : Nat → Symbolized → Prop) (addrs : List Nat) (text : Bytes) : Prop :=
  ∃ outs, List.Forall₂ right addrs outs ∧ readFrames text = some (addrs.zip (outs.map (frameOf display)))

/-- The names of the symbols of a table can be told from what follows them. -/
def PlainNames (shown : Bytes → Bytes) (t : Elf.SymTab) : Prop :=
  ∀ s ∈ t.syms, ∀ name, NameAt t.strs s.name name → PlainName (shown name)

/-- An address of a process is mapped from an ELF file: at which offset, under what name, and the contents. -/
def MappedElf (codec : Elf.Codec) (w : Symbolize.World M) (src : Symbolize.ProcessSource) (addr off : Nat)
    (name : Bytes) (phdrs : List Elf.Phdr) (symtab dynsym : Elf.SymTab) : Prop :=
  ∃ (e : Maps.Entry) (p : Maps.EntryPath) (data : Bytes), MappedAt w.maps src.pid addr e off ∧
    e.pathName = some (.path p) ∧ ¬ IsArchive p.symbolicPath ∧ p.symbolicPath = name ∧
    HasContents w (w.disk.stat (readFrom src p)) data ∧ ElfParts codec (.mem 4096 data) phdrs symtab dynsym

/-- What is reported for an address of a process that is mapped from an ELF file, or not mapped. -/
inductive InProcess (codec : Elf.Codec) (shown : Bytes → Bytes) (w : Symbolize.World M) (src : Symbolize.ProcessSource)
    (addr : Nat) : Symbolized → Prop where
  | mapped (off : Nat) (name : Bytes) (phdrs : List Elf.Phdr) (symtab dynsym : Elf.SymTab) (out : Symbolized) :
      MappedElf codec w src addr off name phdrs symtab dynsym → AtOffset phdrs (InElf shown name symtab dynsym) off out →
      InProcess codec shown w src addr out
  | unmapped (es : List Maps.Entry) : w.maps src.pid = .ok (es.map .ok) →
      (∀ e ∈ es, ¬ (e.start ≤ addr ∧ addr < e.stop)) → InProcess codec shown w src addr (.unknown .unmapped)

/-- Every file is used under one name, and what is its debug information does not depend on which file is looked
at first (see C68). -/
def OneName (cfg : Symbolize.Settings M (Symbolize.KernelCache M)) (w : Symbolize.World M) (src : Symbolize.Source) :
    Prop :=
  ∃ k : Known M, k.contents = w.disk.contents ∧ ∀ l, Uses w.maps src l → Fits cfg k w (present w) l

end Blazesym.Spec.Cli
