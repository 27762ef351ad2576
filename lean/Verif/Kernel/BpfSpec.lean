import Verif.Kernel.Bpf
import Verif.Util.LayoutSpec
import Verif.Util.TextSpec

/-! Specification vocabulary for BPF programs. -/

set_option autoImplicit false

namespace Blazesym.Spec.Kernel
open Blazesym.Kernel

/-- Two characters that are the hexadecimal number `b`. -/
def Chunk (chunk : Bytes) (b : UInt8) : Prop := chunk.length = 2 ∧ NumText 16 chunk b.toNat

/-- `s` is a sequence of numbers of two characters each. -/
def TagText (s tag : Bytes) : Prop := ∃ chunks : List Bytes, s = chunks.flatten ∧ List.Forall₂ Chunk chunks tag

/-- A byte that continues a UTF-8 encoded character. -/
def Continuation (b : UInt8) : Prop := 128 ≤ b.toNat ∧ b.toNat < 192

/-- The next byte may not start a character. -/
def StartsInside (r : Bytes) : Prop := ∃ b, r.head? = some b ∧ Continuation b

/-- Text of 16 bytes where, after numbers of two characters each, a character does not end where
the next such number would. -/
def Straddles (s : Bytes) : Prop :=
  s.length = 16 ∧ ∃ done tag rest, s = done ++ rest ∧ TagText done tag ∧
    ((done ≠ [] ∧ StartsInside rest) ∨ StartsInside (rest.drop 2))

/-- The name of a BPF program in kallsyms: `bpf_prog_<tag>` or `bpf_prog_<tag>_<name>`. -/
def ProgName (s tagText : Bytes) : Prop :=
  (s = ascii "bpf_prog_" ++ tagText ∨ ∃ name, s = ascii "bpf_prog_" ++ tagText ++ ascii "_" ++ name) ∧
  ∀ b ∈ tagText, b ≠ 95

/-- A program has a tag: its own or that of a subprogram. -/
def HasTag (info : ProgInfo) (tag : Bytes) : Prop := tag = info.tag ∨ tag ∈ info.progTags

/-- `info` is the first program with the tag. -/
def FirstWith (infos : List ProgInfo) (tag : Bytes) (info : ProgInfo) : Prop :=
  ∃ before after : List ProgInfo, infos = before ++ info :: after ∧ HasTag info tag ∧
    ∀ i ∈ before, ¬ HasTag i tag

/-- `info` is the last program with the tag. -/
def LastWith (infos : List ProgInfo) (tag : Bytes) (info : ProgInfo) : Prop :=
  ∃ before after : List ProgInfo, infos = before ++ info :: after ∧ HasTag info tag ∧
    ∀ i ∈ after, ¬ HasTag i tag

/-- The string section of BTF data. -/
def Strings (btf : Btf) (strs : Bytes) : Prop := IsSlice btf.data (btf.hdrLen + btf.strOff) btf.strLen strs

/-- The record a program's line information number `i` describes. -/
def Record (btf : Btf) (lineInfo : List BpfLineInfo) (i : Nat) (addr : Nat) (r : LineInfoRecord) : Prop :=
  ∃ (li : BpfLineInfo) (strs : Bytes), lineInfo[i]? = some li ∧ r.addr = addr ∧
    Strings btf strs ∧ NameAt strs li.fileNameOff r.path ∧
    li.lineCol = r.line * 1024 + r.col ∧ r.col < 1024

end Blazesym.Spec.Kernel
