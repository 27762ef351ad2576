import Verif.Kernel.Ksym
import Verif.Kernel.BpfSpec
import Verif.Util.SearchSpec

/-! Specification vocabulary for kallsyms. -/

set_option autoImplicit false

namespace Blazesym.Spec.Kernel
open Blazesym.Kernel

/-- A line `address type name ...` with a hexadecimal address that is not zero. -/
def SymLine (line name : Bytes) (addr : Nat) : Prop :=
  ∃ (a typ : Bytes) (rest : List Bytes), Words line (a :: typ :: name :: rest) ∧ NumText 16 a addr ∧
    0 < addr ∧ addr < 2 ^ 64

/-- The name is that of a BPF program with the tag. -/
def BpfName (name tag : Bytes) : Prop := ∃ t, ProgName name t ∧ tag.length = 8 ∧ TagText t tag

/-- What a symbol with a name and address is: with BPF support, names of BPF programs denote
these. -/
inductive Denotes (bpf : Bool) (name : Bytes) (addr : Nat) : Ksym → Prop
  | prog (tag : Bytes) (hb : bpf = true) (h : BpfName name tag) : Denotes bpf name addr (.bpfProg ⟨addr, name, tag⟩)
  | func (h : bpf = false ∨ ∀ tag, ¬ BpfName name tag) : Denotes bpf name addr (.kfunc addr name)

/-- With BPF support, names of the form of a BPF program's but with a character across the
numbers of the tag are a problem. -/
def BadName (bpf : Bool) (name : Bytes) : Prop := bpf = true ∧ ∃ t, ProgName name t ∧ Straddles t

/-- The symbols of a list of lines: those that do not have the right form are skipped. -/
inductive Kept (bpf : Bool) : List Bytes → List Ksym → Prop
  | nil : Kept bpf [] []
  | skip (line : Bytes) (lines : List Bytes) (ks : List Ksym) (hu : isUtf8 line = true)
      (h : ∀ name addr, ¬ SymLine line name addr) (hr : Kept bpf lines ks) : Kept bpf (line :: lines) ks
  | keep (line : Bytes) (lines : List Bytes) (ks : List Ksym) (hu : isUtf8 line = true) (name : Bytes) (addr : Nat)
      (h : SymLine line name addr) (hb : ¬ BadName bpf name) (k : Ksym) (hk : Denotes bpf name addr k)
      (hr : Kept bpf lines ks) : Kept bpf (line :: lines) (k :: ks)

/-- What is reported about a symbol. -/
def Reports (k : Ksym) (r : KsymInfo) : Prop :=
  r.info.name = k.name ∧ r.info.addr = k.addr ∧ r.info.size = none ∧ r.info.symType = .function ∧
  r.info.fileOffset = none ∧ r.module = (match k with | .kfunc .. => none | .bpfProg _ => some (ascii "[bpf]"))

end Blazesym.Spec.Kernel
