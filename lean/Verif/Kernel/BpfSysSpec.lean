import Verif.Kernel.BpfSys
import Verif.Kernel.BpfSpec

/-! Specification vocabulary for BPF programs that come and go. -/

set_option autoImplicit false

namespace Blazesym.Spec.Kernel
open Blazesym.Kernel Blazesym.Symbolize

/-- How the system behaves: ids are positive 32 bit numbers, programs are enumerated by id, and an id is not
used again for another program. -/
structure Regular (sys : BpfHistory) : Prop where
  sorted : ∀ t, (sys t).programs.Pairwise (fun p q => p.id < q.id)
  ids : ∀ t, ∀ p ∈ (sys t).programs, 0 < p.id ∧ p.id < u32Size
  once : ∀ t t', ∀ p ∈ (sys t).programs, ∀ q ∈ (sys t').programs, p.id = q.id → p = q

/-- Nothing changes, and all calls are permitted. -/
def Steady (sys : BpfHistory) (s : BpfSystem) : Prop := s.denied = none ∧ ∀ t, sys t = s

/-- BTF data and what their header says. -/
def BtfHeader (data : Bytes) (btf : Btf) : Prop :=
  btf.data = data ∧ Num data 0 2 0xeb9f ∧ Num data 2 1 1 ∧ Num data 4 4 btf.hdrLen ∧ Num data 16 4 btf.strOff ∧
    Num data 20 4 btf.strLen

/-- The line records of a program: one per address, sorted. -/
def RecordsOf (p : Program) (btf : Btf) (out : List LineInfoRecord) : Prop :=
  ∃ rs : List LineInfoRecord, rs.length = p.jited.length ∧
    (∀ (k addr : Nat) (r : LineInfoRecord), p.jited[k]? = some addr → rs[k]? = some r →
      Record btf p.lineInfo k addr r) ∧
    StableSorted (fun r => r.addr) rs out

/-- What is known about the lines of a program, if these are the BTF data: nothing if it has none. -/
inductive LinesOf (btfs : Nat → Option Bytes) (p : Program) : Option (List LineInfoRecord) → Prop
  | none : p.btfId = 0 → LinesOf btfs p none
  | some (data : Bytes) (btf : Btf) (rs : List LineInfoRecord) : p.btfId ≠ 0 → btfs p.btfId = some data →
      BtfHeader data btf → RecordsOf p btf rs → LinesOf btfs p (some rs)

/-- Line records of a program with a tag that was loaded at some time. -/
def LinesFrom (sys : BpfHistory) (tag : Bytes) (lines : Option (List LineInfoRecord)) : Prop :=
  ∃ (t t' : Nat) (p : Program), p ∈ (sys t).programs ∧ HasTag p.info tag ∧ LinesOf (sys t').btf p lines

/-- The sizes of the records are the expected ones. -/
def Supported (p : Program) : Prop := p.lineRecSize = 16 ∧ p.jitedRecSize = 8

/-- The location of an address: that of a record with the greatest address not above it. -/
def LocationIn (lines : Option (List LineInfoRecord)) (addr : Nat) : Option CodeInfo → Prop
  | none => ∀ rs, lines = some rs → ∀ r ∈ rs, addr < r.addr
  | some ci => ∃ rs, lines = some rs ∧ ∃ r ∈ rs, r.addr ≤ addr ∧ (∀ r' ∈ rs, r'.addr ≤ addr → r'.addr ≤ r.addr) ∧
      ci = { dir := none, file := r.path, line := some r.line, column := some r.col }

/-- The symbol at a position is the one an address belongs to: no other one is as close before it. -/
def Covers (syms : List Ksym) (addr i : Nat) (sym : Ksym) : Prop :=
  syms[i]? = some sym ∧ sym.addr ≤ addr ∧
    ∀ (j : Nat) (k : Ksym), syms[j]? = some k → j ≠ i → k.addr < sym.addr ∨ addr < k.addr

end Blazesym.Spec.Kernel
