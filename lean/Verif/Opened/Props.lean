import Verif.Opened.Lemmas
import Verif.Gsym.CodeProps

/-! # C97: open GSYM, Breakpad and kallsyms files answer the same whatever they were asked before -/

set_option autoImplicit false

namespace Blazesym.Opened
open Blazesym.Util Blazesym.Symbolize Blazesym.Cache Blazesym.Gsym Blazesym.Spec.Gsym

/-- **C97** (GSYM): every answer in any series of requests to an open file, some of which may fail, is the one that
follows from the contents of the file. -/
theorem C97_gsym (ctx : Context) (reqs : List (Nat × FindSymOpts)) :
    (askAll (gsymAsk ctx) reqs []).1 = reqs.map fun r => findSym ctx r.1 r.2 :=
  (askAll_eq (inv := fun _ => True) (fun r s _ => ⟨gsym_findSym ctx r.1 r.2 s, trivial⟩) reqs [] trivial).1

/-- **C97** (GSYM, histories): two open files with the same contents answer alike, whatever they were asked before; in
particular inlined functions found for one address are never reported for another. -/
theorem C97_gsym_history (ctx : Context) (buf₁ buf₂ : List InlineFrame) (_h₁ : Kept (gsymAsk ctx) [] buf₁)
    (_h₂ : Kept (gsymAsk ctx) [] buf₂) (r : Nat × FindSymOpts) :
    (gsymAsk ctx r buf₁).1 = (gsymAsk ctx r buf₂).1 := by
  rw [gsymAsk, gsym_findSym, gsym_findSym]

/-- **C97** (Breakpad): every answer in any series of requests for addresses and names is the one that follows from the
contents of the file. -/
theorem C97_breakpad (file : Breakpad.SymbolFile) (reqs : List Ask) :
    (askAll (breakpadAsk file) reqs none).1 = reqs.map (breakpadNow file) :=
  (askAll_eq (inv := Index (Breakpad.createByNameIdx file.functions)) (fun r _ h => breakpad_ask h r) reqs none
    (fun _ h => by cases h)).1

/-- **C97** (Breakpad, histories): the answer to a request, and what a callback that visits all symbols is given, also
if it asks the file for other things meanwhile, do not depend on what the file was asked before. -/
theorem C97_breakpad_history {S : Type} (file : Breakpad.SymbolFile) (cell : Option (List Nat))
    (h : Kept (breakpadAsk file) none cell) (symType : Elf.SymType)
    (f : S → Elf.SymInfo → List (Except Err (Answer Elf.SymInfo)) → S × Bool) (asks : S → Elf.SymInfo → List Ask)
    (s : S) :
    (∀ r, (breakpadAsk file r cell).1 = breakpadNow file r) ∧
    (breakpadForEachOn file symType f asks (s, cell)).1
      = (if symType = .variable then .error .unsupported else .ok ()) ∧
    (breakpadForEachOn file symType f asks (s, cell)).2.1
      = (if symType = .variable then s
        else visit (breakpadNow file) f asks (file.functions.map Breakpad.symInfo) s) := by
  have hi := kept_inv (inv := Index (Breakpad.createByNameIdx file.functions)) (fun r _ h => breakpad_ask h r)
    (fun _ h => by cases h) h
  refine ⟨fun r => (breakpad_ask hi r).1, ?_⟩
  unfold breakpadForEachOn
  split
  · exact ⟨rfl, rfl⟩
  · exact ⟨rfl, (visitOn_eq (inv := Index (Breakpad.createByNameIdx file.functions)) (fun r _ h => breakpad_ask h r)
      f asks _ s cell hi).1⟩

/-- **C97** (kallsyms): every answer in any series of requests for addresses and names is the one that follows from the
contents of the file. -/
theorem C97_ksym (lines : Kernel.BpfLines) (syms : List Kernel.Ksym) (reqs : List Ask) :
    (askAll (ksymAsk lines syms) reqs none).1 = reqs.map (ksymNow lines syms) :=
  (askAll_eq (inv := Index (Kernel.ksymByNameIdx syms)) (fun r _ h => ksym_ask h r) reqs none
    (fun _ h => by cases h)).1

/-- **C97** (kallsyms, histories): the answer to a request, and what a callback that visits all symbols is given, also
if it asks the file for other things meanwhile, do not depend on what the file was asked before. -/
theorem C97_ksym_history {S : Type} (lines : Kernel.BpfLines) (syms : List Kernel.Ksym) (cell : Option (List Nat))
    (h : Kept (ksymAsk lines syms) none cell) (symType : Elf.SymType)
    (f : S → Kernel.KsymInfo → List (Except Err (Answer Kernel.KsymInfo)) → S × Bool)
    (asks : S → Kernel.KsymInfo → List Ask) (s : S) :
    (∀ r, (ksymAsk lines syms r cell).1 = ksymNow lines syms r) ∧
    (ksymForEachOn lines syms symType f asks (s, cell)).1
      = (if symType = .variable then s
        else visit (ksymNow lines syms) f asks (syms.map Kernel.Ksym.toInfo) s) := by
  have hi := kept_inv (inv := Index (Kernel.ksymByNameIdx syms)) (fun r _ h => ksym_ask (lines := lines) h r)
    (fun _ h => by cases h) h
  refine ⟨fun r => (ksym_ask hi r).1, ?_⟩
  unfold ksymForEachOn
  split
  · rfl
  · exact (visitOn_eq (inv := Index (Kernel.ksymByNameIdx syms)) (fun r _ h => ksym_ask h r) f asks _ s cell hi).1

/-- What a callback that asks for nothing is given is what `for_each` gives it (C45). -/
theorem C97_visit_plain {S : Type} (file : Breakpad.SymbolFile) (f : S → Elf.SymInfo → S × Bool) (s : S) :
    visit (breakpadNow file) (fun s i _ => f s i) (fun _ _ => []) (file.functions.map Breakpad.symInfo) s
      = Breakpad.forEachLoop f file.functions s := by
  generalize file.functions = l
  induction l generalizing s with
  | nil => rfl
  | cons func rest ih =>
    rw [List.map_cons, visit, Breakpad.forEachLoop, ih]
    generalize f s (Breakpad.symInfo func) = x
    obtain ⟨s', _ | _⟩ := x <;> rfl

/-! ### Examples -/

/-- Two functions at 0x1000 and 0x1100: the first has inlined functions but no lines, the second has lines but no
inlined functions. -/
def keepItems₁ : List Item := [⟨2, codeTree.bytes⟩]
def keepItems₂ : List Item := [⟨1, exHdr.bytes ++ encode codeOps ++ [0]⟩]
def keepEntry (name : Nat) (items : List Item) : Bytes :=
  [0, 1, 0, 0, UInt8.ofNat name, 0, 0, 0] ++ (items.flatMap Item.bytes ++ le4 0)
def keepSample : Bytes :=
  [0x4d, 0x59, 0x53, 0x47, 1, 0, 2, 0,  0, 0x10, 0, 0, 0, 0, 0, 0,  2, 0, 0, 0, 80, 0, 0, 0,
   5, 0, 0, 0] ++ List.replicate 20 0 ++
  [0, 0, 0, 1,  88, 0, 0, 0, UInt8.ofNat (88 + (keepEntry 1 keepItems₁).length), 0, 0, 0,
   2, 0, 0, 0,  0, 0, 0, 0, 0, 0, 0, 0,  0, 0, 0, 0, 1, 0, 0, 0,
   0, 97, 0, 98, 0,  0, 0, 0] ++ keepEntry 1 keepItems₁ ++ keepEntry 3 keepItems₂


def keepCtx : Context :=
  match parseHeader ⟨0, keepSample⟩ with
  | .ok ctx => ctx
  | .error _ => ⟨0, 0, 0, ⟨0, []⟩, [], [], [], ⟨0, []⟩⟩

/-- After a request for the first function the buffer holds two functions; the next request is for the second function,
for which nothing inlined is reported. -/
example : parseHeader ⟨0, keepSample⟩ = .ok keepCtx
    ∧ ∃ buf, Kept (gsymAsk keepCtx) [] buf ∧ buf.map InlineFrame.name = [1, 3]
    ∧ (gsymAsk keepCtx (0x1105, .codeInfoAndInlined) buf).1 = .ok (.ok
      ⟨[98], none, 0x1100, some 0x100, .unknown, some ⟨some [], [97], some 10, none⟩, []⟩) := by
  refine ⟨by decide +kernel, _, .ask _ (0x1005, .codeInfoAndInlined) .new, by decide +kernel, by decide +kernel⟩

/-- Two functions of the same name, one of another. -/
def keepFile : Breakpad.SymbolFile :=
  { module := none, files := [], inlineOrigins := [],
    functions := [⟨16, 8, 0, [98], [], []⟩, ⟨32, 8, 0, [97], [], []⟩, ⟨48, 8, 0, [98], [], []⟩] }

/-- A file that has made its index of names while its symbols were visited. -/
example : ∃ cell, Kept (breakpadAsk keepFile) none cell ∧ cell = some [1, 0, 2] :=
  ⟨_, .ask _ (.name [98] .undefined) .new, by decide +kernel⟩

example : ∃ cell, Kept (ksymAsk (fun _ => .ok none) [.kfunc 16 [98], .kfunc 32 [97]]) none cell
    ∧ cell = some [1, 0] :=
  ⟨_, .ask _ (.name [98] .undefined) .new, by decide +kernel⟩

end Blazesym.Opened
