import Verif.Session.KernelAnswerSpec
import Verif.Session.KernelProps
import Verif.Session.AnswerProps
import Verif.Kernel.KsymProps
import Verif.Kernel.BpfProps
import Verif.Elf.NameProps

/-! Property theorems C73 (what is reported for an address of the kernel, from the contents of files). -/

set_option autoImplicit false

namespace Blazesym.Symbolize
open Blazesym.Util Blazesym.Cache Blazesym.Spec Blazesym.Spec.Symbolize Blazesym.Kernel Blazesym.Kernel.Depmod
open Blazesym.Dwarf hiding Resolver

variable {M : Type}

/-! ### Files -/

theorem fileOf_ok {w : World M} {v : Except Err M} {data : Bytes} :
    fileOf w v = .ok (.ok data) ↔ HasContents w v data := by
  unfold fileOf ofVersion HasContents
  cases v with
  | error e => simp
  | ok m =>
    simp only [Except.ok.injEq]
    cases hc : w.disk.contents m with
    | error e => simp [hc]
    | ok f => simp [hc]

theorem kallsymsAt_ok {w : World M} {path : Bytes} {syms : List Ksym} (h : kallsymsAt w path = .ok syms) :
    ∃ data ks, HasContents w (w.disk.stat path) data ∧ KallsymsHave data ks ∧
      StableSorted Ksym.addr ks syms ∧ Loaded syms := by
  unfold kallsymsAt at h
  split at h
  · cases h
  · cases h
  · rename_i data hd
    obtain ⟨lines, ks, h1, h2, h3⟩ := (C30_load true data syms).mp h
    exact ⟨data, ks, fileOf_ok.mp hd, ⟨lines, h1, h2⟩, h3, true, data, h⟩

theorem kallsymsAt_error {w : World M} {path : Bytes} {e : Err} (h : kallsymsAt w path = .error e) (he : e ≠ .panic) :
    Unreadable w (w.disk.stat path) ∨ ∃ data, HasContents w (w.disk.stat path) data ∧ Garbled data := by
  unfold kallsymsAt at h
  split at h
  · rename_i e' hd
    left
    rintro ⟨data, hc⟩
    rw [fileOf_ok.mpr hc] at hd
    cases hd
  · rename_i e' hd
    left
    rintro ⟨data, hc⟩
    rw [fileOf_ok.mpr hc] at hd
    cases hd
  · rename_i data hd
    right
    refine ⟨data, fileOf_ok.mp hd, ?_⟩
    obtain ⟨lines, h1, h2⟩ := C30_load_errors true data e h
    rcases h2 with ⟨_, h2⟩ | ⟨h2, _⟩
    · exact ⟨lines, h1, h2⟩
    · exact absurd h2 he

theorem kernelElfAt_plain {t : Tools} {dirs : List Bytes} {w : World M} {actual represented : Bytes} :
    (∀ r, kernelElfAt t dirs w false actual represented = .ok r →
      ∃ data, HasContents w (w.disk.stat actual) data ∧ r = .elf ⟨some represented, .mem 4096 data⟩) ∧
    ∀ e, kernelElfAt t dirs w false actual represented = .error e → Unreadable w (w.disk.stat actual) := by
  unfold kernelElfAt elfAt
  cases hf : fileOf w (w.disk.stat actual) with
  | error e =>
    refine ⟨fun r h => (by simp at h), ?_⟩
    rintro e' _ ⟨data, hc⟩
    rw [fileOf_ok.mpr hc] at hf
    cases hf
  | ok f =>
    cases f with
    | error e =>
      refine ⟨fun r h => (by simp [elfParse] at h), ?_⟩
      rintro e' _ ⟨data, hc⟩
      rw [fileOf_ok.mpr hc] at hf
      cases hf
    | ok data =>
      refine ⟨?_, fun e h => (by simp [elfParse] at h)⟩
      intro r h
      exact ⟨data, fileOf_ok.mp hf, by simpa [elfParse, eq_comm] using h⟩

/-! ### Sources -/

/-- The symbols that are looked up are those of kallsyms, in order. -/
def Ordered (kallsyms : Option (List Ksym)) (syms : Option (List Ksym)) : Prop :=
  match kallsyms, syms with
  | none, none => True
  | some ks, some syms => StableSorted Ksym.addr ks syms ∧ Loaded syms
  | _, _ => False

theorem uses_kallsyms {t : Tools} {dirs : List Bytes} {w : World M} {r : Remembered} {src : KernelSource} {b : Bool}
    {k : Option (List Ksym)} (h : selectKsym (sourcesAt t dirs w r b) src.kallsyms = .ok k) :
    ∃ kallsyms, UsesKallsyms w src kallsyms ∧ Ordered kallsyms k := by
  unfold selectKsym at h
  cases hs : src.kallsyms with
  | none =>
    rw [hs] at h
    cases h
    exact ⟨none, .none hs, trivial⟩
  | default =>
    rw [hs] at h
    simp only [sourcesAt] at h
    cases hk : kallsymsAt w (ascii "/proc/kallsyms") with
    | ok syms =>
      rw [hk] at h
      cases h
      obtain ⟨data, ks, h1, h2, h3⟩ := kallsymsAt_ok hk
      exact ⟨some ks, .some _ data ks (.inr ⟨hs, rfl⟩) h1 h2, h3⟩
    | error e =>
      rw [hk] at h
      have he : e ≠ .panic := by rintro rfl; cases h
      have : k = none := by cases e <;> first | (exact absurd rfl he) | (cases h; rfl)
      subst this
      rcases kallsymsAt_error hk he with h1 | ⟨data, h1, h2⟩
      · exact ⟨none, .absent hs h1, trivial⟩
      · exact ⟨none, .garbled data hs h1 h2, trivial⟩
  | some path =>
    rw [hs] at h
    simp only [sourcesAt] at h
    cases hk : kallsymsAt w path with
    | error e => rw [hk] at h; cases h
    | ok syms =>
      rw [hk] at h
      cases h
      obtain ⟨data, ks, h1, h2, h3⟩ := kallsymsAt_ok hk
      exact ⟨some ks, .some path data ks (.inl hs) h1 h2, h3⟩

/-- The resolver of an image. -/
def imageResolver (image : Option (Bytes × Bytes)) : Option ElfResolver :=
  image.map fun i => .elf ⟨some i.1, .mem 4096 i.2⟩

theorem stat_true {w : World M} {path : Bytes} (h : (w.disk.stat path).toBool = true) : ∃ m, w.disk.stat path = .ok m := by
  cases hs : w.disk.stat path with
  | error e => rw [hs] at h; cases h
  | ok m => exact ⟨m, rfl⟩

theorem stat_false {w : World M} {path : Bytes} (h : (w.disk.stat path).toBool = false) :
    ∃ e, w.disk.stat path = .error e := by
  cases hs : w.disk.stat path with
  | error e => exact ⟨e, rfl⟩
  | ok m => rw [hs] at h; cases h

theorem uses_image {t : Tools} {dirs : List Bytes} {w : World M} {r : Remembered} {src : KernelSource}
    {v : Option ElfResolver} (h : selectVmlinux (sourcesAt t dirs w r false) src.vmlinux = .ok v) :
    ∃ image, UsesImage w src image ∧ v = imageResolver image := by
  obtain ⟨g1, g2, g3, g4, g5⟩ := C34_select_vmlinux (sourcesAt t dirs w r false)
  cases hs : src.vmlinux with
  | none =>
    rw [hs, g5] at h
    cases h
    exact ⟨none, .none hs, rfl⟩
  | some path =>
    rw [hs] at h
    cases hk : kernelElfAt t dirs w false path path with
    | error e => rw [g2 path e hk] at h; cases h
    | ok f =>
      rw [g1 path f hk] at h
      cases h
      obtain ⟨data, h1, rfl⟩ := kernelElfAt_plain.1 f hk
      exact ⟨some (path, data), .given path data hs h1, rfl⟩
  | default =>
    rw [hs] at h
    cases hr : w.sys.release with
    | error e => rw [g3 e hr] at h; cases h
    | ok rel =>
      obtain ⟨k1, k2, k3⟩ := g4 rel hr
      have used : ∀ path, UsualImage w rel path → Spec.Kernel.UsedIfLoaded (kernelElfAt t dirs w false path path) (.ok v) →
          ∃ image, UsesImage w src image ∧ v = imageResolver image := by
        rintro path hu ⟨u1, u2, u3⟩
        cases hk : kernelElfAt t dirs w false path path with
        | ok f =>
          have := u1 f hk
          cases this
          obtain ⟨data, h1, rfl⟩ := kernelElfAt_plain.1 f hk
          exact ⟨some (path, data), .usual rel path data hs hr hu h1, rfl⟩
        | error e =>
          by_cases he : e = .panic
          · subst he; have := u3 hk; cases this
          · have := u2 e hk he
            cases this
            exact ⟨none, .unreadable rel path hs hr hu (kernelElfAt_plain.2 e hk), rfl⟩
      cases hb : (w.disk.stat (ascii "/boot/vmlinux-" ++ rel)).toBool with
      | true =>
        obtain ⟨m, hm⟩ := stat_true hb
        have := k1 hb
        rw [h] at this
        exact used _ (.boot m hm) this
      | false =>
        obtain ⟨e, he⟩ := stat_false hb
        cases hd : (w.disk.stat (ascii "/usr/lib/debug/boot/vmlinux-" ++ rel)).toBool with
        | true =>
          obtain ⟨m, hm⟩ := stat_true hd
          have := k2 hb hd
          rw [h] at this
          exact used _ (.debug m e he hm) this
        | false =>
          obtain ⟨e', he'⟩ := stat_false hd
          have := k3 hb hd
          rw [h] at this
          cases this
          refine ⟨none, .absent rel hs hr ?_, rfl⟩
          intro path hu
          cases hu with
          | boot m hm => rw [he] at hm; cases hm
          | debug m e hm hm' => rw [he'] at hm'; cases hm'

/-! ### Lookups -/

theorem stableSorted_mem {ks syms : List Ksym} (h : StableSorted Ksym.addr ks syms) (k : Ksym) : k ∈ syms ↔ k ∈ ks := by
  have := h.2 k.addr
  constructor <;> intro hk
  · have h1 : k ∈ syms.filter (fun e => decide (e.addr = k.addr)) := List.mem_filter.mpr ⟨hk, by simp⟩
    rw [this] at h1
    exact (List.mem_filter.mp h1).1
  · have h1 : k ∈ ks.filter (fun e => decide (e.addr = k.addr)) := List.mem_filter.mpr ⟨hk, by simp⟩
    rw [← this] at h1
    exact (List.mem_filter.mp h1).1

/-- What kallsyms yields. -/
inductive FromKallsyms (ks : List Ksym) (addr : Nat) : Except Err (Except Reason ResolvedSym) → Prop
  | function (a : Nat) (name : Bytes) : Ksym.kfunc a name ∈ ks → NearestKsym ks addr a →
      FromKallsyms ks addr (.ok (.ok ⟨name, none, a, none, .unknown, none, []⟩))
  | bpf (prog : BpfProg) (location : Option CodeInfo) : Ksym.bpfProg prog ∈ ks → NearestKsym ks addr prog.addr →
      FromKallsyms ks addr (.ok (.ok ⟨prog.name, some (ascii "[bpf]"), prog.addr, none, .unknown, location, []⟩))
  | bpfError (prog : BpfProg) (e : Err) : Ksym.bpfProg prog ∈ ks → NearestKsym ks addr prog.addr →
      FromKallsyms ks addr (.error e)
  | missing : ks = [] → FromKallsyms ks addr (.ok (.error .missingSyms))
  | unknown : ks ≠ [] → (∀ k ∈ ks, addr < k.addr) → FromKallsyms ks addr (.ok (.error .unknownAddr))

theorem from_kallsyms (lines : BpfLines) {ks syms : List Ksym} (hs : StableSorted Ksym.addr ks syms)
    (hl : Loaded syms) (addr : Nat) (opts : FindSymOpts) : FromKallsyms ks addr (ksymFindSym lines syms addr opts) := by
  have hm := stableSorted_mem hs
  obtain ⟨s1, s2, s3⟩ := C30_symbol lines syms addr opts
  obtain ⟨u1, u2, u3⟩ := C30_unknown hl addr
  have hnil : syms = [] ↔ ks = [] := by
    constructor <;> intro h
    · refine List.eq_nil_iff_forall_not_mem.mpr fun k hk => ?_
      have := (hm k).mpr hk
      rw [h] at this
      cases this
    · refine List.eq_nil_iff_forall_not_mem.mpr fun k hk => ?_
      have := (hm k).mp hk
      rw [h] at this
      cases this
  cases hf : findKsym syms addr with
  | error reason =>
    rw [s1 reason hf]
    by_cases h0 : syms = []
    · have := u2.mpr h0
      rw [hf] at this
      cases this
      exact .missing (hnil.mp h0)
    · by_cases hall : ∀ k ∈ syms, addr < k.addr
      · have := u3.mpr ⟨h0, hall⟩
        rw [hf] at this
        cases this
        exact .unknown (fun h => h0 (hnil.mpr h)) (fun k hk => hall k ((hm k).mpr hk))
      · have : ∃ k ∈ syms, k.addr ≤ addr := by
          by_contra hc
          exact hall fun k hk => by
            by_contra h2
            exact hc ⟨k, hk, by omega⟩
        obtain ⟨k, hk⟩ := u1.mpr this
        rw [hf] at hk
        cases hk
  | ok k =>
    obtain ⟨h1, h2, h3⟩ := C30_lookup hl addr k hf
    have hn : NearestKsym ks addr k.addr := ⟨h2, fun k' hk' => h3 k' ((hm k').mpr hk')⟩
    cases k with
    | kfunc a name =>
      rw [s2 a name hf]
      exact .function a name ((hm _).mp h1) hn
    | bpfProg prog =>
      obtain ⟨p1, p2⟩ := s3 prog hf
      obtain ⟨q1, q2⟩ := C58_symbol prog addr opts (lines prog.tag)
      by_cases ho : opts = .basic
      · rw [p1 _ (q1 ho)]
        exact .bpf prog none ((hm _).mp h1) hn
      · obtain ⟨q3, q4⟩ := q2 ho
        cases hq : lines prog.tag with
        | error e =>
          rw [p2 e (q3 e hq)]
          exact .bpfError prog e ((hm _).mp h1) hn
        | ok records =>
          rw [p1 _ (q4 records hq)]
          exact .bpf prog _ ((hm _).mp h1) hn

theorem in_kallsyms {env : Env} {find : SymFn} {ks : List Ksym} {addr : Nat} {out : Symbolized}
    (hf : FromKallsyms ks addr (find addr env.opts)) (h : Looked env find addr (.ok out)) :
    InKallsyms (env.shown .unknown) ks addr out := by
  generalize hr : find addr env.opts = r at hf
  cases hf with
  | function a name h1 h2 =>
    have := looked_of_sym hr h2.1 rfl h
    cases this
    exact .function a name h1 h2
  | bpf prog location h1 h2 =>
    have := looked_of_sym hr h2.1 rfl h
    cases this
    exact .bpf prog location h1 h2
  | bpfError prog e h1 h2 =>
    have := looked_of_error hr h
    cases this
  | missing h1 =>
    have := looked_of_reason hr h
    cases this
    exact .missing h1
  | unknown h1 h2 =>
    have := looked_of_reason hr h
    cases this
    exact .unknown h1 h2

/-- What an ELF file yields. -/
inductive FromElf (module : Bytes) (symtab dynsym : Elf.SymTab) (x : Nat) : Except Err (Except Reason ResolvedSym) → Prop
  | found (s : Elf.Sym) (name : Bytes) : Chosen symtab dynsym x s name →
      FromElf module symtab dynsym x
        (.ok (.ok ⟨name, some module, s.value, if s.size = 0 then none else some s.size, .unknown, none, []⟩))
  | missing : Neither symtab dynsym x → symtab.syms = [] → FromElf module symtab dynsym x (.ok (.error .missingSyms))
  | unknown : Neither symtab dynsym x → symtab.syms ≠ [] → FromElf module symtab dynsym x (.ok (.error .unknownAddr))
  | error (e : Err) : FromElf module symtab dynsym x (.error e)

theorem from_elf (t : Tools) {module : Bytes} {image : Elf.Backend} {phdrs : List Elf.Phdr}
    {symtab dynsym : Elf.SymTab} (hp : ElfParts t.codec image phdrs symtab dynsym) (x : Nat) (opts : FindSymOpts) :
    FromElf module symtab dynsym x (ElfResolver.findSym t (.elf ⟨some module, image⟩) x opts) := by
  show FromElf module symtab dynsym x (ElfParser.findSym t ⟨some module, image⟩ x opts)
  rcases findSym_cases t ⟨some module, image⟩ hp x opts with ⟨e, h1, _⟩ | ⟨r, table, tab, h1, h2, h3⟩ | ⟨h1, h2, h3⟩
  · rw [h1]; exact .error e
  · obtain ⟨s, hs, h4, h5⟩ := stands_of_lookup h2
    rw [h1, h4, h5]
    refine .found s r.name ?_
    rcases h3 with ⟨rfl, rfl⟩ | ⟨rfl, rfl, h6⟩
    · exact .symtab hs
    · exact .dynsym (absent_of_lookup h6) hs
  · rcases h3 with ⟨h3, h4⟩ | ⟨h3, h4⟩
    · rw [h4]; exact .missing ⟨absent_of_lookup h1, absent_of_lookup h2⟩ h3
    · rw [h4]; exact .unknown ⟨absent_of_lookup h1, absent_of_lookup h2⟩ h3

theorem chosen_le {symtab dynsym : Elf.SymTab} {x : Nat} {s : Elf.Sym} {name : Bytes}
    (h : Chosen symtab dynsym x s name) : s.value ≤ x := by
  cases h with
  | symtab h => exact h.covers.1
  | dynsym _ h => exact h.covers.1

theorem in_core {env : Env} {image : Bytes} {symtab dynsym : Elf.SymTab} {v : SymFn} {k : Option SymFn}
    {kallsyms : Option (List Ksym)} {offset addr x : Nat} (hx : x + offset = addr)
    (hv : FromElf image symtab dynsym x (v x env.opts))
    (hk : match kallsyms, k with
      | none, none => True
      | some ks, some f => FromKallsyms ks addr (f addr env.opts)
      | _, _ => False)
    {out : Symbolized} (h : Looked env (findInCore v k offset) addr (.ok out)) :
    InCore (env.shown .unknown) image symtab dynsym kallsyms addr x out := by
  have hle : offset ≤ addr := by omega
  have hsub : addr - offset = x := by omega
  have hred : findInCore v k offset addr env.opts = findInCore v k offset addr env.opts := rfl
  conv at hred => rhs; unfold findInCore
  rw [if_pos hle, hsub] at hred
  generalize hr : v x env.opts = r at hv hred
  have unchanged : ∀ f, k = some f → findInCore v k offset addr env.opts = f addr env.opts →
      Looked env f addr (.ok out) := by
    intro f _ hf
    cases h with
    | sym s name names h1 h2 h3 h4 => exact .sym s name names (hf ▸ h1) h2 h3 h4
    | reason r h1 => exact .reason r (hf ▸ h1)
  cases hv with
  | error e =>
    have := looked_of_error hred h
    cases this
  | missing hn h0 =>
    cases k with
    | none =>
      cases kallsyms with
      | some ks => cases hk
      | none =>
        have := looked_of_reason hred h
        cases this
        exact .missing hn rfl h0
    | some f =>
      cases kallsyms with
      | none => cases hk
      | some ks => exact .kallsyms ks out hn rfl (in_kallsyms hk (unchanged f rfl hred))
  | unknown hn h0 =>
    cases k with
    | none =>
      cases kallsyms with
      | some ks => cases hk
      | none =>
        have := looked_of_reason hred h
        cases this
        exact .unknown hn rfl h0
    | some f =>
      cases kallsyms with
      | none => cases hk
      | some ks => exact .kallsyms ks out hn rfl (in_kallsyms hk (unchanged f rfl hred))
  | found s name hc =>
    have hsx := chosen_le hc
    by_cases h0 : s.size = 0
    · simp only [h0, if_true] at hred
      cases k with
      | none =>
        cases kallsyms with
        | some ks => cases hk
        | none =>
          have := looked_of_sym hred (by simp only; omega) rfl h
          cases this
          have e := InCore.unsized (shown := (env.shown .unknown)) (image := image) (kallsyms := none) (addr := addr) s name hc h0
            (fun ks hks => by cases hks)
          unfold reported at e
          rw [if_pos h0] at e
          exact e
      | some f =>
        cases kallsyms with
        | none => cases hk
        | some ks =>
          simp only at hred hk
          have fallback : findInCore v (some f) offset addr env.opts =
                .ok (.ok ⟨name, some image, s.value, none, .unknown, none, []⟩) →
              ((∀ k ∈ ks, addr < k.addr) ∨ ∃ prog, Ksym.bpfProg prog ∈ ks ∧ NearestKsym ks addr prog.addr) →
              InCore (env.shown .unknown) image symtab dynsym (some ks) addr x out := by
            intro hfb hor
            have := looked_of_sym hfb (by simp only; omega) rfl h
            cases this
            have e := InCore.unsized (shown := (env.shown .unknown)) (image := image) (kallsyms := some ks) (addr := addr) s name hc h0
              (fun ks' hks => by cases hks; exact hor)
            unfold reported at e
            rw [if_pos h0] at e
            exact e
          generalize hq : f addr env.opts = q at hk hred
          cases hk with
          | function a n h1 h2 =>
            have := looked_of_sym hred h2.1 rfl h
            cases this
            exact .better s name ks _ hc h0 rfl (.function a n h1 h2)
          | bpf prog location h1 h2 =>
            have := looked_of_sym hred h2.1 rfl h
            cases this
            exact .better s name ks _ hc h0 rfl (.bpf prog location h1 h2)
          | bpfError prog e h1 h2 =>
            by_cases he : e = .panic
            · subst he
              have := looked_of_error hred h
              cases this
            · refine fallback ?_ (.inr ⟨prog, h1, h2⟩)
              rw [hred]
              cases e <;> first | (exact absurd rfl he) | rfl
          | missing h1 => exact fallback hred (.inl (by simp [h1]))
          | unknown h1 h2 => exact fallback hred (.inl h2)
    · simp only [h0, if_false] at hred
      have hred' : findInCore v k offset addr env.opts =
          .ok (.ok ⟨name, some image, s.value, some s.size, .unknown, none, []⟩) := by
        rw [hred]; simp
      have := looked_of_sym hred' (by simp only; omega) rfl h
      cases this
      have e := InCore.sized (shown := (env.shown .unknown)) (image := image) (kallsyms := kallsyms) (addr := addr) s name hc h0
      unfold reported at e
      rw [if_neg h0] at e
      exact e

/-! ### The KASLR offset -/

/-- Errors of reading `/proc/kcore`. -/
def ReadError {A : Type} (r : Except Err A) : Prop := ∀ e, r = .error e → e ≠ .permissionDenied ∧ e ≠ .notFound

theorem ReadError.ok {A : Type} (x : A) : ReadError (.ok x : Except Err A) := by intro e h; cases h

theorem ReadError.mk {A : Type} {e : Err} (h : e ≠ .permissionDenied ∧ e ≠ .notFound) :
    ReadError (.error e : Except Err A) := by intro e' h'; cases h'; exact h

theorem ReadError.bind {A B : Type} {r : Except Err A} {f : A → Except Err B} (h : ReadError r)
    (hf : ∀ x, ReadError (f x)) : ReadError (r >>= f) := by
  cases r with
  | error e => exact .mk (h e rfl)
  | ok x => exact hf x

theorem readExact_error (data : Bytes) (off n : Nat) : ReadError (Elf.fileReadExact data off n) := by
  unfold Elf.fileReadExact
  split
  · exact .mk (by decide)
  · split
    · exact .ok _
    · split
      · exact .ok _
      · exact .mk (by decide)

theorem readSlice_error (data : Bytes) (off size align count : Nat) :
    ReadError (Elf.Backend.readSlice (.file data) off size align count) := by
  unfold Elf.Backend.readSlice
  simp only
  split
  · exact .mk (by decide)
  · split
    · exact .mk (by decide)
    · exact readExact_error _ _ _

theorem readObj_error (data : Bytes) (off size align : Nat) :
    ReadError (Elf.Backend.readObj (.file data) off size align) := readExact_error _ _ _

theorem readRecord_error {α : Type} (data : Bytes) (l : Elf.Layout α) (bit32 : Bool) (off : Nat) :
    ReadError (Elf.Backend.readRecord (.file data) l bit32 off) :=
  .bind (readObj_error _ _ _ _) fun _ => .ok _

theorem parsePhdrs_error (data : Bytes) : ReadError (Elf.parsePhdrs (.file data)) := by
  unfold Elf.parsePhdrs
  refine .bind ?_ fun h => .bind (readSlice_error _ _ _ _ _) fun _ => .ok _
  unfold Elf.parseEhdr
  refine .bind (readSlice_error _ _ _ _ _) fun ident => ?_
  split
  · exact .mk (by decide)
  · simp only
    split
    · exact .mk (by decide)
    · refine .bind (readRecord_error _ _ _ _) fun ehdr => .bind ?_ fun _ => .bind ?_ fun _ => .ok _
      · unfold Elf.realShnum
        split
        · exact .bind (readRecord_error _ _ _ _) fun _ => .ok _
        · exact .ok _
      · unfold Elf.realPhnum
        split
        · exact .bind (readRecord_error _ _ _ _) fun _ => .ok _
        · exact .ok _

theorem addU64_error (a b : Nat) : ReadError (addU64 a b) := by
  unfold addU64
  split
  · exact .ok _
  · exact .mk (by decide)

theorem alignUp_error (a b c : Nat) : ReadError (alignUp a b c) := by
  unfold alignUp
  split
  · exact .ok _
  · exact .mk (by decide)

theorem ReadError.of {A B : Type} {r : Except Err A} {e : Err} (h : ReadError r) (he : r = .error e) :
    ReadError (.error e : Except Err B) := .mk (h e he)

theorem kernelOffset_error (desc : Bytes) : ReadError (kernelOffset desc) := by
  unfold kernelOffset
  split
  · exact .ok _
  · split
    · exact .ok _
    · exact .mk (by decide)
    · exact .mk (by decide)

theorem noteName_error (data : Bytes) (namesz offset : Nat) : ReadError (noteName data namesz offset) := by
  unfold noteName
  split
  · split
    · exact .of (readSlice_error _ _ _ _ _) ‹_›
    · split
      · exact .of (alignUp_error _ _ _) ‹_›
      · split
        · exact .of (addU64_error _ _) ‹_›
        · exact .ok _
  · exact .ok _

theorem kcoreLoop_error (data : Bytes) (filesz : Nat) (fuel : Nat) : ∀ off, ReadError (kcoreLoop data filesz fuel off) := by
  induction fuel with
  | zero => intro off; exact .mk (by decide)
  | succ fuel ih =>
    intro off
    unfold kcoreLoop
    split
    · exact .of (addU64_error _ _) ‹_›
    · split
      · split
        · exact .of (readObj_error _ _ _ _) ‹_›
        · split
          · exact .of (noteName_error _ _ _) ‹_›
          · split
            · split
              · exact .of (readSlice_error _ _ _ _ _) ‹_›
              · split
                · exact .of (kernelOffset_error _) ‹_›
                · exact .ok _
            · split
              · exact .of (alignUp_error _ _ _) ‹_›
              · split
                · exact .of (addU64_error _ _) ‹_›
                · exact ih _
      · exact .ok _

theorem readKcore_error (data : Bytes) : ReadError (readKcoreOffset data) := by
  have seg : ∀ phdrs, ReadError (kcoreSegments data phdrs) := by
    intro phdrs
    induction phdrs with
    | nil => exact .ok _
    | cons p t ih =>
      unfold kcoreSegments
      split
      · exact ih
      · split
        · exact .of (kcoreLoop_error _ _ _ _) ‹_›
        · exact .ok _
        · exact ih
  unfold readKcoreOffset
  split
  · exact .of (parsePhdrs_error _) ‹_›
  · exact seg _

theorem elfFindAddr_eq (t : Tools) (module : Option Bytes) (image : Elf.Backend) (name : Bytes) :
    elfFindAddr t (.elf ⟨module, image⟩) name =
      (Elf.File.ofImage t.codec image).findAddr t.σ name ⟨false, .undefined⟩ := by
  simp only [elfFindAddr, ElfResolver.findAddr, ElfParser.findAddr, ElfParser.findAddrInfos, ElfParser.file]
  cases (Elf.File.ofImage t.codec image).findAddr t.σ name ⟨false, .undefined⟩ with
  | error e => rfl
  | ok infos =>
    simp only [List.map_map]
    congr 1
    exact (List.map_congr_left (fun i _ => rfl)).trans (List.map_id _)

/-- The first symbol of an image that is reported for a name. -/
theorem image_start {σ : Sorter} {file : Elf.File} {symtab dynsym : Elf.SymTab} (h1 : file.symtab = .ok symtab)
    (h2 : file.dynsym = .ok dynsym) {infos : List Elf.SymInfo}
    (h : file.findAddr σ (ascii "_stext") ⟨false, .undefined⟩ = .ok infos) :
    (∀ b, FirstNamed infos (ascii "_stext") b → ImageStart symtab dynsym b) ∧
    ((∀ b, ¬ FirstNamed infos (ascii "_stext") b) → ∀ s, ¬ HasSymbol symtab (ascii "_stext") s) := by
  have hsh : ∃ shdrs, file.shdrs = .ok shdrs := by
    unfold Elf.File.findAddr at h
    cases hs : file.shdrs with
    | error e => rw [hs] at h; cases h
    | ok shdrs => exact ⟨shdrs, rfl⟩
  obtain ⟨shdrs, hs⟩ := hsh
  have member : ∀ (t : Elf.SymTab) (P : Elf.Sym → Prop), Spec.Elf.ReportsExactly t P
      (Spec.Elf.Describes ⟨false, .undefined⟩ shdrs t.strs) infos → ∀ i ∈ infos, ∃ s ∈ t.syms, P s ∧ i.addr = s.value := by
    rintro t P ⟨is, _, hi, hf⟩ i hmem
    obtain ⟨n, hn⟩ := List.mem_iff_getElem?.mp hmem
    have hlen := hf.length_eq
    have hlt : n < is.length := by
      rw [hlen]
      exact (List.getElem?_eq_some_iff.mp hn).1
    obtain ⟨s, hs1, hs2⟩ := (List.forall₂_iff_get.mp hf).2 n hlt (hlen ▸ hlt)
    obtain ⟨s', hs1', hP⟩ := (hi (is.get ⟨n, hlt⟩)).mp (List.get_mem _ _)
    rw [hs1] at hs1'
    cases hs1'
    have hin : infos.get ⟨n, hlen ▸ hlt⟩ = i := by
      have := (List.getElem?_eq_some_iff.mp hn).2
      simpa using this
    rw [hin] at hs2
    exact ⟨s, List.mem_of_getElem? hs1, hP, hs2.2.1⟩
  by_cases hex : ∃ s ∈ symtab.syms, Spec.Elf.Supported s ∧ Spec.Elf.Defined s ∧ NameAt symtab.strs s.name (ascii "_stext")
  · have hr := Elf.C08_find_addr_symtab σ file symtab shdrs hs h1 _ _ infos h hex
    constructor
    · rintro b ⟨before, i, after, e1, e2, e3, e4⟩
      obtain ⟨s, m1, m2, m3⟩ := member _ _ hr i (by rw [e1]; simp)
      exact ⟨s, by rw [← m3, e4], .inl ⟨m1, m2⟩⟩
    · intro hno
      exfalso
      obtain ⟨is, hnd, hi, hf⟩ := hr
      obtain ⟨s, m1, m2⟩ := hex
      obtain ⟨n, hn⟩ := List.mem_iff_getElem?.mp m1
      have hmem := (hi n).mpr ⟨s, hn, m2⟩
      cases hf with
      | nil => cases hmem
      | cons hd htl =>
        rename_i j r js rs
        obtain ⟨s', k1, k2⟩ := hd
        obtain ⟨s'', k3, k4⟩ := (hi j).mp (by simp)
        rw [k1] at k3
        cases k3
        exact hno r.addr ⟨[], r, rs, rfl, by simp, Elf.nameAt_unique k2.1 k4.2.2, rfl⟩
  · have hno : ∀ s ∈ symtab.syms, Spec.Elf.Supported s → Spec.Elf.Defined s →
        ¬ NameAt symtab.strs s.name (ascii "_stext") := fun s m1 m2 m3 m4 => hex ⟨s, m1, m2, m3, m4⟩
    have hr := Elf.C08_find_addr_dynsym_partial σ file symtab dynsym shdrs hs h1 h2 _ _ infos h hno
    have hnone : ∀ s, ¬ HasSymbol symtab (ascii "_stext") s := fun s hh => hno s hh.1 hh.2.1 hh.2.2.1 hh.2.2.2
    refine ⟨?_, fun _ => hnone⟩
    rintro b ⟨before, i, after, e1, e2, e3, e4⟩
    obtain ⟨s, m1, m2, m3⟩ := member _ _ hr i (by rw [e1]; simp)
    exact ⟨s, by rw [← m3, e4], .inr ⟨hnone, m1, m2.1, m2.2.1, m2.2.2.1⟩⟩

/-- **C73** (offset) The KASLR offset that is detected for an image is what `/proc/kcore` says, or what the
starts of the kernel in kallsyms and in the image say. -/
theorem C73_offset (t : Tools) (w : World M) {src : KernelSource} (h0 : src.kaslr = none) {kallsyms : Option (List Ksym)}
    {k : Option (List Ksym)} (hk : Ordered kallsyms k) {module : Bytes} {image : Elf.Backend} {phdrs : List Elf.Phdr}
    {symtab dynsym : Elf.SymTab} (hp : ElfParts t.codec image phdrs symtab dynsym) {offset : Nat}
    (h : detectKaslr t w k (some (.elf ⟨some module, image⟩)) = .ok offset) :
    UsesOffset w src kallsyms symtab dynsym offset := by
  unfold detectKaslr at h
  cases hf : findKaslrOffset w.sys.kcore (k.map kallsymsFindAddr)
      (Option.map (elfFindAddr t) (some (.elf ⟨some module, image⟩))) with
  | error e => rw [hf] at h; cases h
  | ok r =>
    rw [hf] at h
    simp only [Except.ok.injEq] at h
    subst h
    cases hc : w.sys.kcore with
    | ok data =>
      cases hr : readKcoreOffset data with
      | ok r' =>
        rw [hc, C35_kcore_used data _ _ r' hr] at hf
        cases hf
        cases r with
        | none => exact .silent data h0 hc hr
        | some v => exact .kcore data v h0 hc hr
      | error e =>
        obtain ⟨h1, h2⟩ := readKcore_error data e hr
        rw [hc, (C35_errors _ _ e).2.2.1 data hr h1 h2] at hf
        cases hf
    | error e =>
      by_cases h1 : e = .notFound
      · subst h1
        rw [hc, C35_missing_kcore] at hf
        cases hf
        exact .absent h0 hc
      · by_cases h2 : e = .permissionDenied
        · subst h2
          cases k with
          | none =>
            rw [hc, Option.map_none, (C35_errors none _ .notFound).2.1 (.inl rfl)] at hf
            cases hf
          | some syms =>
            cases kallsyms with
            | none => cases hk
            | some ks =>
              refine .start ks _ h0 hc rfl ?_
              have hm := stableSorted_mem hk.1
              rw [hc] at hf
              simp only [Option.map_some] at hf
              have hfa := elfFindAddr_eq t (some module) image (ascii "_stext")
              cases ha : (Elf.File.ofImage t.codec image).findAddr t.σ (ascii "_stext") ⟨false, .undefined⟩ with
              | error e =>
                rw [ha] at hfa
                rw [(C35_errors none none e).2.2.2.2 _ _ _ rfl hfa] at hf
                cases hf
              | ok infos =>
                rw [ha] at hfa
                obtain ⟨i1, i2⟩ := image_start hp.symbols hp.dynamic ha
                have hred : findKaslrOffset (.error .permissionDenied) (some (kallsymsFindAddr syms))
                  (some (elfFindAddr t (.elf ⟨some module, image⟩))) =
                  findStextOffset (kallsymsFindAddr syms) (elfFindAddr t (.elf ⟨some module, image⟩)) := rfl
                rw [hred] at hf
                unfold findStextOffset at hf
                cases hx : inspectSymAddr (kallsymsFindAddr syms) (ascii "_stext") with
                | error e => unfold inspectSymAddr kallsymsFindAddr at hx; cases hx
                | ok a =>
                  have hka := C35_kallsyms syms (ascii "_stext")
                  change ∀ addr, inspectSymAddr (kallsymsFindAddr syms) (ascii "_stext") = .ok (some addr) ↔ _ at hka
                  cases hy : inspectSymAddr (elfFindAddr t (.elf ⟨some module, image⟩)) (ascii "_stext") with
                  | error e => unfold inspectSymAddr at hy; rw [hfa] at hy; cases hy
                  | ok b =>
                    have hkb := inspect_some (elfFindAddr t (.elf ⟨some module, image⟩)) (ascii "_stext") infos hfa
                    rw [hx, hy] at hf
                    cases a with
                    | none =>
                      cases hf
                      refine .notRunning fun k hk' hn => ?_
                      classical
                      have hex : ∃ n, ∃ k ∈ syms, k.name = ascii "_stext" ∧ k.addr = n := ⟨k.addr, k, (hm k).mpr hk', hn, rfl⟩
                      have := (hka (Nat.find hex)).mpr
                        ⟨Nat.find_spec hex, fun k' hk' hn' => Nat.find_min' hex ⟨k', hk', hn', rfl⟩⟩
                      rw [hx] at this
                      cases this
                    | some a =>
                      cases b with
                      | none =>
                        cases hf
                        refine .notImage (i2 fun b hb => ?_)
                        have := (hkb b).mpr hb
                        rw [hy] at this
                        cases this
                      | some b =>
                        have hb := i1 b ((hkb b).mp hy)
                        obtain ⟨⟨k, k1, k2, k3⟩, k4⟩ := (hka a).mp hx
                        have hrs : RunningStart ks a := ⟨⟨k, (hm k).mp k1, k2, k3⟩, fun k' hk' => k4 k' ((hm k').mpr hk')⟩
                        simp only at hf
                        split at hf
                        · cases hf
                          exact .moved a b _ hrs hb (by simp only [Option.getD_some]; omega)
                        · cases hf
                          exact .down a b hrs hb (by omega)
        · rw [hc, (C35_errors _ _ e).1 h2 h1] at hf
          cases hf

/-! ### Modules -/

/-- **C73** (index) The index of modules that is used is the one of the kernel's release, if it has the right
magic number and version. -/
theorem C73_index {w : World M} {dir index : Bytes} : loadDepmod w = .ok (dir, index) ↔ HasIndex w dir index := by
  have opened : ∀ path data, w.disk.opened path = .ok (.ok data) ↔ HasContents w (w.disk.stat path) data := by
    intro path data
    rw [← fileOf_ok]
    unfold fileOf ofVersion Disk.opened
    cases w.disk.stat path with
    | error e => simp
    | ok m =>
      simp only
      cases w.disk.contents m with
      | error e => simp
      | ok f => simp
  unfold loadDepmod HasIndex
  cases hr : w.sys.release with
  | error e => simp
  | ok rel =>
    simp only [Except.ok.injEq]
    by_cases hu : isUtf8 rel = true
    · rw [if_pos hu]
      constructor
      · intro h
        split at h
        · cases h
        · cases h
        · rename_i data hd
          split at h
          · cases h
          · rename_i hv
            cases h
            obtain ⟨h1, h2⟩ := (C33_validate index).1.mp hv
            exact ⟨rel, rfl, hu, rfl, (opened _ _).mp hd, h1, h2⟩
      · rintro ⟨rel', rfl, _, rfl, h1, h2, h3⟩
        have h1' := (opened _ _).mpr h1
        unfold modulesDir
        rw [h1']
        simp only
        rw [(C33_validate index).1.mpr ⟨h2, h3⟩]
    · rw [if_neg hu]
      constructor
      · intro h; cases h
      · rintro ⟨rel', rfl, h1, _⟩
        exact absurd h1 hu

theorem listed_of {dir index name : Bytes} :
    (∀ path, findPath dir index name = .ok (some path) → Listed dir index name path) ∧
    (findPath dir index name = .ok none → ∀ path, ¬ Listed dir index name path) := by
  refine ⟨fun path h => C33_sound dir index name path h, ?_⟩
  rintro h path ⟨root, rel, h1, ⟨r, next, v, h2, h3, h4, h5⟩, rfl⟩
  by_cases hb : Spec.Depmod.BadRange index r next
  · rw [(C33_panics_iff dir index name).1.mpr ⟨root, r, next, h1, h2, hb⟩] at h
    cases h
  · rw [C33_complete dir index name rel root r next v h1 h2 hb h3 h4 h5] at h
    cases h

theorem loaded_modules {t : Tools} {w : World M} {mods : List Mod} (h : loadModmap t w = .ok mods) :
    ∃ ms, LoadedModules w ms ∧ mods.Perm ms ∧ Sorted mods := by
  unfold loadModmap at h
  split at h
  · cases h
  · rename_i data hd
    obtain ⟨lines, ms, h1, h2, h3, h4⟩ := C32_load t.σ data mods h
    exact ⟨ms, ⟨data, lines, hd, h1, h2⟩, h3, h4⟩

theorem module_data {t : Tools} {dirs : List Bytes} {w : World M} {r : Remembered} {path : Bytes} {f : SymFn}
    (h : moduleResolver (modulesAt t dirs w r false) path = .ok f) :
    ∃ represented data, ModuleData w path represented data ∧
      f = ElfResolver.findSym t (.elf ⟨some represented, .mem 4096 data⟩) := by
  have plain : ∀ actual represented, (kernelElfAt t dirs w false actual represented).map (·.findSym t) = .ok f →
      ∃ data, HasContents w (w.disk.stat actual) data ∧
        f = ElfResolver.findSym t (.elf ⟨some represented, .mem 4096 data⟩) := by
    intro actual represented hk
    cases he : kernelElfAt t dirs w false actual represented with
    | error e => rw [he] at hk; cases hk
    | ok p =>
      rw [he] at hk
      cases hk
      obtain ⟨data, h1, rfl⟩ := kernelElfAt_plain.1 p he
      exact ⟨data, h1, rfl⟩
  unfold moduleResolver modulesAt at h
  cases hc : compression path with
  | none =>
    rw [hc] at h
    obtain ⟨data, h1, h2⟩ := plain path path h
    exact ⟨path, data, .plain data hc h1, h2⟩
  | some c =>
    rw [hc] at h
    simp only at h
    cases hd : w.sys.decompress c path with
    | error e => rw [hd] at h; cases h
    | ok tmp =>
      rw [hd] at h
      obtain ⟨data, h1, h2⟩ := plain tmp (withoutExtension path) h
      exact ⟨_, data, .compressed c tmp data hc hd h1, h2⟩

theorem looked_congr {env : Env} {f g : SymFn} {addr : Nat} (hfg : f addr env.opts = g addr env.opts)
    {out : Except Err Symbolized} (h : Looked env f addr out) : Looked env g addr out := by
  cases h with
  | sym s name names h1 h2 h3 h4 => exact .sym s name names (hfg ▸ h1) h2 h3 h4
  | reason r h1 => exact .reason r (hfg ▸ h1)
  | error e h1 => exact .error e (hfg ▸ h1)
  | behind s h1 h2 => exact .behind s (hfg ▸ h1) h2

theorem in_module {env : Env} {file : Bytes} {symtab dynsym : Elf.SymTab} {find f : SymFn} {addr x : Nat} (hx : x ≤ addr)
    (hf : FromElf file symtab dynsym x (f x env.opts))
    (h1 : ∀ s, f x env.opts = .ok (.ok s) → find addr env.opts = .ok (.ok s))
    (h2 : ∀ reason, f x env.opts = .ok (.error reason) → find addr env.opts = .ok (.error .unknownAddr))
    (h3 : ∀ e, f x env.opts = .error e → find addr env.opts = .error e)
    {out : Symbolized} (h : Looked env find addr (.ok out)) : InModuleFile (env.shown .unknown) file symtab dynsym addr x out := by
  generalize hr : f x env.opts = r at hf
  cases hf with
  | found s name hc =>
    have hsx := chosen_le hc
    have := looked_of_sym (h1 _ hr) (by simp only; omega) rfl h
    cases this
    exact .found s name hc
  | missing hn h0 =>
    have := looked_of_reason (h2 _ hr) h
    cases this
    exact .unknown hn
  | unknown hn h0 =>
    have := looked_of_reason (h2 _ hr) h
    cases this
    exact .unknown hn
  | error e =>
    have := looked_of_error (h3 _ hr) h
    cases this

/-- **C73** (partial: see `Absent`) Symbolizing an address of the kernel, without debug information, reports
what the files of the system say: for an address in a module that is loaded, the symbol that stands for it
in the file the index has for the module; for other addresses the symbol of the kernel image or of
kallsyms, depending on which of the two are asked for and there. -/
theorem C73_kernel_partial [DecidableEq M] (cfg : Settings M (KernelCache M)) (w : World M) (s : State M (KernelCache M))
    (src : KernelSource) (hds : src.debugSyms = false) (hd : ∀ mods, LoadedModules w mods → Spec.Kernel.Disjoint mods)
    (addr : Nat) (out : Symbolized)
    (h : symbolizeSingle (envNow cfg w s) (.kernel src) (.absAddr addr) = .ok out) :
    KernelAnswer cfg.tools.codec (shownBy cfg .unknown) w src addr out := by
  let t := cfg.tools
  cases hk : (envNow cfg w s).kernel src with
  | error e =>
    simp [symbolizeSingle, Input.map, symbolizeImpl, hk] at h
  | ok find =>
    have hl := (C42_kernel (envNow cfg w s) src find addr (.ok out) hk).mp h
    have hk' : kernelAt t cfg.debugDirs w ⟨none, none, none⟩ src = .ok find := hk
    unfold kernelAt at hk'
    rw [hds] at hk'
    cases hn : kernelResolverNew (sourcesAt t cfg.debugDirs w ⟨none, none, none⟩ false) src.kallsyms src.vmlinux src.kaslr with
    | error e => rw [hn] at hk'; cases hk'
    | ok parts =>
      rw [hn] at hk'
      simp only [Except.ok.injEq] at hk'
      cases hsk : selectKsym (sourcesAt t cfg.debugDirs w ⟨none, none, none⟩ false) src.kallsyms with
      | error e => rw [(C34_new_errors _ _ _ _ e).1 hsk] at hn; cases hn
      | ok k =>
      cases hsv : selectVmlinux (sourcesAt t cfg.debugDirs w ⟨none, none, none⟩ false) src.vmlinux with
      | error e => rw [(C34_new_errors _ _ _ _ e).2 k hsk hsv] at hn; cases hn
      | ok v =>
      obtain ⟨kallsyms, u1, u2⟩ := uses_kallsyms hsk
      obtain ⟨image, u3, rfl⟩ := uses_image hsv
      obtain ⟨n1, n2, n3, n4, n5⟩ := C34_new (sourcesAt t cfg.debugDirs w ⟨none, none, none⟩ false) src.kallsyms
        src.vmlinux src.kaslr k (imageResolver image) hsk hsv
      have hparts : parts.ksym = k ∧ parts.vmlinux = imageResolver image ∧
          (∀ o, src.kaslr = some o → parts.kaslr = o) ∧
          (imageResolver image ≠ none → src.kaslr = none → detectKaslr t w k (imageResolver image) = .ok parts.kaslr) := by
        by_cases hsome : k ≠ none ∨ imageResolver image ≠ none
        · cases ho : src.kaslr with
          | some o =>
            rw [n2 o hsome ho] at hn
            cases hn
            exact ⟨rfl, rfl, fun o' h => (by cases h; rfl), fun _ h => (by cases h)⟩
          | none =>
            by_cases hv : imageResolver image = none
            · have hkn : k ≠ none := hsome.resolve_right (fun h => h hv)
              rw [n3 hkn hv ho] at hn
              cases hn
              exact ⟨rfl, hv.symm, fun o' h => (by cases h), fun h => absurd hv h⟩
            · cases hdet : detectKaslr t w k (imageResolver image) with
              | error e => rw [n5 e hv ho hdet] at hn; cases hn
              | ok o =>
                rw [n4 o hv ho hdet] at hn
                cases hn
                exact ⟨rfl, rfl, fun o' h => (by cases h), fun _ _ => rfl⟩
        · have hk0 : k = none := by by_contra hc; exact hsome (.inl hc)
          have hv0 : imageResolver image = none := by by_contra hc; exact hsome (.inr hc)
          rw [n1 hk0 hv0] at hn
          cases hn
      obtain ⟨p1, p2, p3, p4⟩ := hparts
      rw [p1, p2] at hk'
      cases image with
      | none =>
        cases k with
        | none => rw [n1 rfl rfl] at hn; cases hn
        | some syms =>
          cases kallsyms with
          | none => cases u2
          | some ks =>
            refine .kallsyms ks u3 u1 (in_kallsyms (env := envNow cfg w s) ?_ hl)
            rw [← hk']
            exact from_kallsyms w.sys.bpfLines u2.1 u2.2 addr _
      | some i =>
        obtain ⟨image, data⟩ := i
        subst hk'
        set kr : KernelResolver := ⟨k.map (ksymFindSym w.sys.bpfLines),
          (imageResolver (some (image, data))).map (·.findSym t), parts.kaslr⟩ with hkr
        set ke := modulesAt t cfg.debugDirs w ⟨none, none, none⟩ false with hke
        have hv : kr.vmlinux = some (ElfResolver.findSym t (.elf ⟨some image, .mem 4096 data⟩)) := rfl
        cases hm : ke.modmap with
        | error e =>
          have := looked_of_error ((C34_refused kr ke _ addr (envNow cfg w s).opts hv).2 e hm) hl
          cases this
        | ok mods =>
          obtain ⟨ms, m1, m2, m3⟩ := loaded_modules (t := t) (w := w) hm
          have hdis : Spec.Kernel.Disjoint mods := by
            obtain ⟨d1, d2⟩ := hd ms m1
            exact ⟨fun m hm m' hm' => d1 m (m2.mem_iff.mp hm) m' (m2.mem_iff.mp hm'), fun m hm => d2 m (m2.mem_iff.mp hm)⟩
          by_cases hin : ∃ m ∈ mods, Spec.Kernel.InMod m addr
          · obtain ⟨m, hmem, hin⟩ := hin
            obtain ⟨f1, f2⟩ := C34_module_missing kr ke _ mods m addr (envNow cfg w s).opts hv hm m3 hdis hmem hin .other
            cases hdep : ke.depmod with
            | error e =>
              have := looked_of_error ((C34_module_missing kr ke _ mods m addr (envNow cfg w s).opts hv hm m3 hdis hmem hin e).1
                hdep) hl
              cases this
            | ok di =>
              obtain ⟨dir, index⟩ := di
              have hidx : HasIndex w dir index := C73_index.mp hdep
              cases hp : findPath dir index m.name with
              | error e =>
                have := looked_of_error (((C34_module_missing kr ke _ mods m addr (envNow cfg w s).opts hv hm m3 hdis hmem
                  hin e).2 dir index hdep).2.1 hp) hl
                cases this
              | ok o =>
                cases o with
                | none =>
                  have := looked_of_reason ((f2 dir index hdep).1 hp) hl
                  cases this
                  exact .unlisted image data ms m dir index u3 m1 (m2.mem_iff.mp hmem) hin hidx (listed_of.2 hp) rfl
                | some path =>
                  cases hf : moduleResolver ke path with
                  | error e =>
                    have := looked_of_error (((C34_module_missing kr ke _ mods m addr (envNow cfg w s).opts hv hm m3 hdis
                      hmem hin e).2 dir index hdep).2.2 path hp hf) hl
                    cases this
                  | ok f =>
                    obtain ⟨represented, file, g1, rfl⟩ := module_data hf
                    obtain ⟨c1, c2, c3⟩ := C34_module kr ke _ mods m addr (envNow cfg w s).opts dir index path _ hv hm m3
                      hdis hmem hin hdep hp hf
                    have hle := hin.1
                    refine .module image data ms m dir index path represented file (addr - m.addr) u3 m1
                      (m2.mem_iff.mp hmem) hin hidx (listed_of.1 path hp) g1 (by omega) ?_
                    intro phdrs symtab dynsym hparts
                    exact in_module (env := envNow cfg w s) (by omega) (from_elf t hparts _ _) c1 c2 c3 hl
          · have hno : ∀ m ∈ mods, ¬ Spec.Kernel.InMod m addr := fun m hm hi => hin ⟨m, hm, hi⟩
            refine .core image data kallsyms ms u3 u1 m1 (fun m hm => hno m (m2.mem_iff.mpr hm)) ?_
            intro phdrs symtab dynsym hparts
            by_cases hle : parts.kaslr ≤ addr
            · refine ⟨parts.kaslr, addr - parts.kaslr, ?_, by omega, ?_⟩
              · cases ho : src.kaslr with
                | some o => rw [p3 o ho]; exact .given o ho
                | none => exact C73_offset t w ho u2 hparts (p4 (by simp [imageResolver]) ho)
              · refine in_core (env := envNow cfg w s) (k := kr.ksym) (offset := parts.kaslr) (by omega)
                  (from_elf t hparts _ _) ?_ (looked_congr (findSym_core kr ke _ mods addr _ hv hm m3 hdis hno) hl)
                cases k with
                | none => cases kallsyms with
                  | none => trivial
                  | some ks => cases u2
                | some syms => cases kallsyms with
                  | none => cases u2
                  | some ks => exact from_kallsyms w.sys.bpfLines u2.1 u2.2 addr _
            · have := looked_of_error ((C34_refused kr ke _ addr (envNow cfg w s).opts hv).1 mods hm m3 hdis hno
                (by show addr < parts.kaslr; omega)) hl
              cases this

/-- **C73** (partial: see `Absent`) The same for a symbolizer after any use, as long as no module is loaded
or unloaded and the KASLR offset stays; only the module that is reported may be another name of the file. -/
theorem C73_symbolizer_partial [DecidableEq M] {cfg : Settings M (KernelCache M)} (hst : Standard cfg)
    {contents : M → Except Err (Except Err Bytes)} {mods : Except Err (List Mod)} {index : Except Err (Bytes × Bytes)}
    {offset : Nat} {s : State M (KernelCache M)}
    (hr : Reachable cfg (fun s w c => SameContents contents s w c ∧ SameSystem cfg.tools mods index offset w) s)
    (w : World M) (hw : w.disk.contents = contents) (hsys : SameSystem cfg.tools mods index offset w)
    (src : KernelSource) (hds : src.debugSyms = false) (ht : TextKallsyms w src)
    (hd : ∀ mods, LoadedModules w mods → Spec.Kernel.Disjoint mods) (addr : Nat) (out : Symbolized)
    (h : (s.symbolizeSingle cfg w (.kernel src) (.absAddr addr)).1 = .ok out) :
    ∃ out', OutRel (fun _ _ => True) out out' ∧ KernelAnswer cfg.tools.codec (shownBy cfg .unknown) w src addr out' := by
  have h1 := (C70_unchanged hst hr w hw hsys src hds ht).2 (.absAddr addr)
  rw [h] at h1
  generalize hg : symbolizeSingle (envNow cfg w s) (.kernel src) (.absAddr addr) = r at h1
  cases h1 with
  | ok _ out' hrel => exact ⟨out', hrel, C73_kernel_partial cfg w s src hds hd addr out' hg⟩

/-! ### Examples -/

/-- The modules of the machine. -/
theorem exMachine_modules {kallsyms : Nat} {mods : List Mod} (h : LoadedModules (exMachine kallsyms true) mods) :
    mods = [⟨ascii "ab", 0x1000, 8192⟩] := by
  obtain ⟨data, lines, h1, h2, h3⟩ := h
  have h1' := (Except.ok.inj h1).symm
  subst h1'
  have h4 := (parseModLines_ok lines mods).mpr h3
  rw [← (lines_iff _ _).mpr h2] at h4
  have h5 : parseModLines (splitLines (if true then ascii "ab 8192 0 - Live 0x0000000000001000\n" else [])) =
      .ok [⟨ascii "ab", 0x1000, 8192⟩] := by decide +kernel
  rw [h5] at h4
  exact (Except.ok.inj h4).symm

theorem exMachine_disjoint (kallsyms : Nat) (mods : List Mod) (h : LoadedModules (exMachine kallsyms true) mods) :
    Spec.Kernel.Disjoint mods := by
  rw [exMachine_modules h]
  refine ⟨?_, ?_⟩
  · intro m hm m' hm' hne
    simp only [List.mem_singleton] at hm hm'
    exact absurd (hm.trans hm'.symm) hne
  · intro m hm
    simp only [List.mem_singleton] at hm
    subst hm
    decide

/-- The name, module and offset of an answer. -/
def brief1 : Except Err Symbolized → Except Err (Option (Bytes × Option Bytes × Nat × Nat)) :=
  Except.map fun | .sym x => some (x.name, x.module, x.addr, x.offset) | .unknown _ => none

set_option maxRecDepth 20000 in
/-- An address in the module, one in the core kernel, and one only kallsyms knows. -/
example :
    brief1 (symbolizeSingle (envNow (exKernel true) (exMachine 2 true) (State.new (exKernel true)))
      (.kernel ⟨.none, .some (ascii "/f"), some 0x1000, false⟩) (.absAddr 0x2000)) =
        .ok (some (ascii "_stext", some (ascii "/lib/modules/6/k/ab.ko"), 0x1000, 0x1000)) ∧
    brief1 (symbolizeSingle (envNow (exKernel true) (exMachine 2 true) (State.new (exKernel true)))
      (.kernel ⟨.default, .some (ascii "/stext"), none, false⟩) (.absAddr 0x3004)) =
        .ok (some (ascii "_stext", some (ascii "/stext"), 0x1000, 0x2004)) ∧
    brief1 (symbolizeSingle (envNow (exKernel true) (exMachine 2 true) (State.new (exKernel true)))
      (.kernel ⟨.default, .some (ascii "/stext"), none, false⟩) (.absAddr 0x9004)) =
        .ok (some (ascii "_stext", none, 0x3000, 0x6004)) := by
  refine ⟨?_, ?_, ?_⟩ <;> decide +kernel

set_option maxRecDepth 20000 in
/-- The index of the machine. -/
example : HasIndex (exMachine 2 true) (ascii "/lib/modules/6") demoIndex := by
  refine C73_index.mp ?_
  have h : (loadDepmod (exMachine 2 true)).toOption = some (ascii "/lib/modules/6", demoIndex) := by decide +kernel
  cases hl : loadDepmod (exMachine 2 true) with
  | error e => rw [hl] at h; cases h
  | ok x => rw [hl] at h; cases h; rfl

end Blazesym.Symbolize
