import Verif.Kernel.ModMap
import Verif.PerfMap.Props
import Verif.Util.SearchProps

/-! # C32: the kernel module map -/

set_option autoImplicit false

namespace Blazesym.Spec.Kernel
open Blazesym.Kernel

/-- A line `name size instances dependencies state address ...`: a decimal size and a hexadecimal
address that is not zero, which may be prefixed with `0x`. -/
def ModLine (line : Bytes) (m : Mod) : Prop :=
  ∃ (size insts deps state addr digits : Bytes) (n : Nat) (rest : List Bytes),
    Words line (m.name :: size :: insts :: deps :: state :: addr :: rest) ∧
    addr = (List.replicate n (ascii "0x")).flatten ++ digits ∧
    NumText 16 digits m.addr ∧ 0 < m.addr ∧ m.addr < 2 ^ 64 ∧ NumText 10 size m.size ∧ m.size < 2 ^ 64

/-- The modules of a list of lines: those that do not have the right form are skipped. -/
inductive ModsKept : List Bytes → List Mod → Prop
  | nil : ModsKept [] []
  | skip (line : Bytes) (lines : List Bytes) (ms : List Mod) (hu : isUtf8 line = true)
      (h : ∀ m, ¬ ModLine line m) (hr : ModsKept lines ms) : ModsKept (line :: lines) ms
  | keep (line : Bytes) (lines : List Bytes) (ms : List Mod) (hu : isUtf8 line = true) (m : Mod)
      (h : ModLine line m) (hr : ModsKept lines ms) : ModsKept (line :: lines) (m :: ms)

/-- The module contains the address. -/
def InMod (m : Mod) (addr : Nat) : Prop := m.addr ≤ addr ∧ addr < m.addr + m.size

end Blazesym.Spec.Kernel

namespace Blazesym.Kernel
open Blazesym.Util Blazesym.Spec Blazesym.Spec.Kernel Blazesym.Symbolize
open Blazesym.PerfMap (hex_iff)

theorem trim_eq (pat : Bytes) (hp : pat ≠ []) (n : Nat) (d : Bytes) (hd : ¬ ∃ r, d = pat ++ r) (fuel : Nat)
    (hf : ((List.replicate n pat).flatten ++ d).length ≤ fuel) :
    trimStartMatches pat fuel ((List.replicate n pat).flatten ++ d) = d := by
  induction n generalizing fuel with
  | zero =>
    cases fuel with
    | zero => rfl
    | succ fuel =>
      rw [trimStartMatches]
      cases hs : stripPrefix ((List.replicate 0 pat).flatten ++ d) pat with
      | none => rfl
      | some r => exact absurd ⟨r, stripPrefix_some_iff.mp hs⟩ hd
  | succ n ih =>
    have hl : 0 < pat.length := List.length_pos_iff.mpr hp
    rw [List.replicate_succ, List.flatten_cons, List.append_assoc] at hf ⊢
    cases fuel with
    | zero => rw [List.length_append] at hf; omega
    | succ fuel =>
      rw [trimStartMatches, stripPrefix_some_iff.mpr rfl]
      refine ih fuel ?_
      rw [List.length_append] at hf
      omega

theorem hex_no_prefix {d : Bytes} {v : Nat} (h : NumText 16 d v) : ¬ ∃ r, d = ascii "0x" ++ r := by
  rintro ⟨r, rfl⟩
  have h0 : ascii "0x" = [48, 120] := by decide
  rw [h0] at h
  obtain ⟨ds, h1 | h1, _, h2, _⟩ := h
  · exact absurd (h2 120 (by rw [← h1]; simp)) (by decide)
  · simp at h1

theorem dec_iff (s : Bytes) (v : Nat) : fromStrRadix u64Size 10 s = some v ↔ NumText 10 s v ∧ v < 2 ^ 64 :=
  fromStrRadix_iff (by omega) (by omega) (by decide) s v

/-- **C32** (lines): a line yields a module exactly if it has the documented form. -/
theorem C32_line (line : Bytes) (m : Mod) : parseModLine line = some m ↔ ModLine line m := by
  unfold parseModLine ModLine
  constructor
  · intro h
    split at h
    · rename_i name size insts deps state addr rest hw
      split at h
      · simp at h
      · rename_i a ha
        split at h
        · simp at h
        · rename_i h0
          split at h
          · simp at h
          · rename_i sz hsz
            have h' : ({ name, addr := a, size := sz } : Mod) = m := by simpa using h
            subst h'
            obtain ⟨n, h1, h2⟩ := trimStartMatches_spec (ascii "0x") (by decide) addr.length addr (le_refl _)
            obtain ⟨h3, h4⟩ := (hex_iff _ _).mp ha
            obtain ⟨h5, h6⟩ := (dec_iff _ _).mp hsz
            refine ⟨size, insts, deps, state, addr, _, n, rest, (words_iff ..).mp hw, h1, h3, ?_, h4, h5, h6⟩
            simp only
            omega
    · simp at h
  · rintro ⟨size, insts, deps, state, addr, digits, n, rest, hw, h1, h2, h3, h4, h5, h6⟩
    rw [(words_iff ..).mpr hw]
    simp only
    have : trimStartMatches (ascii "0x") addr.length addr = digits := by
      rw [h1]
      exact trim_eq _ (by decide) n digits (hex_no_prefix h2) _ (le_refl _)
    rw [this, (hex_iff ..).mpr ⟨h2, h4⟩]
    simp only
    rw [if_neg (by omega), (dec_iff ..).mpr ⟨h5, h6⟩]

theorem parseModLines_ok (lines : List Bytes) (ms : List Mod) :
    parseModLines lines = .ok ms ↔ ModsKept lines ms := by
  induction lines generalizing ms with
  | nil =>
    simp only [parseModLines, Except.ok.injEq]
    constructor
    · rintro rfl; exact .nil
    · intro h; cases h; rfl
  | cons line rest ih =>
    rw [parseModLines]
    constructor
    · intro h
      split at h
      · rename_i hu
        split at h
        · simp at h
        · rename_i ms' hm
          have h' : (parseModLine line).toList ++ ms' = ms := by simpa using h
          subst h'
          cases hp : parseModLine line with
          | none =>
            refine .skip line rest ms' hu ?_ ((ih ms').mp hm)
            intro m hml
            rw [(C32_line ..).mpr hml] at hp
            simp at hp
          | some m => exact .keep line rest ms' hu m ((C32_line ..).mp hp) ((ih ms').mp hm)
      · simp at h
    · intro h
      cases h with
      | skip _ _ _ hu hn hr =>
        rw [if_pos hu, (ih ms).mpr hr]
        have : parseModLine line = none := by
          cases hp : parseModLine line with
          | none => rfl
          | some m => exact absurd ((C32_line ..).mp hp) (hn m)
        rw [this]
        rfl
      | keep _ _ ms' hu m hs hr =>
        rw [if_pos hu, (ih ms').mpr hr, (C32_line ..).mpr hs]
        rfl

/-- **C32** (loading): the modules are those of the well-formed lines with an address other than
zero, sorted by address. -/
theorem C32_load (σ : Sorter) (data : Bytes) (mods : List Mod) (h : loadModules σ data = .ok mods) :
    ∃ (lines : List Bytes) (ms : List Mod), Lines data lines ∧ ModsKept lines ms ∧ mods.Perm ms ∧
      mods.Pairwise (fun a b => a.addr ≤ b.addr) := by
  unfold loadModules at h
  split at h
  · simp at h
  · rename_i ms hm
    have h' : σ.sort (fun a b : Mod => decide (a.addr ≤ b.addr)) ms = mods := by simpa using h
    subst h'
    refine ⟨_, ms, (lines_iff ..).mp rfl, (parseModLines_ok ..).mp hm, σ.perm _ _, ?_⟩
    have := σ.sorted (fun a b : Mod => decide (a.addr ≤ b.addr)) (by simp; omega) (by simp; omega) ms
    simpa using this

/-- **C32** (loading succeeds) exactly if all lines are valid text; it does not panic. -/
theorem C32_load_succeeds (σ : Sorter) (data : Bytes) :
    ((∃ mods, loadModules σ data = .ok mods) ↔ ∃ lines : List Bytes, Lines data lines ∧ ∀ l ∈ lines, isUtf8 l = true) ∧
    ∀ e, loadModules σ data = .error e → e = .invalidData := by
  have key : ∀ lines : List Bytes, ((∃ ms, parseModLines lines = .ok ms) ↔ ∀ l ∈ lines, isUtf8 l = true) ∧
      ∀ e, parseModLines lines = .error e → e = .invalidData := by
    intro lines
    induction lines with
    | nil => simp [parseModLines]
    | cons l rest ih =>
      obtain ⟨ih1, ih2⟩ := ih
      rw [parseModLines]
      by_cases hu : isUtf8 l = true
      · rw [if_pos hu]
        cases hr : parseModLines rest with
        | error e =>
          rw [hr] at ih1
          refine ⟨?_, ?_⟩
          · constructor
            · rintro ⟨ms, h⟩; simp at h
            · intro h
              obtain ⟨ms, h⟩ := ih1.mpr (fun x hx => h x (by simp [hx]))
              simp at h
          · intro e' he'
            have : e = e' := by simpa using he'
            subst this
            exact ih2 _ hr
        | ok ms =>
          refine ⟨⟨fun _ => ?_, fun _ => ⟨_, rfl⟩⟩, ?_⟩
          · have := ih1.mp ⟨ms, hr⟩
            simpa [hu] using this
          · intro e he; simp at he
      · rw [if_neg hu]
        refine ⟨?_, ?_⟩
        · constructor
          · rintro ⟨ms, h⟩; simp at h
          · intro h; exact absurd (h l (by simp)) hu
        · intro e he
          have : Err.invalidData = e := by simpa using he
          exact this.symm
  obtain ⟨k1, k2⟩ := key (splitLines data)
  have hlines : (∃ lines : List Bytes, Lines data lines ∧ ∀ l ∈ lines, isUtf8 l = true) ↔
      ∀ l ∈ splitLines data, isUtf8 l = true := by
    constructor
    · rintro ⟨lines, h1, h2⟩; rw [(lines_iff ..).mpr h1]; exact h2
    · intro h; exact ⟨_, (lines_iff ..).mp rfl, h⟩
  rw [hlines, ← k1]
  unfold loadModules
  cases hr : parseModLines (splitLines data) with
  | error e =>
    refine ⟨by simp, ?_⟩
    intro e' he'
    have : e = e' := by simpa using he'
    subst this
    exact k2 _ hr
  | ok ms => exact ⟨by simp, by simp⟩

/-! ### Lookup -/

/-- The modules are sorted, as they are after loading (`C32_load`). -/
def Sorted (mods : List Mod) : Prop := mods.Pairwise (fun a b => a.addr ≤ b.addr)

/-- What is tried for an address: a module with the greatest base not above it. -/
theorem findModule_cases {mods : List Mod} (hs : Sorted mods) (addr : Nat) :
    (findModule mods addr = (if mods.isEmpty then .ok (.error .missingSyms) else .ok (.error .unknownAddr)) ∧
      ∀ m ∈ mods, addr < m.addr) ∨
    ∃ m ∈ mods, m.addr ≤ addr ∧ (∀ m' ∈ mods, m'.addr ≤ addr → m'.addr ≤ m.addr) ∧
      ((2 ^ 64 ≤ m.addr + m.size ∧ findModule mods addr = .error .panic) ∨
       (m.addr + m.size < 2 ^ 64 ∧ InMod m addr ∧ findModule mods addr = .ok (.ok (m.name, m.addr))) ∨
       (m.addr + m.size < 2 ^ 64 ∧ ¬ InMod m addr ∧ findModule mods addr = .ok (.error .unknownAddr))) := by
  unfold findModule
  cases hi : findMatchOrLowerBoundByKey mods addr Mod.addr with
  | none =>
    left
    exact ⟨rfl, (C07_lower_bound_none mods Mod.addr hs addr).mp hi⟩
  | some idx =>
    right
    obtain ⟨m, hm, h1, _, h2⟩ := C07_lower_bound_greatest mods Mod.addr hs addr idx hi
    have hmem := List.mem_of_getElem? hm
    refine ⟨m, hmem, h1, h2, ?_⟩
    simp only [Option.bind_some, hm]
    unfold addU64 InMod
    have hne : mods.isEmpty = false := by
      cases mods with
      | nil => simp at hmem
      | cons _ _ => rfl
    by_cases ho : m.addr + m.size < u64Size
    · right
      rw [if_pos ho]
      simp only
      by_cases hin : m.addr ≤ addr ∧ addr < m.addr + m.size
      · left
        exact ⟨ho, hin, by rw [if_pos hin]⟩
      · right
        refine ⟨ho, hin, ?_⟩
        rw [if_neg hin, hne]
        rfl
    · left
      refine ⟨by have : u64Size = 2 ^ 64 := by decide
                 omega, ?_⟩
      rw [if_neg ho]

/-- **C32** (soundness): a module that is found contains the address. -/
theorem C32_found {mods : List Mod} (hs : Sorted mods) (addr : Nat) (name : Bytes) (base : Nat)
    (h : findModule mods addr = .ok (.ok (name, base))) :
    ∃ m ∈ mods, m.name = name ∧ m.addr = base ∧ InMod m addr := by
  rcases findModule_cases hs addr with ⟨h1, _⟩ | ⟨m, hm, _, _, ⟨_, h1⟩ | ⟨_, h2, h1⟩ | ⟨_, _, h1⟩⟩
  · rw [h1] at h; split at h <;> simp at h
  · rw [h1] at h; simp at h
  · rw [h1] at h
    simp at h
    exact ⟨m, hm, h.1, h.2, h2⟩
  · rw [h1] at h; simp at h

/-- **C32** (completeness): if no module starts inside another one, the module that contains the
address is found.
Partial: modules that end beyond the address space, for which the code panics (`C32_overflow_panics`). -/
theorem C32_complete_partial {mods : List Mod} (hs : Sorted mods) (addr : Nat)
    (hd : ∀ m ∈ mods, ∀ m' ∈ mods, m ≠ m' → ¬ InMod m m'.addr) (m : Mod) (hm : m ∈ mods) (hin : InMod m addr)
    (hfit : m.addr + m.size < 2 ^ 64) : findModule mods addr = .ok (.ok (m.name, m.addr)) := by
  rcases findModule_cases hs addr with ⟨_, h2⟩ | ⟨m', hm', h2, h3, h4⟩
  · have := h2 m hm
    unfold InMod at hin
    omega
  · have heq : m = m' := by
      by_contra hne
      have := h3 m hm hin.1
      exact hd m hm m' hm' hne ⟨this, by unfold InMod at hin; omega⟩
    subst heq
    rcases h4 with ⟨h, _⟩ | ⟨_, _, h⟩ | ⟨_, h, _⟩
    · omega
    · exact h
    · exact absurd hin h

/-- **C32** (no module): the address is in no module if none is found (and none starts inside
another), and the reason tells whether there are modules at all. -/
theorem C32_unknown {mods : List Mod} (hs : Sorted mods) (addr : Nat)
    (hd : ∀ m ∈ mods, ∀ m' ∈ mods, m ≠ m' → ¬ InMod m m'.addr) (hfit : ∀ m ∈ mods, m.addr + m.size < 2 ^ 64) :
    (findModule mods addr = .ok (.error .missingSyms) ↔ mods = []) ∧
    (findModule mods addr = .ok (.error .unknownAddr) ↔ mods ≠ [] ∧ ∀ m ∈ mods, ¬ InMod m addr) := by
  rcases findModule_cases hs addr with ⟨h1, h2⟩ | ⟨m', hm', h2, h3, h4⟩
  · cases mods with
    | nil => rw [h1]; simp
    | cons a t =>
      rw [h1]
      simp only [List.isEmpty_cons]
      refine ⟨by simp, ?_⟩
      have : ∀ m ∈ a :: t, ¬ InMod m addr := by
        intro m hm hin
        have := h2 m hm
        unfold InMod at hin
        omega
      simpa using this
  · have hne : mods ≠ [] := by rintro rfl; simp at hm'
    rcases h4 with ⟨h, _⟩ | ⟨h5, h6, h⟩ | ⟨h5, h6, h⟩
    · exact absurd (hfit m' hm') (by omega)
    · rw [h]
      refine ⟨by simp [hne], ?_⟩
      constructor
      · intro hc; simp at hc
      · rintro ⟨_, hc⟩; exact absurd h6 (hc m' hm')
    · rw [h]
      refine ⟨by simp [hne], ?_⟩
      refine ⟨fun _ => ⟨hne, ?_⟩, fun _ => rfl⟩
      intro m hm hin
      have hc := C32_complete_partial hs addr hd m hm hin (hfit m hm)
      rw [h] at hc
      simp at hc

/-- **C32** (overlap): if a module starts inside another one, addresses of the latter beyond the
former are not attributed to any module. -/
theorem C32_overlap_missed {mods : List Mod} (hs : Sorted mods) (addr : Nat)
    (m' : Mod) (hm' : m' ∈ mods) (hle : m'.addr ≤ addr)
    (hlast : ∀ x ∈ mods, x.addr ≤ addr → x.addr ≤ m'.addr ∧ (x.addr = m'.addr → x = m'))
    (hout : ¬ InMod m' addr) (hfit : m'.addr + m'.size < 2 ^ 64) :
    findModule mods addr = .ok (.error .unknownAddr) := by
  rcases findModule_cases hs addr with ⟨_, h2⟩ | ⟨m, hm, h2, h3, h4⟩
  · have := h2 m' hm'; omega
  · have hmm : m = m' := (hlast m hm h2).2 (le_antisymm (hlast m hm h2).1 (h3 m' hm' hle))
    subst hmm
    rcases h4 with ⟨h, _⟩ | ⟨_, h, _⟩ | ⟨_, _, h⟩
    · omega
    · exact absurd h hout
    · exact h

/-- **C32** (panic): the lookup panics exactly if a module it considers ends beyond the 64 bit
address space; otherwise there is an answer. -/
theorem C32_overflow_panics {mods : List Mod} (hs : Sorted mods) (addr : Nat) :
    (∀ e, findModule mods addr = .error e → e = .panic ∧ ∃ m ∈ mods, m.addr ≤ addr ∧ 2 ^ 64 ≤ m.addr + m.size) ∧
    ((∃ m ∈ mods, m.addr ≤ addr) → (∀ m ∈ mods, m.addr ≤ addr → 2 ^ 64 ≤ m.addr + m.size) →
      findModule mods addr = .error .panic) := by
  rcases findModule_cases hs addr with ⟨h1, h2⟩ | ⟨m, hm, h2, h3, h4⟩
  · refine ⟨?_, ?_⟩
    · intro e he; rw [h1] at he; split at he <;> simp at he
    · rintro ⟨m, hm, hle⟩; have := h2 m hm; omega
  · rcases h4 with ⟨h, h5⟩ | ⟨h, _, h5⟩ | ⟨h, _, h5⟩
    · refine ⟨?_, fun _ _ => h5⟩
      intro e he
      rw [h5] at he
      exact ⟨by simpa using he.symm, m, hm, h2, h⟩
    · refine ⟨by intro e he; rw [h5] at he; simp at he, ?_⟩
      intro _ hc; have := hc m hm h2; omega
    · refine ⟨by intro e he; rw [h5] at he; simp at he, ?_⟩
      intro _ hc; have := hc m hm h2; omega

/-! ### Concrete cases -/

example : parseModLine (ascii "overlay 139264 2 - Live 0xffffffffc0a00000 (E)\n") =
    some ⟨ascii "overlay", 0xffffffffc0a00000, 139264⟩ := by decide +kernel
example : parseModLine (ascii "overlay 139264 2 - Live 0x0000000000000000\n") = none := by decide +kernel
example : parseModLine (ascii "overlay 139264 2 - Live") = none := by decide +kernel

def demoMods : List Mod := [⟨ascii "a", 0x1000, 0x1000⟩, ⟨ascii "b", 0x2000, 0x800⟩]

example : Sorted demoMods := by unfold Sorted; decide
example : ∀ m ∈ demoMods, ∀ m' ∈ demoMods, m ≠ m' → ¬ InMod m m'.addr := by unfold InMod; decide
example : findModule demoMods 0x27ff = .ok (.ok (ascii "b", 0x2000)) := by decide +kernel
example : findModule demoMods 0x2800 = .ok (.error .unknownAddr) := by decide +kernel
-- A module that starts inside another one hides the rest of it.
example : findModule [⟨ascii "a", 0x1000, 0x1000⟩, ⟨ascii "b", 0x1800, 0x10⟩] 0x1900 = .ok (.error .unknownAddr) := by
  decide +kernel
example : findModule [⟨ascii "a", 0xffffffffffff0000, 0x10000⟩] 0xffffffffffff0001 = .error .panic := by
  decide +kernel

end Blazesym.Kernel
