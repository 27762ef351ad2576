import Verif.Gsym.ParserLemmas
import Verif.Gsym.Resolver

/-! # C18: GSYM address lookup -/

set_option autoImplicit false

namespace Blazesym.Gsym
open Blazesym.Util Blazesym.Spec Blazesym.Spec.Gsym Blazesym.Symbolize

/-- **C18** (parsing): a byte string at a four byte aligned address (in particular every
memory mapped file) is accepted exactly if it is a GSYM file, and is otherwise refused as
invalid data. -/
theorem C18_parse (c : Cursor) (ha : c.addr % 4 = 0) :
    ((∃ ctx, parseHeader c = .ok ctx) ↔ ∃ f, Describes c.data f) ∧
      ∀ e, parseHeader c = .error e → e = .invalidData := by
  refine ⟨⟨?_, ?_⟩, fun e h => parseHeader_err ha h⟩
  · rintro ⟨ctx, h⟩
    obtain ⟨f, hf, _⟩ := parseHeader_sound ha h
    exact ⟨f, hf⟩
  · rintro ⟨f, hf⟩
    obtain ⟨ctx, h, _⟩ := parseHeader_complete ha hf
    exact ⟨ctx, h⟩

theorem orInvalid_ok {α : Type} {o : Option α} {a : α} (h : orInvalid o = .ok a) : o = some a := by
  cases o <;> simp [orInvalid] at h ⊢
  exact h

theorem orInvalid_err {α : Type} {o : Option α} {e : Err} (h : orInvalid o = .error e) :
    e = .invalidData ∧ o = none := by
  cases o <;> simp [orInvalid] at h ⊢
  exact h.symm

/-- The check of `find_sym` whether the address is beyond the symbol. -/
def beyond (symAddr size addr : Nat) : Except Err Bool :=
  if size > 0 then do
    let stop ← addU64 symAddr size
    return decide (addr ≥ stop)
  else return false

theorem findSym_unfold (ctx : Context) (addr : Nat) (opts : FindSymOpts) :
    findSym ctx addr opts = match ctx.findAddr addr with
      | none => .ok (.error .unknownAddr)
      | some idx => do
        let symAddr ← orInvalid (ctx.addrAt idx)
        if addr < symAddr then return .error .unknownAddr
        else
          let info ← orInvalid (ctx.addrInfo idx)
          let b ← beyond symAddr info.size addr
          if b then return .error .unknownAddr
          else
            let name ← orInvalid (ctx.getUtf8 info.name)
            let sym ← fillCodeInfo ctx
              { name, module := none, addr := symAddr, size := some info.size, lang := .unknown, codeInfo := none,
                inlined := [] } addr opts symAddr info
            return .ok sym := rfl

theorem collect_no_inline (symAddr addr : Nat) (l : List AddrData) (row row' : Option LineTableRow)
    (st st' : List InlineFrame)
    (h : collectAddrData symAddr addr false l row st = .ok (row', st')) : st' = st := by
  induction l generalizing row with
  | nil => cases h; rfl
  | cons e t ih =>
    unfold collectAddrData at h
    simp only [Bool.false_eq_true, and_false, if_false] at h
    split_ifs at h
    · obtain ⟨r, h1, h2⟩ := bind_ok h
      exact ih _ h2
    · exact ih _ h
    · exact ih _ h

/-- Adding source code information keeps the identity of the symbol. -/
theorem fill_keeps {ctx : Context} {sym r : ResolvedSym} {addr symAddr : Nat} {opts : FindSymOpts}
    {info : AddrInfo} (h : fillCodeInfo ctx sym addr opts symAddr info = .ok r) :
    r.addr = sym.addr ∧ r.size = sym.size ∧ r.module = sym.module ∧
      (opts ≠ .codeInfoAndInlined → r.name = sym.name ∧ r.inlined = sym.inlined ∨ r.name = sym.name ∧ r.inlined = []) := by
  unfold fillCodeInfo at h
  split_ifs at h with hc
  · obtain ⟨⟨row, stack⟩, h1, h⟩ := bind_ok h
    simp only at h
    cases row with
    | none => cases h; exact ⟨rfl, rfl, rfl, fun _ => Or.inl ⟨rfl, rfl⟩⟩
    | some row =>
      obtain ⟨li, h2, h⟩ := bind_ok h
      cases stack with
      | nil => cases h; exact ⟨rfl, rfl, rfl, fun _ => Or.inr ⟨rfl, rfl⟩⟩
      | cons first frames =>
        obtain ⟨nm, h3, h⟩ := bind_ok h
        obtain ⟨⟨li', inl⟩, h4, h⟩ := bind_ok h
        cases h
        refine ⟨rfl, rfl, rfl, fun ho => ?_⟩
        cases opts with
        | basic => simp [FindSymOpts.wantsCodeInfo] at hc
        | codeInfo => exact absurd (collect_no_inline _ _ _ _ _ _ _ h1) (by simp)
        | codeInfoAndInlined => exact absurd rfl ho
  · cases h; exact ⟨rfl, rfl, rfl, fun _ => Or.inl ⟨rfl, rfl⟩⟩

theorem beyond_ok {symAddr size addr : Nat} {b : Bool} (h : beyond symAddr size addr = .ok b) :
    b = false ↔ size = 0 ∨ addr < symAddr + size := by
  unfold beyond at h
  split_ifs at h with h0
  · unfold addU64 at h
    split_ifs at h
    · simp only [bind, Except.bind, pure, Except.pure] at h
      cases h
      simp only [decide_eq_false_iff_not]; omega
    · cases h
  · cases h; simp; omega

theorem beyond_err {symAddr size addr : Nat} {e : Err} (h : beyond symAddr size addr = .error e) :
    e = .panic ∧ 0 < size ∧ 2 ^ 64 ≤ symAddr + size := by
  unfold beyond at h
  split_ifs at h with h0
  · unfold addU64 at h
    split_ifs at h with h1
    · cases h
    · cases h
      unfold u64Size at h1
      exact ⟨rfl, h0, by omega⟩
  · cases h

theorem beyond_eq {symAddr size addr : Nat} (h : size = 0 ∨ symAddr + size < 2 ^ 64) :
    beyond symAddr size addr = .ok (decide (size > 0 ∧ symAddr + size ≤ addr)) := by
  unfold beyond
  split_ifs with h0
  · unfold addU64
    rw [if_pos (by unfold u64Size; omega)]
    simp only [bind, Except.bind, pure, Except.pure]
    congr 1
    simp [h0]
  · simp [h0]; rfl

section
variable {c : Cursor} {ctx : Context} {f : GsymFile}

/-- The index found refers to the greatest start address that is not above the address. -/
theorem findAddr_greatest (hr : Rep ctx c f) (ha : c.addr % 8 = 0)
    (hw : f.width = 1 ∨ f.width = 2 ∨ f.width = 4 ∨ f.width = 8) (hs : Ascending f) (addr i : Nat)
    (h : ctx.findAddr addr = some i) :
    ∃ o, f.offsets[i]? = some o ∧ IsGreatestStart f addr (f.base + o) := by
  rw [findAddr_eq hr ha hw] at h
  split_ifs at h with hb
  obtain ⟨o, h1, h2, ⟨o', h3, h4⟩, h5⟩ :=
    C07_lower_bound_greatest f.offsets id hs (addr - f.base) i h
  refine ⟨o, h1, by simp only [id] at h2; omega, ⟨o, List.mem_of_getElem? h1, rfl⟩, ?_⟩
  intro o' ho' hle
  have := h5 o' ho' (by simp only [id]; omega)
  simp only [id] at this
  omega

theorem findAddr_none (hr : Rep ctx c f) (ha : c.addr % 8 = 0)
    (hw : f.width = 1 ∨ f.width = 2 ∨ f.width = 4 ∨ f.width = 8) (hs : Ascending f) (addr : Nat) :
    ctx.findAddr addr = none ↔ ∀ o ∈ f.offsets, addr < f.base + o := by
  rw [findAddr_eq hr ha hw]
  split_ifs with hb
  · rw [C07_lower_bound_none f.offsets id hs]
    constructor
    · intro h o ho; have := h o ho; simp only [id] at this; omega
    · intro h o ho; have := h o ho; simp only [id]; omega
  · simp only [true_iff]; intro o _; omega

theorem findAddr_lt (hr : Rep ctx c f) (ha : c.addr % 8 = 0)
    (hw : f.width = 1 ∨ f.width = 2 ∨ f.width = 4 ∨ f.width = 8) {addr i : Nat} (hs : Ascending f)
    (h : ctx.findAddr addr = some i) : i < f.offsets.length := by
  obtain ⟨o, h1, _⟩ := findAddr_greatest hr ha hw hs addr i h
  exact (List.getElem?_eq_some_iff.mp h1).1

/-- **C18** (soundness): a symbol reported for an address is the entry with the greatest
start address not above it; its reported start, size and name are those of that entry, and
the address is within its size (entries of size zero have no known extent). -/
theorem C18_lookup (ha : c.addr % 8 = 0) (hd : Describes c.data f) (hp : parseHeader c = .ok ctx)
    (hw : f.width = 1 ∨ f.width = 2 ∨ f.width = 4 ∨ f.width = 8) (hs : Ascending f) (addr : Nat)
    (opts : FindSymOpts) (r : ResolvedSym) (h : findSym ctx addr opts = .ok (.ok r)) :
    ∃ i size name, EntryIs c.data f i r.addr size name ∧ IsGreatestStart f addr r.addr ∧
      r.size = some size ∧ (size = 0 ∨ addr < r.addr + size) ∧ isUtf8 name = true ∧
      (opts ≠ .codeInfoAndInlined → r.name = name ∧ r.inlined = []) := by
  obtain ⟨ctx', hp', hr⟩ := parseHeader_complete (by omega) hd
  rw [hp] at hp'; cases hp'
  rw [findSym_unfold] at h
  cases hf : ctx.findAddr addr with
  | none => rw [hf] at h; cases h
  | some i =>
    rw [hf] at h
    obtain ⟨o, ho, hg⟩ := findAddr_greatest hr ha hw hs addr i hf
    simp only at h
    obtain ⟨sa, h1, h⟩ := bind_ok h
    have h1 := orInvalid_ok h1
    rw [addrAt_eq hr hw ho] at h1
    unfold checkedAdd at h1
    split_ifs at h1 with hlt
    cases h1
    split_ifs at h with hab
    · cases h
    obtain ⟨info, h2, h⟩ := bind_ok h
    have h2 := orInvalid_ok h2
    obtain ⟨io, hio⟩ : ∃ io, f.infos[i]? = some io :=
      ⟨f.infos[i]'(by rw [hr.infoLen]; exact (List.getElem?_eq_some_iff.mp ho).1),
        List.getElem?_eq_getElem _⟩
    rw [addrInfo_eq hr hio] at h2
    split_ifs at h2 with hlen
    cases h2
    obtain ⟨b, h3, h⟩ := bind_ok h
    have hb := beyond_ok h3
    cases b with
    | true => cases h
    | false =>
      simp only [Bool.false_eq_true, if_false] at h
      obtain ⟨name, h4, h⟩ := bind_ok h
      have h4 := orInvalid_ok h4
      rw [getUtf8_iff, hr.strs] at h4
      obtain ⟨r', h5, h⟩ := bind_ok h
      cases h
      obtain ⟨k1, k2, _, k4⟩ := fill_keeps h5
      simp only at k1 k2 k4
      refine ⟨i, _, name, ⟨o, io, _, ho, k1, hio, (infoAt_iff _ _ _ _).mpr ⟨hlen, rfl, rfl⟩, h4.1⟩,
        by rw [k1]; exact hg, k2, ?_, h4.2, fun hne => ?_⟩
      · rw [k1]; exact hb.mp rfl
      · rcases k4 hne with k | k <;> exact ⟨k.1, k.2⟩

/-- **C18** (completeness): an address within an entry that is the only one with the
greatest start address not above it is reported as that entry.
Partial: entries whose end is beyond the address space, for which the code panics (`C18_overflow_panics`), and misaligned data (`C18_unaligned_unknown`). -/
theorem C18_lookup_complete_partial (ha : c.addr % 8 = 0) (hd : Describes c.data f)
    (hp : parseHeader c = .ok ctx)
    (hw : f.width = 1 ∨ f.width = 2 ∨ f.width = 4 ∨ f.width = 8) (hs : Ascending f) (addr : Nat)
    (haddr : addr < 2 ^ 64) (i start size : Nat) (name : Bytes)
    (he : EntryIs c.data f i start size name) (hg : IsGreatestStart f addr start)
    (hone : ∀ j, f.offsets[j]? = f.offsets[i]? → j = i)
    (hcov : size = 0 ∨ (addr < start + size ∧ start + size < 2 ^ 64)) (hu : isUtf8 name = true) :
    findSym ctx addr .basic = .ok (.ok
      { name, module := none, addr := start, size := some size, lang := .unknown, codeInfo := none,
        inlined := [] }) := by
  obtain ⟨ctx', hp', hr⟩ := parseHeader_complete (by omega) hd
  rw [hp] at hp'; cases hp'
  obtain ⟨o, info, nm, e1, e2, e3, e4, e5⟩ := he
  obtain ⟨g1, _, g3⟩ := hg
  have hf : ctx.findAddr addr = some i := by
    cases hf : ctx.findAddr addr with
    | none =>
      have := (findAddr_none hr ha hw hs addr).mp hf o (List.mem_of_getElem? e1)
      omega
    | some j =>
      obtain ⟨o', ho', k1, _, k3⟩ := findAddr_greatest hr ha hw hs addr j hf
      have t1 := k3 o (List.mem_of_getElem? e1) (by omega)
      have t2 := g3 o' (List.mem_of_getElem? ho') k1
      have : o' = o := by omega
      rw [hone j (by rw [ho', e1, this])]
  obtain ⟨i1, i2, i3⟩ := (infoAt_iff _ _ _ _).mp e4
  rw [findSym_unfold, hf]
  simp only
  rw [addrAt_eq hr hw e1]
  unfold checkedAdd
  rw [if_pos (by unfold u64Size; omega), ← e2]
  simp only [orInvalid, bind, Except.bind]
  rw [if_neg (by omega), addrInfo_eq hr e3, if_pos i1]
  simp only
  rw [← i2, ← i3, beyond_eq (by omega)]
  have hb : decide (size > 0 ∧ start + size ≤ addr) = false := by
    simp only [decide_eq_false_iff_not]; omega
  rw [hb]
  have hn : ctx.getUtf8 nm = some name := by rw [getUtf8_iff, hr.strs]; exact ⟨e5, hu⟩
  simp only [Bool.false_eq_true, if_false, hn]
  rfl

/-- **C18**: an address below all entries is unknown. -/
theorem C18_below (ha : c.addr % 8 = 0) (hd : Describes c.data f) (hp : parseHeader c = .ok ctx)
    (hw : f.width = 1 ∨ f.width = 2 ∨ f.width = 4 ∨ f.width = 8) (hs : Ascending f) (addr : Nat)
    (opts : FindSymOpts) (h : ∀ o ∈ f.offsets, addr < f.base + o) :
    findSym ctx addr opts = .ok (.error .unknownAddr) := by
  obtain ⟨ctx', hp', hr⟩ := parseHeader_complete (by omega) hd
  rw [hp] at hp'; cases hp'
  rw [findSym_unfold, (findAddr_none hr ha hw hs addr).mpr h]

/-- **C18**: an address beyond the end of the entry with the greatest start address not
above it is unknown (whatever the name of the entry). -/
theorem C18_gap (ha : c.addr % 8 = 0) (hd : Describes c.data f) (hp : parseHeader c = .ok ctx)
    (hw : f.width = 1 ∨ f.width = 2 ∨ f.width = 4 ∨ f.width = 8) (hs : Ascending f) (addr : Nat)
    (haddr : addr < 2 ^ 64) (opts : FindSymOpts) (start : Nat) (hg : IsGreatestStart f addr start)
    (hend : ∀ (i o info size nm : Nat), f.offsets[i]? = some o → start = f.base + o →
      f.infos[i]? = some info → InfoAt c.data info size nm → 0 < size ∧ start + size ≤ addr)
    (hall : ∀ info ∈ f.infos, ∃ size nm, InfoAt c.data info size nm) :
    findSym ctx addr opts = .ok (.error .unknownAddr) := by
  obtain ⟨ctx', hp', hr⟩ := parseHeader_complete (by omega) hd
  rw [hp] at hp'; cases hp'
  rw [findSym_unfold]
  cases hf : ctx.findAddr addr with
  | none => rfl
  | some i =>
    obtain ⟨o, ho, k1, _, k3⟩ := findAddr_greatest hr ha hw hs addr i hf
    obtain ⟨g1, ⟨o', g2, g2'⟩, g3⟩ := hg
    have e2 : start = f.base + o := by
      have t1 := k3 o' g2 (by omega)
      have t2 := g3 o (List.mem_of_getElem? ho) k1
      omega
    obtain ⟨io, hio⟩ : ∃ io, f.infos[i]? = some io :=
      ⟨f.infos[i]'(by rw [hr.infoLen]; exact (List.getElem?_eq_some_iff.mp ho).1),
        List.getElem?_eq_getElem _⟩
    obtain ⟨size, nm, hin⟩ := hall io (List.mem_of_getElem? hio)
    obtain ⟨z1, z2⟩ := hend i o io size nm ho e2 hio hin
    obtain ⟨i1, i2, i3⟩ := (infoAt_iff _ _ _ _).mp hin
    simp only
    rw [addrAt_eq hr hw ho]
    unfold checkedAdd
    rw [if_pos (by unfold u64Size; omega), ← e2]
    simp only [orInvalid, bind, Except.bind]
    rw [if_neg (by omega), addrInfo_eq hr hio, if_pos i1]
    simp only
    rw [← i2, ← i3, beyond_eq (by omega)]
    have hb : decide (size > 0 ∧ start + size ≤ addr) = true := by
      simp only [decide_eq_true_eq]; exact ⟨z1, z2⟩
    rw [hb]
    rfl

/-- **C18**: whatever the table, also an unsorted one, a reported symbol never starts above
the address. -/
theorem C18_never_above (addr : Nat) (opts : FindSymOpts) (r : ResolvedSym)
    (h : findSym ctx addr opts = .ok (.ok r)) : r.addr ≤ addr := by
  rw [findSym_unfold] at h
  cases hf : ctx.findAddr addr with
  | none => rw [hf] at h; cases h
  | some i =>
    rw [hf] at h
    simp only at h
    obtain ⟨sa, h1, h⟩ := bind_ok h
    split_ifs at h with hab
    · cases h
    obtain ⟨info, h2, h⟩ := bind_ok h
    obtain ⟨b, h3, h⟩ := bind_ok h
    cases b with
    | true => cases h
    | false =>
      simp only [Bool.false_eq_true, if_false] at h
      obtain ⟨name, h4, h⟩ := bind_ok h
      obtain ⟨r', h5, h⟩ := bind_ok h
      cases h
      obtain ⟨k1, _⟩ := fill_keeps h5
      rw [k1]
      simp only
      omega

/-- **C18**: a plain lookup fails only with an invalid data error, or panics on an entry
whose end is beyond the address space; the latter is a defect. -/
theorem C18_errors (ha : c.addr % 8 = 0) (hd : Describes c.data f) (hp : parseHeader c = .ok ctx)
    (hw : f.width = 1 ∨ f.width = 2 ∨ f.width = 4 ∨ f.width = 8) (hs : Ascending f) (addr : Nat)
    (haddr : addr < 2 ^ 64) (e : Err) (h : findSym ctx addr .basic = .error e) :
    e = .invalidData ∧ (∃ (i : Nat) (o info size nm : Nat), f.offsets[i]? = some o ∧ f.infos[i]? = some info ∧
        IsGreatestStart f addr (f.base + o) ∧ (c.data.length < info + 8 ∨
          InfoAt c.data info size nm ∧ ∀ name, NameAt f.strs nm name → isUtf8 name = false)) ∨
      e = .panic ∧ ∃ (i : Nat) (o info size nm : Nat), f.offsets[i]? = some o ∧ f.infos[i]? = some info ∧
        InfoAt c.data info size nm ∧ 0 < size ∧ 2 ^ 64 ≤ f.base + o + size := by
  obtain ⟨ctx', hp', hr⟩ := parseHeader_complete (by omega) hd
  rw [hp] at hp'; cases hp'
  rw [findSym_unfold] at h
  cases hf : ctx.findAddr addr with
  | none => rw [hf] at h; cases h
  | some i =>
    rw [hf] at h
    obtain ⟨o, ho, hg⟩ := findAddr_greatest hr ha hw hs addr i hf
    obtain ⟨io, hio⟩ : ∃ io, f.infos[i]? = some io :=
      ⟨f.infos[i]'(by rw [hr.infoLen]; exact (List.getElem?_eq_some_iff.mp ho).1),
        List.getElem?_eq_getElem _⟩
    simp only at h
    rw [addrAt_eq hr hw ho] at h
    unfold checkedAdd at h
    rw [if_pos (by unfold u64Size; have := hg.1; omega)] at h
    simp only [orInvalid, bind, Except.bind] at h
    rw [if_neg (by have := hg.1; omega), addrInfo_eq hr hio] at h
    split_ifs at h with hlen
    · simp only at h
      cases hbe : beyond (f.base + o) (field c.data io 4) addr with
      | error e' =>
        rw [hbe] at h
        cases h
        obtain ⟨b1, b2, b3⟩ := beyond_err hbe
        exact Or.inr ⟨b1, i, o, io, _, _, ho, hio, (infoAt_iff _ _ _ _).mpr ⟨hlen, rfl, rfl⟩, b2, b3⟩
      | ok b =>
        rw [hbe] at h
        simp only at h
        cases b with
        | true => cases h
        | false =>
          simp only [Bool.false_eq_true, if_false] at h
          cases hn : ctx.getUtf8 (field c.data (io + 4) 4) with
          | some n => rw [hn] at h; simp only [fillCodeInfo, FindSymOpts.wantsCodeInfo] at h; cases h
          | none =>
            rw [hn] at h
            cases h
            refine Or.inl ⟨rfl, i, o, io, _, _, ho, hio, hg,
              Or.inr ⟨(infoAt_iff _ _ _ _).mpr ⟨hlen, rfl, rfl⟩, fun name hname => ?_⟩⟩
            cases hu : isUtf8 name with
            | false => rfl
            | true =>
              have : ctx.getUtf8 (field c.data (io + 4) 4) = some name := by
                rw [getUtf8_iff, hr.strs]; exact ⟨hname, hu⟩
              rw [hn] at this; cases this
    · cases h
      exact Or.inl ⟨rfl, i, o, io, 0, 0, ho, hio, hg, Or.inl (by omega)⟩

/-- **C18** (defect): looking up an address in an entry whose end exceeds the address space
panics. -/
theorem C18_overflow_panics (ha : c.addr % 8 = 0) (hd : Describes c.data f)
    (hp : parseHeader c = .ok ctx)
    (hw : f.width = 1 ∨ f.width = 2 ∨ f.width = 4 ∨ f.width = 8) (hs : Ascending f) (addr : Nat)
    (haddr : addr < 2 ^ 64) (i start size : Nat) (name : Bytes) (opts : FindSymOpts)
    (he : EntryIs c.data f i start size name) (hg : IsGreatestStart f addr start)
    (hone : ∀ j, f.offsets[j]? = f.offsets[i]? → j = i)
    (hcov : 0 < size ∧ 2 ^ 64 ≤ start + size) :
    findSym ctx addr opts = .error .panic := by
  obtain ⟨ctx', hp', hr⟩ := parseHeader_complete (by omega) hd
  rw [hp] at hp'; cases hp'
  obtain ⟨o, info, nm, e1, e2, e3, e4, e5⟩ := he
  obtain ⟨g1, _, g3⟩ := hg
  have hf : ctx.findAddr addr = some i := by
    cases hf : ctx.findAddr addr with
    | none =>
      have := (findAddr_none hr ha hw hs addr).mp hf o (List.mem_of_getElem? e1)
      omega
    | some j =>
      obtain ⟨o', ho', k1, _, k3⟩ := findAddr_greatest hr ha hw hs addr j hf
      have t1 := k3 o (List.mem_of_getElem? e1) (by omega)
      have t2 := g3 o' (List.mem_of_getElem? ho') k1
      have : o' = o := by omega
      rw [hone j (by rw [ho', e1, this])]
  obtain ⟨i1, i2, i3⟩ := (infoAt_iff _ _ _ _).mp e4
  rw [findSym_unfold, hf]
  simp only
  rw [addrAt_eq hr hw e1]
  unfold checkedAdd
  rw [if_pos (by unfold u64Size; omega), ← e2]
  simp only [orInvalid, bind, Except.bind]
  rw [if_neg (by omega), addrInfo_eq hr e3, if_pos i1]
  simp only
  rw [← i2, ← i3]
  unfold beyond addU64
  rw [if_pos hcov.1, if_neg (by unfold u64Size; omega)]
  rfl

/-- **C18**: a file with address table entries of another width has no known addresses. -/
theorem C18_bad_width (ha : c.addr % 4 = 0) (hd : Describes c.data f)
    (hp : parseHeader c = .ok ctx)
    (hw : ¬ (f.width = 1 ∨ f.width = 2 ∨ f.width = 4 ∨ f.width = 8)) (addr : Nat)
    (opts : FindSymOpts) : findSym ctx addr opts = .ok (.error .unknownAddr) := by
  obtain ⟨ctx', hp', hr⟩ := parseHeader_complete ha hd
  rw [hp] at hp'; cases hp'
  have : ctx.findAddr addr = none := by
    unfold Context.findAddr
    rw [hr.width]
    split_ifs
    · push Not at hw
      split
      · exact absurd ‹_› hw.1
      · exact absurd ‹_› hw.2.1
      · exact absurd ‹_› hw.2.2.1
      · exact absurd ‹_› hw.2.2.2
      · rfl
    · rfl
  rw [findSym_unfold, this]

/-- **C18** (defect): data that is not at an address that is a multiple of the width of an
address table entry (possible when GSYM data is passed as a byte slice) has no known
addresses, whatever its contents. -/
theorem C18_unaligned_unknown (ha : c.addr % 4 = 0) (hd : Describes c.data f)
    (hp : parseHeader c = .ok ctx) (hw : f.width = 8) (hu : c.addr % 8 ≠ 0) (addr : Nat)
    (opts : FindSymOpts) : findSym ctx addr opts = .ok (.error .unknownAddr) := by
  obtain ⟨ctx', hp', hr⟩ := parseHeader_complete ha hd
  rw [hp] at hp'; cases hp'
  have : ctx.findAddr addr = none := by
    unfold Context.findAddr
    rw [hr.width, hw]
    split_ifs
    · simp only
      unfold findAddrImpl
      cases hx : readPodSliceRef 8 8 ctx.numAddrs ctx.addrTab with
      | mk r c' =>
        cases r with
        | error e => rfl
        | ok out =>
          have := (C11_read_pod_slice_ref 8 8 _ (by norm_num) _ _ _ hx).1
          rw [hr.tabAddr] at this
          omega
    · rfl
  rw [findSym_unfold, this]

end

/-! ### An example file: `a` at 0x1000 (16 bytes), `b` at 0x1020 (unknown size) -/

def sample : Bytes :=
  [0x4d, 0x59, 0x53, 0x47, 1, 0, 2, 0,  0, 0x10, 0, 0, 0, 0, 0, 0,  2, 0, 0, 0, 72, 0, 0, 0,
   5, 0, 0, 0] ++ List.replicate 20 0 ++
  [0, 0, 0x20, 0,  80, 0, 0, 0, 92, 0, 0, 0,  1, 0, 0, 0,  0, 0, 0, 0, 1, 0, 0, 0,
   0, 97, 0, 98, 0,  0, 0, 0,  16, 0, 0, 0, 1, 0, 0, 0, 0, 0, 0, 0,
   0, 0, 0, 0, 3, 0, 0, 0, 0, 0, 0, 0]

def sampleFile : GsymFile :=
  { width := 2, base := 0x1000, offsets := [0, 0x20], infos := [80, 92], files := [(0, 1)],
    strs := [0, 97, 0, 98, 0] }

theorem sample_describes : Describes sample sampleFile := by
  constructor
  · rw [num_iff]; decide
  · rw [num_iff]; decide
  · rw [num_iff]; decide
  · rw [num_iff]; decide
  · rw [num_iff]; decide
  · refine ⟨72, ?_⟩
    rw [num_iff, num_iff, isSlice_iff]; decide
  · intro i o h
    rw [num_iff]
    rcases i with _ | _ | i
    · cases h; decide
    · cases h; decide
    · simp [sampleFile] at h
  · rfl
  · intro i o h
    rw [num_iff]
    rcases i with _ | _ | i
    · cases h; decide
    · cases h; decide
    · simp [sampleFile] at h
  · rw [num_iff]; decide
  · intro i o h
    rw [num_iff, num_iff]
    rcases i with _ | i
    · cases h; decide
    · simp [sampleFile] at h

theorem sample_ctx : ∃ ctx, parseHeader ⟨0, sample⟩ = .ok ctx :=
  ((C18_parse ⟨0, sample⟩ rfl).1).mpr ⟨_, sample_describes⟩

/-- The entry `a` of the sample. -/
theorem sample_entry : EntryIs sample sampleFile 0 0x1000 16 [97] :=
  ⟨0, 80, 1, rfl, rfl, rfl, by rw [infoAt_iff]; decide, [98, 0], rfl, by simp⟩

example : ∃ ctx, parseHeader ⟨0, sample⟩ = .ok ctx ∧
    findSym ctx 0x1005 .basic = .ok (.ok ⟨[97], none, 0x1000, some 16, .unknown, none, []⟩) ∧
    findSym ctx 0x1015 .basic = .ok (.error .unknownAddr) ∧
    findSym ctx 0xfff .basic = .ok (.error .unknownAddr) := by
  obtain ⟨ctx, h⟩ := sample_ctx
  refine ⟨ctx, h, ?_, ?_, ?_⟩
  · refine C18_lookup_complete_partial rfl sample_describes h (by decide)
      (by simp [Ascending, sampleFile]) 0x1005 (by norm_num) 0 _ _ _ sample_entry
      ⟨by norm_num, ⟨0, by simp [sampleFile], rfl⟩, by simp [sampleFile]⟩ ?_ (by norm_num) (by decide +kernel)
    intro j hj
    rcases j with _ | _ | j
    · rfl
    · simp [sampleFile] at hj
    · simp [sampleFile] at hj
  · refine C18_gap rfl sample_describes h (by decide) (by simp [Ascending, sampleFile]) 0x1015
      (by norm_num) _ 0x1000 ⟨by norm_num, ⟨0, by simp [sampleFile], rfl⟩, by simp [sampleFile]⟩ ?_ ?_
    · intro i o info size nm h1 h2 h3 h4
      rcases i with _ | _ | i
      · cases h3
        rw [infoAt_iff] at h4
        obtain ⟨_, rfl, _⟩ := h4
        decide
      · cases h1; simp [sampleFile] at h2
      · simp [sampleFile] at h1
    · intro info hi
      simp only [sampleFile, List.mem_cons, List.not_mem_nil, or_false] at hi
      rcases hi with rfl | rfl
      · exact ⟨16, 1, by rw [infoAt_iff]; decide⟩
      · exact ⟨0, 3, by rw [infoAt_iff]; decide⟩
  · exact C18_below rfl sample_describes h (by decide) (by simp [Ascending, sampleFile]) 0xfff _
      (by simp [sampleFile])

/-- **C18** (defect): the same bytes are read differently when they are at an address that
is not a multiple of four, because the tables are aligned by address instead of by file
offset: looking up the address found above fails. -/
theorem C18_unaligned_misread :
    (parseHeader ⟨2, sample⟩ >>= fun ctx => findSym ctx 0x1005 .basic) = .error .invalidData := by
  decide +kernel

example : ∃ ctx, parseHeader ⟨4, sample⟩ = .ok ctx :=
  ((C18_parse ⟨4, sample⟩ rfl).1).mpr ⟨_, sample_describes⟩

end Blazesym.Gsym
