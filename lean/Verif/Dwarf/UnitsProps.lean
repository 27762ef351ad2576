import Verif.Dwarf.UnitsLemmas

/-! # C36: the units containing an address -/

set_option autoImplicit false

namespace Blazesym.Dwarf
open Blazesym.Util Blazesym.Spec.Dwarf

/-- **C36** (what is accepted): units are available if all of them can be decoded as far as their
ranges are concerned. -/
theorem C36_accepted (σ : Sorter) (s : Sections) (h : SectionsOk s) : ∃ u, parseUnits σ s = .ok u := by
  obtain ⟨⟨ur, us⟩, hr⟩ := headersLoop_isOk σ (sortedSets σ s) s.headers [] []
    (fun x hx => parseHeader_isOk σ s x (h.units x hx))
  unfold sortedSets at hr
  unfold parseUnits
  rw [h.aranges, h.headers]
  simp only [finish, bind, Except.bind, pure, Except.pure, hr]
  exact ⟨_, rfl⟩

/-- **C36** (only decodable data): a failure to decode `.debug_aranges` or the unit headers is
reported. -/
theorem C36_failure (σ : Sorter) (s : Sections) (h : s.arangesFail ≠ none ∨ s.headersFail ≠ none) :
    ∃ e, parseUnits σ s = .error e := by
  cases hp : parseUnits σ s with
  | error e => exact ⟨e, rfl⟩
  | ok u =>
    obtain ⟨_, _, _, h1, h2, _⟩ := parseUnits_ok hp
    rcases h with h | h
    · exact absurd h1 h
    · exact absurd h2 h

/-- **C36** (which units are known): those in `.debug_info` that are not type units and that can be
decoded, in the order of their headers. -/
theorem C36_kept (σ : Sorter) (s : Sections) (u : Units) (h : parseUnits σ s = .ok u) :
    (u.units.map (fun x => x.header)).Sublist s.headers ∧
    ∀ hd, (∃ x ∈ u.units, x.header = hd) ↔ hd ∈ s.headers ∧ Kept s hd := by
  obtain ⟨l, h1, h2, _, _, h3, _⟩ := parseUnits_ok h
  have hsub : ∀ hs : List Header, (∀ x ∈ hs, ∃ o, parseHeader σ (sortedSets σ s) x = .ok o) →
      (((hs.filterMap (fun h => match parseHeader σ (sortedSets σ s) h with
        | .ok o => o | .error _ => none)).map Prod.snd).map (fun x => x.header)).Sublist hs := by
    intro hs
    induction hs with
    | nil => intro _; exact List.Sublist.slnil
    | cons a t ih =>
      intro hall
      have iht := ih (fun x hx => hall x (List.mem_cons_of_mem _ hx))
      obtain ⟨o, ho⟩ := hall a List.mem_cons_self
      rw [List.filterMap_cons, ho]
      rcases parseHeader_ok ho with ⟨hn, _⟩ | ⟨rs, un, hs, hh, _⟩
      · rw [hn]; exact List.Sublist.cons _ iht
      · rw [hs]
        simp only [List.map_cons, hh]
        exact List.Sublist.cons_cons _ iht
  refine ⟨?_, ?_⟩
  · rw [h3, h1]; exact hsub _ h2
  · intro hd
    rw [h3]
    constructor
    · rintro ⟨x, hx, hxh⟩
      obtain ⟨⟨rs, un⟩, hy, hyx⟩ := List.mem_map.mp hx
      rw [h1, List.mem_filterMap] at hy
      obtain ⟨a, ha, hay⟩ := hy
      obtain ⟨o, ho⟩ := h2 a ha
      rw [ho] at hay
      simp only at hay
      rcases parseHeader_ok ho with ⟨hn, _⟩ | ⟨rs', un', hs, hh, hk, _⟩
      · rw [hn] at hay; cases hay
      · rw [hs] at hay
        simp only [Option.some.injEq, Prod.mk.injEq] at hay
        simp only at hyx
        rw [← hxh, ← hyx, ← hay.2, hh]
        exact ⟨ha, hk⟩
    · rintro ⟨hm, hk⟩
      obtain ⟨o, ho⟩ := h2 hd hm
      rcases parseHeader_ok ho with ⟨_, hn, _⟩ | ⟨rs', un', hs, hh, _, _⟩
      · exact absurd hk hn
      · refine ⟨un', List.mem_map.mpr ⟨(rs', un'), ?_, rfl⟩, hh⟩
        rw [h1, List.mem_filterMap]
        exact ⟨hd, hm, by rw [ho]; exact hs⟩

/-- **C36** (the ranges in reverse order): searching for the ranges that have an address in common with
a range yields exactly those, with greater starts first. -/
theorem C36_ranges (σ : Sorter) (s : Sections) (u : Units) (h : parseUnits σ s = .ok u) (lo hi : Nat) :
    ∃ found, u.findRanges lo hi = .ok found ∧
      found.Pairwise (fun a b => b.range.start ≤ a.range.start) ∧
      found.reverse.Sublist u.unitRanges ∧
      ∀ x, x ∈ found ↔ x ∈ u.unitRanges ∧ lo < x.range.stop ∧ x.range.start < hi := by
  obtain ⟨_, _, _, _, _, _, hp, _⟩ := parseUnits_ok h
  refine ⟨_, findRanges_eq u 0 hp lo hi, ?_, ?_, ?_⟩
  · rw [List.pairwise_reverse]
    exact hp.sorted.sublist List.filter_sublist
  · rw [List.reverse_reverse]; exact List.filter_sublist
  · intro x
    rw [List.mem_reverse, List.mem_filter]
    simp [overlaps]

/-- **C36** (exactly the units): searching for the units of an address yields the units that declare a
range containing it, whatever the overlap and nesting of ranges.
Partial: the greatest address, for which it is false (`C36_max_wrong`). -/
theorem C36_units_partial (σ : Sorter) (s : Sections) (u : Units) (h : parseUnits σ s = .ok u) (addr : Nat)
    (ha : addr + 1 < 2 ^ 64) :
    ∃ found, u.findUnits addr = .ok found ∧
      ∀ hd, (∃ x ∈ found, x.header = hd) ↔
        hd ∈ s.headers ∧ ∃ r, Declares s hd r ∧ r.start ≤ addr ∧ addr < r.stop := by
  obtain ⟨l, h1, h2, _, _, h3, hp, h4⟩ := parseUnits_ok h
  have hfr := findRanges_eq u 0 hp addr (addr + 1)
  have hadd : addU64 addr 1 = .ok (addr + 1) := if_pos (by simpa [u64Size] using ha)
  obtain ⟨found, hf1, hf2⟩ := ofRanges_ok u (u.unitRanges.filter (overlaps addr (addr + 1))).reverse (by
    intro r hr
    rw [List.mem_reverse, List.mem_filter] at hr
    obtain ⟨rs, un, hl, _⟩ := (h4 r.unitId r.range).mp ⟨r, hr.1, rfl, rfl⟩
    exact ⟨un, by rw [h3, List.getElem?_map, hl]; rfl⟩)
  refine ⟨found, ?_, ?_⟩
  · unfold Units.findUnits
    rw [hadd]
    simp only [bind, Except.bind, hfr, hf1]
  · intro hd
    constructor
    · rintro ⟨x, hx, hxh⟩
      obtain ⟨r, hr, hrx⟩ := (hf2 x).mp hx
      rw [List.mem_reverse, List.mem_filter] at hr
      simp only [overlaps, decide_eq_true_eq] at hr
      obtain ⟨rs, un, hl, hrr⟩ := (h4 r.unitId r.range).mp ⟨r, hr.1, rfl, rfl⟩
      rw [h3, List.getElem?_map, hl] at hrx
      simp only [Option.map_some, Option.some.injEq] at hrx
      have hm := List.mem_of_getElem? hl
      rw [h1, List.mem_filterMap] at hm
      obtain ⟨a, ham, hay⟩ := hm
      obtain ⟨o, ho⟩ := h2 a ham
      rw [ho] at hay
      simp only at hay
      rcases parseHeader_ok ho with ⟨hn, _⟩ | ⟨rs', un', hs, hh, _, hdec⟩
      · rw [hn] at hay; cases hay
      · rw [hs] at hay
        simp only [Option.some.injEq, Prod.mk.injEq] at hay
        have : a = hd := by rw [← hh, hay.2, hrx, hxh]
        subst this
        exact ⟨ham, r.range, (hdec r.range).mp (by rw [hay.1]; exact hrr), by omega, by omega⟩
    · rintro ⟨hm, r, hdr, hr1, hr2⟩
      obtain ⟨o, ho⟩ := h2 hd hm
      rcases parseHeader_ok ho with ⟨_, _, hn⟩ | ⟨rs', un', hs, hh, _, hdec⟩
      · exact absurd hdr (hn r)
      · have hmem : (rs', un') ∈ l := by
          rw [h1, List.mem_filterMap]
          exact ⟨hd, hm, by rw [ho]; exact hs⟩
        obtain ⟨i, hi⟩ := List.mem_iff_getElem?.mp hmem
        obtain ⟨x, hx, hxi, hxr⟩ := (h4 i r).mpr ⟨rs', un', hi, (hdec r).mpr hdr⟩
        refine ⟨un', (hf2 un').mpr ⟨x, ?_, ?_⟩, hh⟩
        · rw [List.mem_reverse, List.mem_filter]
          simp only [overlaps, decide_eq_true_eq]
          exact ⟨hx, by rw [hxr]; omega, by rw [hxr]; omega⟩
        · rw [h3, List.getElem?_map, hxi, hi]; rfl

/-- **C36** (the last address, negation): searching for the units of the greatest address overflows. -/
theorem C36_max_wrong (u : Units) : u.findUnits (2 ^ 64 - 1) = .error .panic := by
  unfold Units.findUnits
  have : addU64 (2 ^ 64 - 1) 1 = .error .panic := if_neg (by decide)
  rw [this]; rfl

/-! ### Examples -/

/-- A unit with entries but no line program. -/
def exMain (attrs : List Attr) : MainUnit where
  dies := { version := 4, entries := fun _ => .ok [(11, .entry ⟨.other, false, attrs, none⟩)] }
  compDir := none
  line := none
  dwo := .ok none

def exHeader (off : Nat) (attrs : List Attr) : Header where
  inInfo := true
  offset := off
  kind := .compile
  valid := fun n => decide (11 ≤ n)
  unit := .ok (exMain attrs)

/-- Two units: the second is nested in the range `.debug_aranges` has for the first. -/
def exSections : Sections where
  aranges := [⟨0, .ok [.ok ⟨0x1000, 0x2000⟩, .error .invalidDwarf]⟩]
  arangesFail := none
  headers := [exHeader 0 [], exHeader 64 [⟨.lowPc, .addr 0x1800⟩, ⟨.highPc, .udata 0x100⟩]]
  headersFail := none

theorem exSections_ok : SectionsOk exSections where
  aranges := rfl
  headers := rfl
  units := by
    intro h hm _ _
    simp only [exSections, List.mem_cons, List.not_mem_nil, or_false] at hm
    rcases hm with rfl | rfl
    · refine ⟨by intro set hset _; simp only [exSections, List.mem_singleton] at hset; subst hset; exact ⟨_, rfl⟩, ?_⟩
      intro hno
      exact absurd ⟨_, List.mem_singleton.mpr rfl, rfl, _, rfl, List.mem_cons_self, by decide⟩ (hno ⟨0x1000, 0x2000⟩)
    · refine ⟨by intro set hset _; simp only [exSections, List.mem_singleton] at hset; subst hset; exact ⟨_, rfl⟩, ?_⟩
      intro _ main hmain
      have := Except.ok.inj hmain
      subst this
      refine ⟨_, _, _, rfl, .inr ⟨_, rfl, rfl, ?_, ?_, ?_, ?_⟩⟩
      · intro a ha _ e he
        simp only [List.mem_cons, List.not_mem_nil, or_false] at ha
        rcases ha with rfl | rfl <;> cases he
      · intro a ha hr
        simp only [List.mem_cons, List.not_mem_nil, or_false] at ha
        rcases ha with rfl | rfl <;> cases hr
      · intro l hl; cases hl
      · intro r hr _
        have := Option.some.inj hr
        subst this
        decide

theorem exSections_declares :
    Declares exSections (exHeader 0 []) ⟨0x1000, 0x2000⟩ ∧
    Declares exSections (exHeader 64 [⟨.lowPc, .addr 0x1800⟩, ⟨.highPc, .udata 0x100⟩]) ⟨0x1800, 0x1900⟩ := by
  refine ⟨⟨rfl, rfl, .inl ⟨_, List.mem_singleton.mpr rfl, rfl, _, rfl, List.mem_cons_self, by decide⟩⟩,
    rfl, rfl, .inr ⟨?_, _, _, rfl, ⟨_, _, rfl⟩, .inl (by decide)⟩⟩
  rintro r ⟨set, hset, hoff, _⟩
  simp only [exSections, List.mem_singleton] at hset
  subst hset
  cases hoff

/-- The example is accepted, and both units are found for an address in the nested range. -/
example (σ : Sorter) : ∃ u found, parseUnits σ exSections = .ok u ∧ u.findUnits 0x1850 = .ok found ∧
    (∃ x ∈ found, x.header = exHeader 0 []) ∧
    ∃ x ∈ found, x.header = exHeader 64 [⟨.lowPc, .addr 0x1800⟩, ⟨.highPc, .udata 0x100⟩] := by
  obtain ⟨u, hu⟩ := C36_accepted σ exSections exSections_ok
  obtain ⟨found, h1, h2⟩ := C36_units_partial σ exSections u hu 0x1850 (by decide)
  exact ⟨u, found, hu, h1,
    (h2 _).mpr ⟨List.mem_cons_self, _, exSections_declares.1, by decide, by decide⟩,
    (h2 _).mpr ⟨List.mem_cons_of_mem _ List.mem_cons_self, _, exSections_declares.2, by decide, by decide⟩⟩

/-- **C36** (overlong code, negation): a unit whose code would go beyond the end of the address space
makes the parser panic. -/
theorem C36_overflow_wrong (σ : Sorter) :
    parseHeader σ [] (exHeader 0 [⟨.lowPc, .addr (2 ^ 64 - 1)⟩, ⟨.highPc, .udata 1⟩]) = .error .panic := rfl

end Blazesym.Dwarf
