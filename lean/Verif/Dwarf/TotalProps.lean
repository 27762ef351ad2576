import Verif.Dwarf.NameProps
import Verif.Dwarf.TotalSpec

/-! # C64: symbolization succeeds if the DWARF data is in order -/

set_option autoImplicit false

namespace Blazesym.Dwarf
open Blazesym.Util Blazesym.Symbolize Blazesym.Spec.Dwarf

/-- The entries of a unit are determined by its header. -/
theorem entriesOf_unique {hd : Header} {d d' : DieUnit} {st st' : Stream} (h : EntriesOf hd d st)
    (h' : EntriesOf hd d' st') : d = d' ∧ st = st' := by
  obtain ⟨m, a1, a2, a3⟩ := h
  obtain ⟨m', b1, b2, b3⟩ := h'
  rw [a1] at b1
  have := Except.ok.inj b1
  subst this
  have hdd : d = d' := by
    rcases a2 with a2 | ⟨a2, rfl⟩ <;> rcases b2 with b2 | ⟨b2, rfl⟩ <;> rw [a2] at b2 <;> simp at b2
    · exact b2
  subst hdd
  rw [a3] at b3
  exact ⟨rfl, Except.ok.inj b3⟩

/-- **C62** (acceptance): the search for a function in all units succeeds if the entries of the units that
declare the address can be decoded. -/
theorem C62_file_accepted (σ : Sorter) (s : Sections) (u : Units) (hu : parseUnits σ s = .ok u)
    (hs : HeadersSorted s) (addr : Nat) (ha : addr + 1 < 2 ^ 64)
    (hok : ∀ hd, UnitFor s addr hd → ∃ d stream, EntriesOf hd d stream ∧ StreamOk u.units d stream) :
    ∃ o, u.findFunction σ addr = .ok o := by
  obtain ⟨found, h1, h2⟩ := C36_units_partial σ s u hu addr ha
  unfold Units.findFunction
  simp only [h1, bind, Except.bind]
  refine firstSome_isOk _ found ?_
  intro unit hm
  obtain ⟨d, stream, ⟨main, m1, m2, m3⟩, k⟩ := hok unit.header ((h2 _).mp ⟨unit, hm, rfl⟩)
  obtain ⟨fns, hf⟩ := C62_accepted σ u.units (units_sorted hu hs) d stream m3 k
  refine C62_answer σ u.units (units_sorted hu hs) unit fns ?_ addr
  unfold Unit.functions
  rw [(unitRef_iff unit d).mpr ⟨main, m1, m2⟩]
  exact hf

theorem unitLines_isOk (σ : Sorter) {u : Unit} {main : MainUnit} (hm : u.header.unit = .ok main)
    (hl : ∀ p, main.line = some p → LinesOk p) :
    ∃ o, u.lines σ = .ok o ∧ ∀ lines, o = some lines → ∀ addr, ∃ loc, lines.findLocation addr = .ok loc := by
  unfold Unit.lines
  simp only [hm, bind, Except.bind]
  cases hp : main.line with
  | none => exact ⟨none, rfl, by simp⟩
  | some p =>
    have hok := hl p hp
    obtain ⟨lines, h⟩ := (C37_accepted σ main.compDir p).mpr ⟨hok.fail, hok.files⟩
    simp only [h]
    refine ⟨some lines, rfl, ?_⟩
    intro l hl addr
    rw [← Option.some.inj hl]
    exact C37_no_panic h hok.rows addr

/-- **C37** (acceptance): the search for a location in all units succeeds if the line programs of the
units that declare the address are in order. -/
theorem C37_file_accepted (σ : Sorter) (s : Sections) (u : Units) (hu : parseUnits σ s = .ok u)
    (addr : Nat) (ha : addr + 1 < 2 ^ 64)
    (hok : ∀ hd, UnitFor s addr hd → ∃ main, hd.unit = .ok main ∧ ∀ p, main.line = some p → LinesOk p) :
    ∃ o, u.findLocation σ addr = .ok o := by
  obtain ⟨found, h1, h2⟩ := C36_units_partial σ s u hu addr ha
  have : ∃ o, firstSome (fun unit => unit.findLocation σ addr) found = .ok o := by
    refine firstSome_isOk _ found ?_
    intro unit hm
    obtain ⟨main, m1, m2⟩ := hok unit.header ((h2 _).mp ⟨unit, hm, rfl⟩)
    obtain ⟨o, k1, k2⟩ := unitLines_isOk σ m1 m2
    unfold Unit.findLocation
    simp only [k1, bind, Except.bind]
    cases o with
    | none => exact ⟨_, rfl⟩
    | some lines => exact k2 lines rfl addr
  obtain ⟨o, ho⟩ := this
  unfold Units.findLocation
  simp only [h1, ho, bind, Except.bind]
  exact ⟨_, rfl⟩

theorem langScan_isOk : ∀ (attrs : List Attr), ∃ l, langScan none attrs = .ok l := by
  intro attrs
  induction attrs with
  | nil => exact ⟨_, rfl⟩
  | cons a t ih =>
    rw [langScan]
    split
    · cases a.value <;> exact ⟨_, rfl⟩
    · exact ih

theorem language_isOk {u : Unit} {main : MainUnit} (hm : u.header.unit = .ok main) {e : Entry}
    (he : RootEntry main e) (hf : e.fail = none) : ∃ l, u.language = .ok l := by
  obtain ⟨off, rest, he⟩ := he
  unfold Unit.language
  simp only [hm, bind, Except.bind, he, hf]
  split
  · exact langScan_isOk _
  · exact ⟨_, rfl⟩

/-- **C64** (symbolization succeeds): for every address, whatever is wanted, if the units that declare
the address are in order and the ELF symbol table can be searched. -/
theorem C64_total (σ : Sorter) (s : Sections) (r : Resolver) (hu : parseUnits σ s = .ok r.units)
    (hs : HeadersSorted s) (addr : Nat) (ha : addr + 1 < 2 ^ 64) (opts : FindSymOpts)
    (hok : ∀ hd, UnitFor s addr hd → UnitOk r.units.units hd)
    (helf : ∃ res, r.elfFindSym addr opts = .ok res) : ∃ res, r.findSym σ addr opts = .ok res := by
  obtain ⟨o, ho⟩ := C62_file_accepted σ s r.units hu hs addr ha (by
    intro hd hun
    obtain ⟨d, stream, h1, h2, _⟩ := (hok hd hun).entries
    exact ⟨d, stream, h1, h2⟩)
  obtain ⟨loc, hloc⟩ := C37_file_accepted σ s r.units hu addr ha (by
    intro hd hun
    obtain ⟨main, h1, _, h2⟩ := (hok hd hun).main
    exact ⟨main, h1, h2⟩)
  cases o with
  | none =>
    obtain ⟨res, helf⟩ := helf
    unfold Resolver.findSym
    simp only [ho, helf, bind, Except.bind]
    cases res with
    | error reason => exact ⟨_, rfl⟩
    | ok sym =>
      have : ∃ sym', r.units.fillCodeInfo σ sym addr opts none = .ok sym' := by
        unfold Units.fillCodeInfo
        split
        · exact ⟨_, rfl⟩
        · simp only [hloc, bind, Except.bind]
          cases loc with
          | none => exact ⟨_, rfl⟩
          | some loc => simp only; split <;> exact ⟨_, rfl⟩
      obtain ⟨sym', h⟩ := this
      simp only [h]
      exact ⟨_, rfl⟩
  | some fu =>
    obtain ⟨f, unit⟩ := fu
    obtain ⟨hun, d, x, hd, ⟨stream, hst, hx, hcov⟩, hdesc⟩ := C64_found σ s r.units hu hs addr ha f unit ho
    have hgood := hok _ hun
    obtain ⟨main, hm, ⟨e, he1, he2⟩, hlines⟩ := hgood.main
    obtain ⟨d', stream', hst', hsok, hap, hfns⟩ := hgood.entries
    obtain ⟨rfl, rfl⟩ := entriesOf_unique hst hst'
    have hfn := hfns x hx
    obtain ⟨children, c1, c2, c3, c4⟩ := hfn.inlined
    obtain ⟨lines, l1, _⟩ := unitLines_isOk σ hm hlines
    obtain ⟨sym, hsym⟩ := C64_accepted σ r addr opts f unit ho
      (fun n hn => hfn.name n (by rw [← hn]; exact hdesc.2.1))
      (fun rg hrg => hfn.span rg (by rw [← hrg]; exact hdesc.2.2.symm))
      (language_isOk hm he1 he2)
      (fun _ => ⟨_, hloc⟩)
      (fun _ => ⟨lines, l1⟩)
      (fun _ => by
        rw [← hdesc.1] at c1
        obtain ⟨fs, k1⟩ := C38_accepted σ r.units.units (units_sorted hu hs) d f.offset children c1 c3
        obtain ⟨found, k2, k3⟩ := C38_chain σ r.units.units (units_sorted hu hs) d f.offset children c1 c2 fs k1 addr
        refine ⟨found, ?_, ?_⟩
        · unfold Units.findInlined
          simp only [hd, k1, k2, bind, Except.bind]
        · intro fn hfm n hn
          obtain ⟨i, hi⟩ := List.mem_iff_getElem?.mp hfm
          obtain ⟨e, e1, e2⟩ := forall₂_get k3 hi
          exact c4 addr e (List.mem_of_getElem? e1) n (by rw [← hn]; exact e2.name))
    exact ⟨_, hsym⟩

end Blazesym.Dwarf
