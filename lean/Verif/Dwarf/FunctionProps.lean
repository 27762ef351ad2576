import Verif.Dwarf.FunctionLemmas
import Verif.Dwarf.UnitsProps

/-! # C62 and C63: functions and their names -/

set_option autoImplicit false

namespace Blazesym.Dwarf
open Blazesym.Util Blazesym.Spec.Dwarf

/-- **C63** (references): following a reference yields the name found after at most as many steps as
the limit says, if there is one. -/
theorem C63_reference (units : List Unit) (hs : UnitsSorted units) (limit : Nat) (unit : DieUnit)
    (v : AttrValue) (o : Option Bytes) (h : nameAttr units limit unit v = .ok o) (n : Bytes) :
    o = some n ↔ ∃ k, k ≤ limit ∧ NameAfter units k unit v n :=
  nameAttr_ok units hs limit unit v o h n

/-- **C63** (acceptance): following a reference succeeds if the entries on the way can be decoded, even
if the references form a cycle. -/
theorem C63_reference_accepted (units : List Unit) (hs : UnitsSorted units) (limit : Nat) (unit : DieUnit)
    (v : AttrValue) (h : RefsOk units limit unit v) : ∃ o, nameAttr units limit unit v = .ok o :=
  nameAttr_isOk units hs limit unit v h

/-- **C63** (dangling references): a reference to a place where there is no entry, because the unit ends there or the
entry cannot be decoded, is an error, and no name. -/
theorem C63_dangling (units : List Unit) (limit : Nat) (unit : DieUnit) (offset : Nat) :
    (unit.entries (some offset) = .ok [] → nameAttr units (limit + 1) unit (.unitRef offset) = .error .invalidDwarf) ∧
    (∀ (o : Nat) (rest : Stream), unit.entries (some offset) = .ok ((o, .null) :: rest) →
      nameAttr units (limit + 1) unit (.unitRef offset) = .error .invalidDwarf) ∧
    (∀ (o : Nat) (e : Err) (rest : Stream), unit.entries (some offset) = .ok ((o, .bad e) :: rest) →
      nameAttr units (limit + 1) unit (.unitRef offset) = .error e) ∧
    (∀ (e : Err), unit.entries (some offset) = .error e → nameAttr units (limit + 1) unit (.unitRef offset) = .error e) := by
  refine ⟨fun h => ?_, fun o rest h => ?_, fun o e rest h => ?_, fun e h => ?_⟩ <;>
    simp only [nameAttr, refTarget, bind, Except.bind, h, firstEntry]

/-- A unit without the entry that is referred to. -/
example : ∃ (unit : DieUnit), unit.entries (some 200) = .ok []
    ∧ nameAttr [] 16 unit (.unitRef 200) = .error .invalidDwarf :=
  ⟨⟨4, fun _ => .ok []⟩, rfl, (C63_dangling [] 15 _ 200).1 rfl⟩

/-- **C63** (the unit of a reference): a reference into another unit is resolved in the unit that has the
offset. -/
theorem C63_unit (units : List Unit) (hs : UnitsSorted units) (offset : Nat) (d : DieUnit) (rel : Nat) :
    findUnit units offset = .ok (d, rel) ↔ Located units offset d rel :=
  findUnit_iff units hs offset d rel

/-- **C63** (references that lead nowhere): a reference to no entry of any unit is an error of the debug
information, and any other error is that of reading the unit. -/
theorem C63_no_unit (units : List Unit) (hs : UnitsSorted units) (offset : Nat) (e : Err)
    (h : findUnit units offset = .error e) :
    e = .invalidDwarf ∨ ∃ u ∈ units, u.header.offset ≤ offset ∧ u.header.valid (offset - u.header.offset) = true
      ∧ u.unitRef = .error e := by
  have hs' : Spec.SortedBy units (fun u => u.header.offset) := hs.imp (fun h => Nat.le_of_lt h)
  have hc := binarySearchBy_contract units _ (cmpSorted_of_sortedBy units (fun u => u.header.offset) hs' offset)
  unfold findUnit at h
  cases hb : binarySearchBy units (fun u => compare u.header.offset offset) with
  | inl i => rw [hb] at h; exact .inl (Except.error.inj h).symm
  | inr i =>
    rw [hb] at h
    cases i with
    | zero => exact .inl (Except.error.inj h).symm
    | succ i =>
      have hl : i < units.length := by rw [hb] at hc; exact hc.1
      have hi : units[i]? = some units[i] := List.getElem?_eq_getElem hl
      simp only [hi] at h
      split at h
      · rename_i hv
        cases hu : units[i].unitRef with
        | ok d => rw [hu] at h; exact absurd h (by simp [bind, Except.bind, pure, Except.pure])
        | error e' =>
          rw [hu] at h
          have : e' = e := Except.error.inj h
          exact .inr ⟨units[i], List.getElem_mem _, hv.1, hv.2, by rw [← this]; exact hu⟩
      · exact .inl (Except.error.inj h).symm

/-- **C63** (names of functions): a function has its linkage name, or else the name its first suitable
attribute gives. -/
theorem C63_name (units : List Unit) (hs : UnitsSorted units) (unit : DieUnit) (fail : Option Err)
    (attrs : List Attr) (o : Option Bytes) (ra : RangeAttrs)
    (h : functionAttrs units unit fail attrs none {} = .ok (o, ra)) : HasName units unit attrs o :=
  nameUpdates_none units hs unit _ _ ((functionAttrs_ok _ _ _ _ _ _ _ _).mp h).2.1

/-- **C62** (acceptance): the functions of a unit are available if its entries can be decoded. -/
theorem C62_accepted (σ : Sorter) (units : List Unit) (hs : UnitsSorted units) (unit : DieUnit)
    (stream : Stream) (h1 : unit.entries none = .ok stream) (h2 : StreamOk units unit stream) :
    ∃ f, parseFunctions σ units unit = .ok f := by
  obtain ⟨⟨fs, as⟩, hr⟩ := functionsLoop_isOk units hs unit stream [] [] h2
  unfold parseFunctions
  simp only [h1, bind, Except.bind, hr]
  exact ⟨_, rfl⟩

/-- **C62** (the list of functions): exactly the functions with code, in the order of the entries. -/
theorem C62_functions (σ : Sorter) (units : List Unit) (hs : UnitsSorted units) (unit : DieUnit)
    (f : Functions) (h : parseFunctions σ units unit = .ok f) :
    ∃ stream, unit.entries none = .ok stream ∧
      List.Forall₂ (Describes units unit) (functionsIn stream) f.functions := by
  obtain ⟨stream, l, h1, h2, h3, h4⟩ := parseFunctions_ok hs h
  refine ⟨stream, h1, ?_⟩
  rw [h3]
  generalize functionsIn stream = xs at h2
  clear h3 h4
  induction h2 with
  | nil => exact List.Forall₂.nil
  | cons hab _ ih => exact List.Forall₂.cons hab.1 ih

/-- **C62** (soundness): a function found for an address has the address in its code. -/
theorem C62_found (σ : Sorter) (units : List Unit) (hs : UnitsSorted units) (u : Unit) (addr : Nat)
    (f : Function) (h : u.findFunction σ units addr = .ok (some f)) :
    ∃ d stream x, u.unitRef = .ok d ∧ d.entries none = .ok stream ∧ x ∈ functionsIn stream ∧
      Covers x.2 addr ∧ Describes units d x f := by
  unfold Unit.findFunction Unit.functions at h
  obtain ⟨fns, h1, h⟩ := bind_ok h
  obtain ⟨d, hd, h1⟩ := bind_ok h1
  obtain ⟨stream, l, h2, h3, h4, h5, h6⟩ := parseFunctions_ok hs h1
  unfold Functions.findAddress at h
  cases hb : binarySearchBy fns.addresses (fun a => rangeCmp addr a.range) with
  | inr i => rw [hb] at h; simp [pure, Except.pure] at h
  | inl i =>
    rw [hb] at h
    obtain ⟨a, ha, hcmp⟩ := search_found hb
    simp only [ha] at h
    rw [rangeCmp_eq, spanCmp_eq] at hcmp
    obtain ⟨j, g, rs, k1, k2, k3⟩ := (mem_addressed l 0 a).mp (h5.mem_iff.mp (List.mem_of_getElem? ha))
    rw [k2, h4, List.getElem?_map] at h
    simp only [Nat.zero_add, k1, Option.map_some, pure, Except.pure, Except.ok.injEq, Option.some.injEq] at h
    subst h
    obtain ⟨x, k4, k5⟩ := forall₂_get h3 k1
    exact ⟨d, stream, x, hd, h2, List.mem_of_getElem? k4, ⟨a.range, by rw [← k5.2]; exact k3, hcmp⟩, k5.1⟩

/-- **C62** (the search never panics and answers for every address). -/
theorem C62_answer (σ : Sorter) (units : List Unit) (hs : UnitsSorted units) (u : Unit) (fns : Functions)
    (h : u.functions σ units = .ok fns) (addr : Nat) : ∃ o, u.findFunction σ units addr = .ok o := by
  unfold Unit.findFunction
  rw [h]
  simp only [bind, Except.bind]
  unfold Unit.functions at h
  obtain ⟨d, hd, h1⟩ := bind_ok h
  obtain ⟨stream, l, h2, h3, h4, h5, h6⟩ := parseFunctions_ok hs h1
  unfold Functions.findAddress
  cases hb : binarySearchBy fns.addresses (fun a => rangeCmp addr a.range) with
  | inr i => exact ⟨_, rfl⟩
  | inl i =>
    obtain ⟨a, ha, _⟩ := search_found hb
    simp only [ha]
    obtain ⟨j, g, rs, k1, k2, k3⟩ := (mem_addressed l 0 a).mp (h5.mem_iff.mp (List.mem_of_getElem? ha))
    rw [k2, h4, List.getElem?_map]
    simp only [Nat.zero_add, k1, Option.map_some]
    exact ⟨_, rfl⟩

/-- **C62** (completeness): if functions are not nested, a function is found for every address
that is in the code of one. -/
theorem C62_complete (σ : Sorter) (units : List Unit) (hs : UnitsSorted units) (u : Unit) (d : DieUnit)
    (stream : Stream) (hd : u.unitRef = .ok d) (hst : d.entries none = .ok stream)
    (hap : FunctionsInOrder stream) (x : Nat × Entry) (hx : x ∈ functionsIn stream) (addr : Nat)
    (hc : Covers x.2 addr) (o : Option Function) (h : u.findFunction σ units addr = .ok o) :
    ∃ f, o = some f := by
  have horig := h
  unfold Unit.findFunction Unit.functions at h
  obtain ⟨fns, h1, h⟩ := bind_ok h
  obtain ⟨d', hd', h1⟩ := bind_ok h1
  rw [hd] at hd'
  have := Except.ok.inj hd'
  subst this
  obtain ⟨stream', l, h2, h3, h4, h5, h6⟩ := parseFunctions_ok hs h1
  rw [hst] at h2
  have := Except.ok.inj h2
  subst this
  have hmem : ∀ a ∈ fns.addresses, ∃ y ∈ functionsIn stream, a.range ∈ codeOf y.2.attrs := by
    intro a ha
    obtain ⟨j, g, rs, k1, k2, k3⟩ := (mem_addressed l 0 a).mp (h5.mem_iff.mp ha)
    obtain ⟨y, k4, k5⟩ := forall₂_get h3 k1
    exact ⟨y, List.mem_of_getElem? k4, by rw [← k5.2]; exact k3⟩
  have hpair : fns.addresses.Pairwise (fun a b => Apart a.range.start a.range.stop b.range.start b.range.stop) := by
    refine List.pairwise_of_forall_mem_list ?_
    intro a ha b hb
    obtain ⟨y, hy, hya⟩ := hmem a ha
    obtain ⟨z, hz, hzb⟩ := hmem b hb
    rcases hap y hy z hz _ hya _ hzb with h | h | h
    · exact .inl ⟨by rw [h], by rw [h]⟩
    · exact .inr (.inl h)
    · exact .inr (.inr h)
  have hlt : ∀ a ∈ fns.addresses, a.range.start < a.range.stop := by
    intro a ha
    obtain ⟨y, _, hya⟩ := hmem a ha
    exact mem_codeOf_lt hya
  rcases search_spans fns.addresses (fun a => a.range.start) (fun a => a.range.stop) h6 hpair hlt addr with
    ⟨i, a, hb, ha, _⟩ | ⟨i, hb, hno⟩
  · cases ho : o with
    | some f => exact ⟨f, rfl⟩
    | none =>
      rw [ho] at h
      unfold Functions.findAddress at h
      simp only [rangeCmp_eq, hb, ha] at h
      split at h <;> simp [pure, Except.pure] at h
  · obtain ⟨r, hr, hr1, hr2⟩ := hc
    obtain ⟨j, hj⟩ := List.mem_iff_getElem?.mp hx
    obtain ⟨⟨g, rs⟩, k1, k2⟩ := forall₂_get' h3 hj
    have : (⟨r, j⟩ : FunctionAddress) ∈ fns.addresses := by
      rw [h5.mem_iff, mem_addressed]
      exact ⟨j, g, rs, k1, by simp, by have := k2.2; simp only at this; rw [this]; exact hr⟩
    exact absurd ⟨hr1, hr2⟩ (hno _ this)

/-- **C62** (addresses outside all functions): no function is found for them. -/
theorem C62_outside (σ : Sorter) (units : List Unit) (hs : UnitsSorted units) (u : Unit) (d : DieUnit)
    (stream : Stream) (hd : u.unitRef = .ok d) (hst : d.entries none = .ok stream) (addr : Nat)
    (hc : ∀ x ∈ functionsIn stream, ¬ Covers x.2 addr) (o : Option Function)
    (h : u.findFunction σ units addr = .ok o) : o = none := by
  cases o with
  | none => rfl
  | some f =>
    obtain ⟨d', stream', x, h1, h2, h3, h4, _⟩ := C62_found σ units hs u addr f h
    rw [hd] at h1
    rw [← Except.ok.inj h1, hst] at h2
    rw [← Except.ok.inj h2] at h3
    exact absurd h4 (hc x h3)

/-- **C62** (nested functions; negation): without the proviso of `C62_complete` functions are missed.  If the
code of the second function of a unit lies within that of the first one, no function is found for the
addresses of the first function beyond the second one. -/
theorem C62_nested_wrong (σ : Sorter) (units : List Unit) (hs : UnitsSorted units) (u : Unit) (d : DieUnit)
    (stream : Stream) (hd : u.unitRef = .ok d) (hst : d.entries none = .ok stream) (x y : Nat × Entry)
    (hxy : functionsIn stream = [x, y]) (r r' : Range) (hr : codeOf x.2.attrs = [r])
    (hr' : codeOf y.2.attrs = [r']) (h1 : r.start < r'.start) (addr : Nat) (h2 : r'.stop ≤ addr)
    (h3 : addr < r.stop) (o : Option Function) (h : u.findFunction σ units addr = .ok o) :
    Covers x.2 addr ∧ o = none := by
  have hlt : r'.start < r'.stop := mem_codeOf_lt (by rw [hr']; exact List.mem_singleton.mpr rfl)
  refine ⟨⟨r, by rw [hr]; exact List.mem_singleton.mpr rfl, by omega, h3⟩, ?_⟩
  unfold Unit.findFunction Unit.functions at h
  obtain ⟨fns, h4, h⟩ := bind_ok h
  obtain ⟨d', hd', h4⟩ := bind_ok h4
  rw [hd] at hd'
  have := Except.ok.inj hd'
  subst this
  obtain ⟨stream', l, k1, k2, k3, k4, k5⟩ := parseFunctions_ok hs h4
  rw [hst] at k1
  have := Except.ok.inj k1
  subst this
  rw [hxy] at k2
  cases k2 with
  | cons p1 q1 =>
  cases q1 with
  | cons p2 q2 =>
  cases q2
  rename_i a b
  have ha : a.2 = [r] := by rw [← hr]; exact p1.2
  have hb : b.2 = [r'] := by rw [← hr']; exact p2.2
  have hadd : addressed 0 [a, b] = [⟨r, 0⟩, ⟨r', 1⟩] := by
    simp only [addressed, ha, hb, List.map_cons, List.map_nil, List.append_nil, List.cons_append, List.nil_append]
  rw [hadd] at k4
  have hsorted : fns.addresses = [⟨r, 0⟩, ⟨r', 1⟩] := by
    have hp : ([⟨r, 0⟩, ⟨r', 1⟩] : List FunctionAddress).Pairwise (fun a b => a.range.start ≤ b.range.start) := by
      simp only [List.pairwise_cons, List.mem_singleton, forall_eq, List.not_mem_nil, false_imp_iff, implies_true,
        List.Pairwise.nil, and_self, and_true]
      omega
    refine List.Perm.eq_of_pairwise (le := fun a b => a.range.start ≤ b.range.start) ?_ k5 hp k4
    intro p q hp1 hq1 hpq hqp
    have hp2 := k4.mem_iff.mp hp1
    simp only [List.mem_cons, List.not_mem_nil, or_false] at hp2 hq1
    rcases hp2 with rfl | rfl <;> rcases hq1 with rfl | rfl
    · rfl
    · simp only at hqp; omega
    · simp only at hpq; omega
    · rfl
  have hb1 : binarySearchBy fns.addresses (fun a => rangeCmp addr a.range) = .inr 2 := by
    have hc : rangeCmp addr r' = .lt := by
      unfold rangeCmp; rw [if_neg (by omega), if_pos h2]
    rw [hsorted]
    unfold binarySearchBy
    simp only [List.length_cons, List.length_nil]
    have : bisect (cmpAt [(⟨r, 0⟩ : FunctionAddress), ⟨r', 1⟩] (fun a => rangeCmp addr a.range)) 0 2 = 1 := by
      rw [bisect, if_neg (by omega)]
      simp only [cmpAt, List.getElem?_cons_succ, List.getElem?_cons_zero, hc, reduceCtorEq, if_false]
      rw [bisect, if_pos (by omega)]
    simp only [Nat.zero_add, this, cmpAt, List.getElem?_cons_succ, List.getElem?_cons_zero, hc]
  unfold Functions.findAddress at h
  rw [hb1] at h
  exact (Except.ok.inj h).symm

/-! ### Several units -/

theorem firstSome_ok {α β : Type} (g : α → Except Err (Option β)) : ∀ (l : List α) (o : Option (β × α)),
    firstSome g l = .ok o →
    (o = none ∧ ∀ a ∈ l, g a = .ok none) ∨
    (∃ b a pre post, o = some (b, a) ∧ l = pre ++ a :: post ∧ g a = .ok (some b) ∧
      ∀ x ∈ pre, g x = .ok none) := by
  intro l
  induction l with
  | nil => intro o h; simp only [firstSome, Except.ok.injEq] at h; exact .inl ⟨h.symm, by simp⟩
  | cons a t ih =>
    intro o h
    rw [firstSome] at h
    obtain ⟨r, h1, h⟩ := bind_ok h
    cases r with
    | some b =>
      simp only [pure, Except.pure, Except.ok.injEq] at h
      exact .inr ⟨b, a, [], t, h.symm, rfl, h1, by simp⟩
    | none =>
      rcases ih o h with ⟨h2, h3⟩ | ⟨b, x, pre, post, h2, h3, h4, h5⟩
      · refine .inl ⟨h2, ?_⟩
        intro y hy
        rcases List.mem_cons.mp hy with hy | hy
        · rw [hy]; exact h1
        · exact h3 y hy
      · refine .inr ⟨b, x, a :: pre, post, h2, by rw [h3]; rfl, h4, ?_⟩
        intro y hy
        rcases List.mem_cons.mp hy with hy | hy
        · rw [hy]; exact h1
        · exact h5 y hy

theorem firstSome_isOk {α β : Type} (g : α → Except Err (Option β)) : ∀ (l : List α),
    (∀ a ∈ l, ∃ o, g a = .ok o) → ∃ o, firstSome g l = .ok o := by
  intro l
  induction l with
  | nil => intro _; exact ⟨none, rfl⟩
  | cons a t ih =>
    intro h
    obtain ⟨o, ho⟩ := h a List.mem_cons_self
    rw [firstSome, ho]
    simp only [bind, Except.bind]
    cases o with
    | some b => exact ⟨_, rfl⟩
    | none => exact ih (fun x hx => h x (List.mem_cons_of_mem _ hx))

/-- **C62** (in a file): a function is looked for in the units that declare the address; it is found
exactly if one of them has one. -/
theorem C62_file (σ : Sorter) (s : Sections) (u : Units) (hu : parseUnits σ s = .ok u) (addr : Nat)
    (ha : addr + 1 < 2 ^ 64) (o : Option (Function × Unit)) (h : u.findFunction σ addr = .ok o) :
    ∃ found, u.findUnits addr = .ok found ∧
      (∀ f unit, o = some (f, unit) → unit ∈ found ∧ unit.findFunction σ u.units addr = .ok (some f) ∧
        unit.header ∈ s.headers ∧ ∃ r, Declares s unit.header r ∧ r.start ≤ addr ∧ addr < r.stop) ∧
      (o = none → ∀ unit ∈ found, unit.findFunction σ u.units addr = .ok none) := by
  obtain ⟨found, h1, h2⟩ := C36_units_partial σ s u hu addr ha
  unfold Units.findFunction at h
  obtain ⟨found', h3, h⟩ := bind_ok h
  rw [h1] at h3
  rw [← Except.ok.inj h3] at h
  refine ⟨found, h1, ?_, ?_⟩
  · intro f unit ho
    rcases firstSome_ok _ _ _ h with ⟨h4, _⟩ | ⟨b, x, pre, post, h4, h5, h6, _⟩
    · rw [h4] at ho; cases ho
    · rw [h4] at ho
      simp only [Option.some.injEq, Prod.mk.injEq] at ho
      rw [← ho.1, ← ho.2]
      have hm : x ∈ found := by rw [h5]; simp
      exact ⟨hm, h6, (h2 x.header).mp ⟨x, hm, rfl⟩⟩
  · intro ho
    rcases firstSome_ok _ _ _ h with ⟨_, h5⟩ | ⟨b, x, pre, post, h4, _⟩
    · exact h5
    · rw [h4] at ho; cases ho

/-! ### Example: a function with a linkage name, and one that refers to another entry -/

/-- The text "foo". -/
def exFoo : Bytes := [102, 111, 111]

def exStream : Stream :=
  [(11, .entry ⟨.other, true, [], none⟩),
   (20, .entry ⟨.subprogram, false, [⟨.name, .string exFoo⟩, ⟨.lowPc, .addr 0x1000⟩, ⟨.highPc, .udata 0x10⟩], none⟩),
   (30, .entry ⟨.subprogram, false, [⟨.specification, .unitRef 20⟩, ⟨.lowPc, .addr 0x1010⟩, ⟨.highPc, .addr 0x1030⟩], none⟩),
   (40, .null)]

def exUnit : DieUnit where
  version := 4
  entries := fun o => .ok (exStream.filter (fun x => decide (o.getD 0 ≤ x.1)))

theorem exStream_ok : StreamOk [] exUnit exStream where
  raw := by
    intro x hx e
    simp only [exStream, List.mem_cons, List.not_mem_nil, or_false] at hx
    rcases hx with rfl | rfl | rfl | rfl <;> simp
  entry := by
    intro off e he
    simp only [exStream, List.mem_cons, List.not_mem_nil, or_false, Prod.mk.injEq, Raw.entry.injEq,
      reduceCtorEq, and_false] at he
    rcases he with ⟨_, rfl⟩ | ⟨_, rfl⟩ | ⟨_, rfl⟩ <;> rfl
  code := by
    intro off e he htag
    simp only [exStream, List.mem_cons, List.not_mem_nil, or_false, Prod.mk.injEq, Raw.entry.injEq,
      reduceCtorEq, and_false] at he
    rcases he with ⟨_, rfl⟩ | ⟨_, rfl⟩ | ⟨_, rfl⟩
    · cases htag
    · refine ⟨?_, ?_, ?_, ?_⟩
      · intro a ha _ e he
        simp only [List.mem_cons, List.not_mem_nil, or_false] at ha
        rcases ha with rfl | rfl | rfl <;> cases he
      · intro a ha hr
        simp only [List.mem_cons, List.not_mem_nil, or_false] at ha
        rcases ha with rfl | rfl | rfl <;> cases hr
      · intro l hl; cases hl
      · intro r hr _
        have := Option.some.inj hr
        subst this
        decide
    · refine ⟨?_, ?_, ?_, ?_⟩
      · intro a ha _ e he
        simp only [List.mem_cons, List.not_mem_nil, or_false] at ha
        rcases ha with rfl | rfl | rfl <;> cases he
      · intro a ha hr
        simp only [List.mem_cons, List.not_mem_nil, or_false] at ha
        rcases ha with rfl | rfl | rfl <;> cases hr
      · intro l hl; cases hl
      · intro r hr hn; cases hn
  name := by
    intro off e he htag a ha v hv
    simp only [exStream, List.mem_cons, List.not_mem_nil, or_false, Prod.mk.injEq, Raw.entry.injEq,
      reduceCtorEq, and_false] at he
    rcases he with ⟨_, rfl⟩ | ⟨_, rfl⟩ | ⟨_, rfl⟩
    · cases htag
    · simp only [List.mem_cons, List.not_mem_nil, or_false] at ha
      rcases ha with rfl | rfl | rfl <;> cases hv
    · simp only [List.mem_cons, List.not_mem_nil, or_false] at ha
      rcases ha with rfl | rfl | rfl
      · cases hv
        refine .inr ⟨exUnit, _, .inl ⟨20, rfl, rfl, ⟨_, _, rfl⟩⟩, .inl ⟨exFoo, .inr ⟨rfl, rfl, rfl⟩⟩⟩
      · cases hv
      · cases hv

theorem exStream_functions : functionsIn exStream =
    [(20, ⟨.subprogram, false, [⟨.name, .string exFoo⟩, ⟨.lowPc, .addr 0x1000⟩, ⟨.highPc, .udata 0x10⟩], none⟩),
     (30, ⟨.subprogram, false, [⟨.specification, .unitRef 20⟩, ⟨.lowPc, .addr 0x1010⟩, ⟨.highPc, .addr 0x1030⟩], none⟩)] := by
  rfl

/-- The function that refers to another entry has the name of that entry. -/
example : ∃ x ∈ functionsIn exStream, Covers x.2 0x1020 ∧ HasName [] exUnit x.2.attrs (some exFoo) := by
  rw [exStream_functions]
  refine ⟨_, List.mem_cons_of_mem _ List.mem_cons_self, ⟨⟨0x1010, 0x1030⟩, List.mem_singleton.mpr rfl, by decide, by decide⟩, ?_⟩
  show ∃ pre a post, _
  exact ⟨[], _, _, rfl, .inr ⟨_, 1, rfl, by omega,
    .here (.inl ⟨20, rfl, rfl, ⟨_, _, rfl⟩⟩) (.inr ⟨rfl, rfl, rfl⟩)⟩, by simp⟩

/-- A reference when there are no units. -/
example : findUnit [] 7 = .error .invalidDwarf := rfl

example (σ : Sorter) : ∃ f, parseFunctions σ [] exUnit = .ok f :=
  C62_accepted σ [] List.Pairwise.nil exUnit exStream (by rfl) exStream_ok

example : FunctionsInOrder exStream := by
  have := exStream_functions
  intro x hx y hy r hr r' hr'
  rw [this] at hx hy
  simp only [List.mem_cons, List.not_mem_nil, or_false] at hx hy
  have e1 : codeOf [⟨.name, .string exFoo⟩, ⟨.lowPc, .addr 0x1000⟩, ⟨.highPc, .udata 0x10⟩] = [⟨0x1000, 0x1010⟩] := by rfl
  have e2 : codeOf [⟨.specification, .unitRef 20⟩, ⟨.lowPc, .addr 0x1010⟩, ⟨.highPc, .addr 0x1030⟩] = [⟨0x1010, 0x1030⟩] := by rfl
  rcases hx with rfl | rfl <;> rcases hy with rfl | rfl <;> simp only [e1, e2, List.mem_singleton] at hr hr' <;>
    subst hr <;> subst hr' <;> simp [InOrder]

/-- A unit with a function within another one. -/
def exNestedStream : Stream :=
  [(20, .entry ⟨.subprogram, false, [⟨.name, .string exFoo⟩, ⟨.lowPc, .addr 0x1000⟩, ⟨.highPc, .addr 0x1100⟩], none⟩),
   (30, .entry ⟨.subprogram, false, [⟨.name, .string exFoo⟩, ⟨.lowPc, .addr 0x1010⟩, ⟨.highPc, .addr 0x1030⟩], none⟩)]

example (σ : Sorter) (u : Unit) (d : DieUnit) (hd : u.unitRef = .ok d) (hst : d.entries none = .ok exNestedStream)
    (o : Option Function) (h : u.findFunction σ [] 0x1080 = .ok o) : o = none :=
  (C62_nested_wrong σ [] List.Pairwise.nil u d exNestedStream hd hst _ _ (by rfl) ⟨0x1000, 0x1100⟩ ⟨0x1010, 0x1030⟩
    (by rfl) (by rfl) (by decide) 0x1080 (by decide) (by decide) o h).2

/-- Functions that overlap without being nested. -/
def exOverlapStream : Stream :=
  [(20, .entry ⟨.subprogram, false, [⟨.name, .string exFoo⟩, ⟨.lowPc, .addr 0x1000⟩, ⟨.highPc, .addr 0x1100⟩], none⟩),
   (30, .entry ⟨.subprogram, false, [⟨.name, .string exFoo⟩, ⟨.lowPc, .addr 0x1010⟩, ⟨.highPc, .addr 0x1130⟩], none⟩)]

example : FunctionsInOrder exOverlapStream := by
  have hf : functionsIn exOverlapStream = [(20, ⟨.subprogram, false, [⟨.name, .string exFoo⟩, ⟨.lowPc, .addr 0x1000⟩,
      ⟨.highPc, .addr 0x1100⟩], none⟩), (30, ⟨.subprogram, false, [⟨.name, .string exFoo⟩, ⟨.lowPc, .addr 0x1010⟩,
      ⟨.highPc, .addr 0x1130⟩], none⟩)] := by rfl
  intro x hx y hy r hr r' hr'
  rw [hf] at hx hy
  simp only [List.mem_cons, List.not_mem_nil, or_false] at hx hy
  have e1 : codeOf [⟨.name, .string exFoo⟩, ⟨.lowPc, .addr 0x1000⟩, ⟨.highPc, .addr 0x1100⟩] = [⟨0x1000, 0x1100⟩] := by rfl
  have e2 : codeOf [⟨.name, .string exFoo⟩, ⟨.lowPc, .addr 0x1010⟩, ⟨.highPc, .addr 0x1130⟩] = [⟨0x1010, 0x1130⟩] := by rfl
  rcases hx with rfl | rfl <;> rcases hy with rfl | rfl <;> simp only [e1, e2, List.mem_singleton] at hr hr' <;>
    subst hr <;> subst hr' <;> simp [InOrder]

end Blazesym.Dwarf
