import Verif.Dwarf.ResolverProps

/-! # C65 and C45: functions of DWARF data by name, and all of them -/

set_option autoImplicit false

namespace Blazesym.Dwarf
open Blazesym.Util Blazesym.Symbolize Blazesym.Spec.Dwarf

/-! ### Names are unique -/

theorem entryAt_unique {unit : DieUnit} {off : Nat} {e e' : Entry} (h : EntryAt unit off e)
    (h' : EntryAt unit off e') : e = e' := by
  obtain ⟨o, rest, h⟩ := h
  obtain ⟨o', rest', h'⟩ := h'
  rw [h] at h'
  simp only [Except.ok.injEq, List.cons.injEq, Prod.mk.injEq, Raw.entry.injEq] at h'
  exact h'.1.2

theorem located_unique {units : List Unit} (hs : UnitsSorted units) {off : Nat} {d d' : DieUnit} {r r' : Nat}
    (h : Located units off d r) (h' : Located units off d' r') : d = d' ∧ r = r' := by
  have h1 := (findUnit_iff units hs off d r).mpr h
  have h2 := (findUnit_iff units hs off d' r').mpr h'
  rw [h1] at h2
  simp only [Except.ok.injEq, Prod.mk.injEq] at h2
  exact h2

theorem points_unique {units : List Unit} (hs : UnitsSorted units) {unit : DieUnit} {v : AttrValue}
    {d d' : DieUnit} {e e' : Entry} (h : Points units unit v d e) (h' : Points units unit v d' e') :
    d = d' ∧ e = e' := by
  rcases h with ⟨off, rfl, rfl, h⟩ | ⟨off, rel, rfl, h1, h2⟩
  · rcases h' with ⟨off', h3, rfl, h'⟩ | ⟨off', rel, h3, _⟩
    · have := AttrValue.unitRef.inj h3
      subst this
      exact ⟨rfl, entryAt_unique h h'⟩
    · cases h3
  · rcases h' with ⟨off', h3, _⟩ | ⟨off', rel', h3, h4, h5⟩
    · cases h3
    · have := AttrValue.infoRef.inj h3
      subst this
      obtain ⟨rfl, rfl⟩ := located_unique hs h1 h4
      exact ⟨rfl, entryAt_unique h2 h5⟩

theorem named_unique {e : Entry} {n m : Bytes} (h : Named e n) (h' : Named e m) : n = m := by
  rcases h with h | ⟨h1, _, h2⟩ <;> rcases h' with h' | ⟨h3, _, h4⟩
  · rw [h] at h'; exact Option.some.inj h'
  · rw [h3] at h; cases h
  · rw [h1] at h'; cases h'
  · rw [h2] at h4; exact Option.some.inj h4

theorem named_unnamed {e : Entry} {n : Bytes} (h : Named e n) (h' : Unnamed e) : False := by
  obtain ⟨h1, h2, _⟩ := h'
  rcases h with h | ⟨_, _, h⟩
  · rw [h1] at h; cases h
  · unfold lastOf at h
    rw [h2] at h; cases h

theorem nameAfter_unique {units : List Unit} (hs : UnitsSorted units) {k : Nat} {unit : DieUnit} {v : AttrValue}
    {n : Bytes} (h : NameAfter units k unit v n) : ∀ (j : Nat) (m : Bytes), NameAfter units j unit v m → n = m := by
  induction h with
  | here h1 h2 =>
    intro j m h'
    cases h' with
    | here h3 h4 =>
      obtain ⟨_, rfl⟩ := points_unique hs h1 h3
      exact named_unique h2 h4
    | step h3 h4 _ _ =>
      obtain ⟨_, rfl⟩ := points_unique hs h1 h3
      exact (named_unnamed h2 h4).elim
  | step h1 h2 h3 _ ih =>
    intro j m h'
    cases h' with
    | here h4 h5 =>
      obtain ⟨_, rfl⟩ := points_unique hs h1 h4
      exact (named_unnamed h5 h2).elim
    | step h4 h5 h6 h7 =>
      obtain ⟨rfl, rfl⟩ := points_unique hs h1 h4
      rw [h3] at h6
      have := Option.some.inj h6
      subst this
      exact ih _ _ h7

theorem softName_unique {units : List Unit} (hs : UnitsSorted units) {unit : DieUnit} {a : Attr} {n m : Bytes}
    (h : SoftName units unit a n) (h' : SoftName units unit a m) : n = m := by
  rcases h with h | ⟨v, k, h1, _, h2⟩ <;> rcases h' with h' | ⟨v', k', h3, _, h4⟩
  · rw [h] at h'; exact Option.some.inj h'
  · obtain ⟨an, av⟩ := a; cases an <;> first | (cases h3; done) | (cases av <;> cases h <;> cases h3)
  · obtain ⟨an, av⟩ := a; cases an <;> first | (cases h1; done) | (cases av <;> cases h' <;> cases h1)
  · rw [h1] at h3
    have := Option.some.inj h3
    subst this
    exact nameAfter_unique hs h2 _ _ h4

/-- **C63** (uniqueness): attributes determine the name. -/
theorem C63_unique {units : List Unit} (hs : UnitsSorted units) {unit : DieUnit} {attrs : List Attr}
    {o o' : Option Bytes} (h : HasName units unit attrs o) (h' : HasName units unit attrs o') : o = o' := by
  unfold HasName at h h'
  cases hl : lastOf linkage? attrs with
  | some n => rw [hl] at h h'; simp only at h h'; rw [h, h']
  | none =>
    rw [hl] at h h'
    cases o with
    | none =>
      cases o' with
      | none => rfl
      | some m =>
        obtain ⟨pre, a, post, h1, h2, _⟩ := h'
        exact absurd h2 (h a (by rw [h1]; simp) m)
    | some n =>
      obtain ⟨pre, a, post, h1, h2, h3⟩ := h
      cases o' with
      | none => exact absurd h2 (h' a (by rw [h1]; simp) n)
      | some m =>
        obtain ⟨pre', a', post', h4, h5, h6⟩ := h'
        rw [h1] at h4
        have hlen : ∀ (p q : List Attr) (x y : Attr) (r t : List Attr), p ++ x :: r = q ++ y :: t →
            (∀ b ∈ p, ∀ m, ¬ SoftName units unit b m) → (∀ b ∈ q, ∀ m, ¬ SoftName units unit b m) →
            (∃ m, SoftName units unit x m) → (∃ m, SoftName units unit y m) → x = y := by
          intro p
          induction p with
          | nil =>
            intro q x y r t he _ hq hx _
            cases q with
            | nil => simp only [List.nil_append, List.cons.injEq] at he; exact he.1
            | cons c q =>
              simp only [List.nil_append, List.cons_append, List.cons.injEq] at he
              obtain ⟨m, hm⟩ := hx
              rw [he.1] at hm
              exact absurd hm (hq c List.mem_cons_self m)
          | cons b p ih =>
            intro q x y r t he hp hq hx hy
            cases q with
            | nil =>
              simp only [List.nil_append, List.cons_append, List.cons.injEq] at he
              obtain ⟨m, hm⟩ := hy
              rw [← he.1] at hm
              exact absurd hm (hp b List.mem_cons_self m)
            | cons c q =>
              simp only [List.cons_append, List.cons.injEq] at he
              exact ih q x y r t he.2 (fun z hz => hp z (List.mem_cons_of_mem _ hz))
                (fun z hz => hq z (List.mem_cons_of_mem _ hz)) hx hy
        have := hlen _ _ _ _ _ _ h4 h3 h6 ⟨n, h2⟩ ⟨m, h5⟩
        subst this
        rw [softName_unique hs h2 h5]

/-! ### Information about functions -/

theorem functions_ok {σ : Sorter} {units : List Unit} (hs : UnitsSorted units) {u : Unit} {fns : Functions}
    (h : u.functions σ units = .ok fns) : ∃ d stream, EntriesOf u.header d stream ∧
      List.Forall₂ (Describes units d) (functionsIn stream) fns.functions := by
  unfold Unit.functions at h
  obtain ⟨d, hd, h⟩ := bind_ok h
  obtain ⟨stream, h1, h2⟩ := C62_functions σ units hs d fns h
  obtain ⟨main, m1, m2⟩ := (unitRef_iff u d).mp hd
  exact ⟨d, stream, ⟨main, m1, m2, h1⟩, h2⟩

theorem symInfo_ok {r : Resolver} {units : List Unit} {d : DieUnit} {w : Bool} {x : Nat × Entry} {f : Function}
    (hd : Describes units d x f) {o : Option Elf.SymInfo} (h : r.symInfo f w = .ok o) :
    (o = none ∧ f.name = none) ∨
    ∃ info n, o = some info ∧ f.name = some n ∧ info.name = n ∧ isUtf8 n = true ∧
      FunctionInfo units d r.fileOffset w x info := by
  obtain ⟨_, h2, h3⟩ := hd
  unfold Resolver.symInfo at h
  cases hn : f.name with
  | none => rw [hn] at h; exact .inl ⟨(Except.ok.inj h).symm, rfl⟩
  | some n =>
    rw [hn] at h
    simp only at h
    by_cases hu : isUtf8 n = false
    · rw [if_pos hu] at h; cases h
    · rw [if_neg hu] at h
      rw [hn] at h2
      cases w with
      | true =>
        simp only [if_true] at h
        obtain ⟨fo, h4, h⟩ := bind_ok h
        exact .inr ⟨_, n, (Except.ok.inj h).symm, rfl, rfl, by simpa using hu,
          h2, rfl, by rw [h3], by rw [h3], _, rfl, h4⟩
      | false =>
        exact .inr ⟨_, n, (Except.ok.inj h).symm, rfl, rfl, by simpa using hu,
          h2, rfl, by rw [h3], by rw [h3], rfl⟩

theorem symInfo_isOk {r : Resolver} {w : Bool} {f : Function} (hu : ∀ n, f.name = some n → isUtf8 n = true)
    (ho : w = true → ∀ a n, ∃ o, r.fileOffset a n = .ok o) : ∃ o, r.symInfo f w = .ok o := by
  unfold Resolver.symInfo
  cases hn : f.name with
  | none => exact ⟨_, rfl⟩
  | some n =>
    have : isUtf8 n = true := hu n hn
    simp only [this, Bool.true_eq_false, if_false]
    cases w with
    | false => exact ⟨_, rfl⟩
    | true =>
      obtain ⟨o, h⟩ := ho rfl ((f.range.map Range.start).getD 0) ((f.range.map (fun r => r.stop - r.start)).getD 0)
      simp only [if_true, h]
      exact ⟨_, rfl⟩

/-! ### Looking up a name -/

/-- The function found in a unit for a name is the first one with the name. -/
theorem unitFindName_ok {σ : Sorter} {units : List Unit} (hs : UnitsSorted units) {u : Unit} {name : Bytes}
    {o : Option Function} (h : u.findName σ units name = .ok o) :
    ∃ d stream, EntriesOf u.header d stream ∧
      ((o = none ∧ ∀ x ∈ functionsIn stream, ¬ HasName units d x.2.attrs (some name)) ∨
       ∃ f x pre post, o = some f ∧ functionsIn stream = pre ++ x :: post ∧ Describes units d x f ∧
        f.name = some name ∧ ∀ y ∈ pre, ¬ HasName units d y.2.attrs (some name)) := by
  unfold Unit.findName at h
  obtain ⟨fns, h1, h⟩ := bind_ok h
  have := Except.ok.inj h
  subst this
  obtain ⟨d, stream, h2, h3⟩ := functions_ok hs h1
  refine ⟨d, stream, h2, ?_⟩
  generalize functionsIn stream = xs at h3
  clear h h1 h2
  generalize fns.functions = fs at h3
  induction h3 with
  | nil => exact .inl ⟨rfl, by simp⟩
  | cons hab _ ih =>
    rename_i x f xs fs _
    rw [List.find?_cons]
    by_cases hn : f.name = some name
    · simp only [hn, decide_true]
      exact .inr ⟨f, x, [], xs, rfl, rfl, hab, hn, by simp⟩
    · simp only [hn, decide_false]
      have hx : ¬ HasName units d x.2.attrs (some name) := fun hh => hn (C63_unique hs hab.2.1 hh)
      rcases ih with ⟨i1, i2⟩ | ⟨g, y, pre, post, i1, i2, i3, i4, i5⟩
      · refine .inl ⟨i1, ?_⟩
        intro y hy
        rcases List.mem_cons.mp hy with hy | hy
        · rw [hy]; exact hx
        · exact i2 y hy
      · refine .inr ⟨g, y, x :: pre, post, i1, by rw [i2]; rfl, i3, i4, ?_⟩
        intro z hz
        rcases List.mem_cons.mp hz with hz | hz
        · rw [hz]; exact hx
        · exact i5 z hz

/-- The functions found in units, and what is reported about them. -/
theorem findName_ok {σ : Sorter} {u : Units} {name : Bytes} : ∀ (us : List Unit) (fs : List Function),
    u.findName σ name us = .ok fs →
    (∀ unit ∈ us, ∃ o, unit.findName σ u.units name = .ok o ∧ ∀ f, o = some f → f ∈ fs) ∧
    (∀ f ∈ fs, ∃ unit ∈ us, unit.findName σ u.units name = .ok (some f)) := by
  intro us
  induction us with
  | nil =>
    intro fs h
    have := Except.ok.inj h
    subst this
    exact ⟨by simp, by simp⟩
  | cons a t ih =>
    intro fs h
    rw [Units.findName] at h
    obtain ⟨o, h1, h⟩ := bind_ok h
    obtain ⟨more, h2, h⟩ := bind_ok h
    have := Except.ok.inj h
    subst this
    obtain ⟨i1, i2⟩ := ih more h2
    constructor
    · intro unit hu
      rcases List.mem_cons.mp hu with hu | hu
      · rw [hu]
        refine ⟨o, h1, ?_⟩
        intro f hf
        rw [hf]; simp
      · obtain ⟨o', k1, k2⟩ := i1 unit hu
        exact ⟨o', k1, fun f hf => List.mem_append_right _ (k2 f hf)⟩
    · intro f hf
      rcases List.mem_append.mp hf with hf | hf
      · rw [Option.mem_toList] at hf
        rw [hf] at h1
        exact ⟨a, List.mem_cons_self, h1⟩
      · obtain ⟨unit, k1, k2⟩ := i2 f hf
        exact ⟨unit, List.mem_cons_of_mem _ k1, k2⟩

theorem symInfos_ok {r : Resolver} {w : Bool} : ∀ (fs : List Function) (syms : List Elf.SymInfo),
    r.symInfos w fs = .ok syms → List.Forall₂ (fun f s => r.symInfo f w = .ok (some s)) fs syms := by
  intro fs
  induction fs with
  | nil =>
    intro syms h
    have := Except.ok.inj h
    subst this
    exact List.Forall₂.nil
  | cons f t ih =>
    intro syms h
    rw [Resolver.symInfos] at h
    obtain ⟨o, h1, h⟩ := bind_ok h
    cases o with
    | none => cases h
    | some info =>
      obtain ⟨more, h2, h⟩ := bind_ok h
      have := Except.ok.inj h
      subst this
      exact List.Forall₂.cons h1 (ih more h2)

theorem symInfos_isOk {r : Resolver} {w : Bool} : ∀ (fs : List Function),
    (∀ f ∈ fs, ∃ info, r.symInfo f w = .ok (some info)) → ∃ syms, r.symInfos w fs = .ok syms := by
  intro fs
  induction fs with
  | nil => intro _; exact ⟨_, rfl⟩
  | cons f t ih =>
    intro h
    obtain ⟨info, h1⟩ := h f List.mem_cons_self
    obtain ⟨syms, h2⟩ := ih (fun g hg => h g (List.mem_cons_of_mem _ hg))
    rw [Resolver.symInfos]
    simp only [h1, h2, bind, Except.bind]
    exact ⟨_, rfl⟩

/-- **C65** (which functions): looking up a name reports functions with this name; for every unit with
such a function, one of the unit is among them.  If there is no such function at all, the symbols of the
ELF file are reported.  (Missing: a unit can have several functions with the name, of which only the first
one is reported, see `C65_all_wrong`.) -/
theorem C65_find_addr_partial (σ : Sorter) (r : Resolver) (hs : UnitsSorted r.units.units) (name : Bytes)
    (opts : Elf.FindAddrOpts) (syms : List Elf.SymInfo) (h : r.findAddr σ name opts = .ok syms) :
    opts.symType ≠ .variable ∧
    ((∃ u ∈ r.units.units, ∃ d stream x, EntriesOf u.header d stream ∧ x ∈ functionsIn stream ∧
        HasName r.units.units d x.2.attrs (some name)) →
      (∀ sym ∈ syms, sym.name = name ∧ ∃ u ∈ r.units.units, ∃ d stream x, EntriesOf u.header d stream ∧
        x ∈ functionsIn stream ∧ FunctionInfo r.units.units d r.fileOffset opts.fileOffset x sym) ∧
      (∀ u ∈ r.units.units, ∀ d stream x, EntriesOf u.header d stream → x ∈ functionsIn stream →
        HasName r.units.units d x.2.attrs (some name) →
        ∃ sym ∈ syms, ∃ x' pre post, functionsIn stream = pre ++ x' :: post ∧
          (∀ y ∈ pre, ¬ HasName r.units.units d y.2.attrs (some name)) ∧
          FunctionInfo r.units.units d r.fileOffset opts.fileOffset x' sym ∧ sym.name = name)) ∧
    ((∀ u ∈ r.units.units, ∀ d stream x, EntriesOf u.header d stream → x ∈ functionsIn stream →
        ¬ HasName r.units.units d x.2.attrs (some name)) → r.elfFindAddr name opts = .ok syms) := by
  unfold Resolver.findAddr at h
  by_cases hv : opts.symType = .variable
  · rw [if_pos hv] at h; cases h
  rw [if_neg hv] at h
  refine ⟨hv, ?_⟩
  obtain ⟨fs, h1, h⟩ := bind_ok h
  obtain ⟨infos, h2, h⟩ := bind_ok h
  obtain ⟨k1, k2⟩ := findName_ok _ _ h1
  have k3 := symInfos_ok _ _ h2
  have hent : ∀ (hd : Header) (d d' : DieUnit) (st st' : Stream), EntriesOf hd d st → EntriesOf hd d' st' →
      d = d' ∧ st = st' := by
    rintro hd d d' st st' ⟨m, a1, a2, a3⟩ ⟨m', b1, b2, b3⟩
    rw [a1] at b1
    have := Except.ok.inj b1
    subst this
    have hdd : d = d' := by
      rcases a2 with a2 | ⟨a2, rfl⟩ <;> rcases b2 with b2 | ⟨b2, rfl⟩ <;> rw [a2] at b2 <;> simp at b2
      · exact b2
    subst hdd
    rw [a3] at b3
    exact ⟨rfl, Except.ok.inj b3⟩
  have hcomplete : ∀ u ∈ r.units.units, ∀ d stream x, EntriesOf u.header d stream → x ∈ functionsIn stream →
        HasName r.units.units d x.2.attrs (some name) →
        ∃ sym ∈ infos, ∃ x' pre post, functionsIn stream = pre ++ x' :: post ∧
          (∀ y ∈ pre, ¬ HasName r.units.units d y.2.attrs (some name)) ∧
          FunctionInfo r.units.units d r.fileOffset opts.fileOffset x' sym ∧ sym.name = name := by
    intro u hu d stream x e1 e2 e3
    obtain ⟨o, o1, o2⟩ := k1 u hu
    obtain ⟨d', st', q1, q2⟩ := unitFindName_ok hs o1
    obtain ⟨rfl, rfl⟩ := hent _ _ _ _ _ e1 q1
    rcases q2 with ⟨_, q2⟩ | ⟨f, x', pre, post, q2, q3, q4, q5, q6⟩
    · exact absurd e3 (q2 x e2)
    · obtain ⟨i, hi⟩ := List.mem_iff_getElem?.mp (o2 f q2)
      obtain ⟨sym, s1, s2⟩ := forall₂_get' k3 hi
      rcases symInfo_ok q4 s2 with ⟨w, _⟩ | ⟨info, n, w1, w2, w3, _, w4⟩
      · cases w
      · have := Option.some.inj w1
        subst this
        rw [q5] at w2
        have := Option.some.inj w2
        subst this
        exact ⟨sym, List.mem_of_getElem? s1, x', pre, post, q3, q6, w4, w3⟩
  by_cases hemp : infos.isEmpty = true
  · rw [if_pos hemp] at h
    rw [List.isEmpty_iff] at hemp
    subst hemp
    refine ⟨?_, fun _ => h⟩
    rintro ⟨u, hu, d, stream, x, e1, e2, e3⟩
    obtain ⟨sym, hsym, _⟩ := hcomplete u hu d stream x e1 e2 e3
    cases hsym
  · rw [if_neg hemp] at h
    have := Except.ok.inj h
    subst this
    have hsound : ∀ sym ∈ infos, sym.name = name ∧ ∃ u ∈ r.units.units, ∃ d stream x, EntriesOf u.header d stream ∧
        x ∈ functionsIn stream ∧ HasName r.units.units d x.2.attrs (some name) ∧
        FunctionInfo r.units.units d r.fileOffset opts.fileOffset x sym := by
      intro sym hsym
      obtain ⟨i, hi⟩ := List.mem_iff_getElem?.mp hsym
      obtain ⟨f, f1, f2⟩ := forall₂_get k3 hi
      obtain ⟨u, u1, u2⟩ := k2 f (List.mem_of_getElem? f1)
      obtain ⟨d, st, q1, q2⟩ := unitFindName_ok hs u2
      rcases q2 with ⟨q2, _⟩ | ⟨g, x', pre, post, q2, q3, q4, q5, q6⟩
      · cases q2
      · have := Option.some.inj q2
        subst this
        rcases symInfo_ok q4 f2 with ⟨w, _⟩ | ⟨info, n, w1, w2, w3, _, w4⟩
        · cases w
        · have := Option.some.inj w1
          subst this
          rw [q5] at w2
          have := Option.some.inj w2
          subst this
          exact ⟨w3, u, u1, d, st, x', q1, by rw [q3]; simp, by rw [← w3]; exact w4.name, w4⟩
    refine ⟨fun _ => ⟨?_, hcomplete⟩, ?_⟩
    · intro sym hsym
      obtain ⟨a, u, u1, d, st, x, b1, b2, _, b4⟩ := hsound sym hsym
      exact ⟨a, u, u1, d, st, x, b1, b2, b4⟩
    · intro hno
      obtain ⟨sym, hsym⟩ := List.exists_mem_of_ne_nil infos (by simpa using hemp)
      obtain ⟨_, u, u1, d, st, x, b1, b2, b3, _⟩ := hsound sym hsym
      exact absurd b3 (hno u u1 d st x b1 b2)

/-- **C65** (variables): they cannot be looked up. -/
theorem C65_variable (σ : Sorter) (r : Resolver) (name : Bytes) (opts : Elf.FindAddrOpts)
    (h : opts.symType = .variable) : r.findAddr σ name opts = .error .unsupported := if_pos h

theorem allFindName_isOk {σ : Sorter} {u : Units} (hs : UnitsSorted u.units) {name : Bytes} :
    ∀ (us : List Unit), (∀ x ∈ us, ∃ d stream, EntriesOf x.header d stream ∧ StreamOk u.units d stream) →
    ∃ fs, u.findName σ name us = .ok fs := by
  intro us
  induction us with
  | nil => intro _; exact ⟨_, rfl⟩
  | cons a t ih =>
    intro h
    obtain ⟨d, stream, ⟨main, m1, m2, m3⟩, h2⟩ := h a List.mem_cons_self
    obtain ⟨fns, h3⟩ := C62_accepted σ u.units hs d stream m3 h2
    obtain ⟨fs, h4⟩ := ih (fun x hx => h x (List.mem_cons_of_mem _ hx))
    have h5 : a.functions σ u.units = .ok fns := by
      unfold Unit.functions
      rw [(unitRef_iff a d).mpr ⟨main, m1, m2⟩]
      exact h3
    rw [Units.findName]
    unfold Unit.findName
    simp only [h5, h4, bind, Except.bind, pure, Except.pure]
    exact ⟨_, rfl⟩

/-- **C65** (acceptance): looking up a name that is text succeeds if the functions of all units can be
decoded, the file offset can be determined if it is wanted, and the ELF file can be searched. -/
theorem C65_accepted (σ : Sorter) (r : Resolver) (hs : UnitsSorted r.units.units) (name : Bytes)
    (hname : isUtf8 name = true) (opts : Elf.FindAddrOpts) (hv : opts.symType ≠ .variable)
    (hok : ∀ u ∈ r.units.units, ∃ d stream, EntriesOf u.header d stream ∧ StreamOk r.units.units d stream)
    (hoff : opts.fileOffset = true → ∀ a n, ∃ o, r.fileOffset a n = .ok o)
    (helf : ∃ syms, r.elfFindAddr name opts = .ok syms) : ∃ syms, r.findAddr σ name opts = .ok syms := by
  obtain ⟨fs, h1⟩ := allFindName_isOk (σ := σ) (name := name) hs _ hok
  obtain ⟨_, k2⟩ := findName_ok _ _ h1
  obtain ⟨infos, h2⟩ := symInfos_isOk (r := r) (w := opts.fileOffset) fs (by
    intro f hf
    obtain ⟨u, _, u2⟩ := k2 f hf
    obtain ⟨d, st, q1, q2⟩ := unitFindName_ok hs u2
    rcases q2 with ⟨q2, _⟩ | ⟨g, x', pre, post, q2, q3, q4, q5, q6⟩
    · cases q2
    · have := Option.some.inj q2
      subst this
      obtain ⟨o, ho⟩ := symInfo_isOk (r := r) (w := opts.fileOffset) (f := f)
        (fun n hn => by rw [q5] at hn; rw [← Option.some.inj hn]; exact hname) hoff
      rcases symInfo_ok q4 ho with ⟨_, w⟩ | ⟨info, n, w1, _⟩
      · rw [q5] at w; cases w
      · exact ⟨info, by rw [ho, w1]⟩)
  unfold Resolver.findAddr
  rw [if_neg hv]
  simp only [h1, h2, bind, Except.bind]
  split
  · exact helf
  · exact ⟨_, rfl⟩

/-! ### Iterating over all functions -/

/-- Feeding the functions of a unit to the callback. -/
theorem callEach_visit {S : Type} (r : Resolver) (w : Bool) (f : S → Elf.SymInfo → S × Bool) :
    ∀ (fs : List Function) (infos : List (Option Elf.SymInfo)) (s : S),
    List.Forall₂ (fun fn o => r.symInfo fn w = .ok o) fs infos →
    callEach (r.visit w f) fs (s, .ok ()) =
      (((Spec.Elf.feed f s (infos.filterMap id)).1, .ok ()), (Spec.Elf.feed f s (infos.filterMap id)).2) := by
  intro fs infos s h
  induction h generalizing s with
  | nil => rfl
  | cons hab _ ih =>
    rename_i fn o fs infos _
    cases o with
    | none =>
      have hv : r.visit w f (s, .ok ()) fn = ((s, .ok ()), false) := by
        unfold Resolver.visit
        rw [hab]
      rw [callEach, hv]
      exact ih s
    | some info =>
      have hv : r.visit w f (s, .ok ()) fn = (((f s info).1, .ok ()), (f s info).2) := by
        unfold Resolver.visit
        rw [hab]
      rw [callEach, hv]
      simp only [List.filterMap_cons, id, Spec.Elf.feed]
      cases f s info with
      | mk s' b =>
        cases b with
        | true => rfl
        | false => exact ih s'

theorem feed_append {S X : Type} (f : S → X → S × Bool) : ∀ (l l' : List X) (s : S),
    Spec.Elf.feed f s (l ++ l') =
      if (Spec.Elf.feed f s l).2 then Spec.Elf.feed f s l else Spec.Elf.feed f (Spec.Elf.feed f s l).1 l' := by
  intro l
  induction l with
  | nil => intro l' s; rfl
  | cons x t ih =>
    intro l' s
    rw [List.cons_append, Spec.Elf.feed, Spec.Elf.feed]
    cases f s x with
    | mk s' b => cases b <;> simp [ih]

/-- The functions of units that can be decoded are fed to the callback; then the rest of the units is. -/
theorem forEachFunction_visit {S : Type} (σ : Sorter) (r : Resolver) (hs : UnitsSorted r.units.units) (w : Bool)
    (hoff : w = true → ∀ a n, ∃ o, r.fileOffset a n = .ok o) (rest : List Unit) : ∀ (us : List Unit),
    (∀ u ∈ us, ∃ d stream, EntriesOf u.header d stream ∧ StreamOk r.units.units d stream ∧
      ∀ x ∈ functionsIn stream, ∀ n, HasName r.units.units d x.2.attrs (some n) → isUtf8 n = true) →
    ∃ xs infos, AllFunctions us xs ∧ NamedInfos r.units.units r.fileOffset w xs infos ∧
      ∀ (f : S → Elf.SymInfo → S × Bool) (s : S),
        r.units.forEachFunction σ (r.visit w f) (us ++ rest) (s, .ok ()) =
          if (Spec.Elf.feed f s infos).2 then (.ok (), ((Spec.Elf.feed f s infos).1, .ok ()))
          else r.units.forEachFunction σ (r.visit w f) rest ((Spec.Elf.feed f s infos).1, .ok ()) := by
  intro us
  induction us with
  | nil =>
    intro _
    exact ⟨[], [], .nil, .nil, fun f s => rfl⟩
  | cons a t ih =>
    intro h
    obtain ⟨d, stream, he, h2, h3⟩ := h a List.mem_cons_self
    obtain ⟨xs, infos, i1, i2, i3⟩ := ih (fun x hx => h x (List.mem_cons_of_mem _ hx))
    have he' := he
    obtain ⟨main, m1, m2, m3⟩ := he
    obtain ⟨fns, h4⟩ := C62_accepted σ r.units.units hs d stream m3 h2
    have h5 : a.functions σ r.units.units = .ok fns := by
      unfold Unit.functions
      rw [(unitRef_iff a d).mpr ⟨main, m1, m2⟩]
      exact h4
    obtain ⟨stream', e1, e2⟩ := C62_functions σ r.units.units hs d fns h4
    rw [m3] at e1
    have := Except.ok.inj e1
    subst this
    -- the information about the functions of this unit
    have hinfos : ∀ (ys : List (Nat × Entry)) (fs : List Function),
        List.Forall₂ (Describes r.units.units d) ys fs →
        (∀ x ∈ ys, ∀ n, HasName r.units.units d x.2.attrs (some n) → isUtf8 n = true) →
        ∃ os : List (Option Elf.SymInfo), List.Forall₂ (fun fn o => r.symInfo fn w = .ok o) fs os ∧
          ∀ xs' infos', NamedInfos r.units.units r.fileOffset w xs' infos' →
            NamedInfos r.units.units r.fileOffset w (ys.map (fun x => (d, x)) ++ xs') ((os.filterMap id) ++ infos') := by
      intro ys fs hf
      induction hf with
      | nil => intro _; exact ⟨[], .nil, fun _ _ h => h⟩
      | cons hab _ ihf =>
        rename_i y g ys gs _
        intro hu
        obtain ⟨os, o1, o2⟩ := ihf (fun x hx => hu x (List.mem_cons_of_mem _ hx))
        obtain ⟨o, ho⟩ := symInfo_isOk (r := r) (w := w) (f := g)
          (fun n hn => hu y List.mem_cons_self n (by rw [← hn]; exact hab.2.1)) hoff
        refine ⟨o :: os, .cons ho o1, ?_⟩
        intro xs' infos' hx
        rcases symInfo_ok hab ho with ⟨w1, w2⟩ | ⟨info, n, w1, w2, w3, _, w4⟩
        · subst w1
          simp only [List.map_cons, List.cons_append, List.filterMap_cons, id]
          exact .skip (by rw [← w2]; exact hab.2.1) (o2 xs' infos' hx)
        · subst w1
          simp only [List.map_cons, List.cons_append, List.filterMap_cons, id]
          exact .cons w4 (o2 xs' infos' hx)
    obtain ⟨os, o1, o2⟩ := hinfos _ _ e2 h3
    refine ⟨_, (os.filterMap id) ++ infos, .cons he' i1, o2 _ _ i2, ?_⟩
    intro f s
    rw [List.cons_append, Units.forEachFunction, h5]
    simp only
    rw [callEach_visit r w f _ _ s o1, feed_append]
    rcases Spec.Elf.feed f s (os.filterMap id) with ⟨s1, b1⟩
    cases b1 with
    | true => rfl
    | false =>
      simp only [Bool.false_eq_true, if_false]
      exact i3 f s1

/-- **C45** (DWARF): iterating over the functions of DWARF data feeds to the callback exactly the named
functions with code of all units, in order, until it asks to stop. -/
theorem C45_dwarf {S : Type} (σ : Sorter) (r : Resolver) (hs : UnitsSorted r.units.units)
    (opts : Elf.FindAddrOpts) (hv : opts.symType ≠ .variable)
    (hok : ∀ u ∈ r.units.units, ∃ d stream, EntriesOf u.header d stream ∧ StreamOk r.units.units d stream ∧
      ∀ x ∈ functionsIn stream, ∀ n, HasName r.units.units d x.2.attrs (some n) → isUtf8 n = true)
    (hoff : opts.fileOffset = true → ∀ a n, ∃ o, r.fileOffset a n = .ok o) :
    ∃ xs infos, AllFunctions r.units.units xs ∧
      NamedInfos r.units.units r.fileOffset opts.fileOffset xs infos ∧
      ∀ (f : S → Elf.SymInfo → S × Bool) (s : S),
        r.forEach σ opts f s = (.ok (), (Spec.Elf.feed f s infos).1) := by
  obtain ⟨xs, infos, h1, h2, h3⟩ := forEachFunction_visit (S := S) σ r hs opts.fileOffset hoff [] _ hok
  refine ⟨xs, infos, h1, h2, ?_⟩
  intro f s
  unfold Resolver.forEach
  rw [if_neg hv]
  have := h3 f s
  rw [List.append_nil] at this
  rw [this]
  cases (Spec.Elf.feed f s infos).2 <;> rfl

/-- **C45** (DWARF, failures): if a unit cannot be decoded, the functions of the units before it are fed
to the callback; unless it asks to stop, the failure is reported. -/
theorem C45_dwarf_failure {S : Type} (σ : Sorter) (r : Resolver) (hs : UnitsSorted r.units.units)
    (opts : Elf.FindAddrOpts) (hv : opts.symType ≠ .variable) (pre post : List Unit) (u : Unit)
    (hunits : r.units.units = pre ++ u :: post)
    (hok : ∀ u ∈ pre, ∃ d stream, EntriesOf u.header d stream ∧ StreamOk r.units.units d stream ∧
      ∀ x ∈ functionsIn stream, ∀ n, HasName r.units.units d x.2.attrs (some n) → isUtf8 n = true)
    (hoff : opts.fileOffset = true → ∀ a n, ∃ o, r.fileOffset a n = .ok o)
    (e : Err) (hbad : u.functions σ r.units.units = .error e) :
    ∃ xs infos, AllFunctions pre xs ∧ NamedInfos r.units.units r.fileOffset opts.fileOffset xs infos ∧
      ∀ (f : S → Elf.SymInfo → S × Bool) (s : S),
        r.forEach σ opts f s =
          (if (Spec.Elf.feed f s infos).2 then .ok () else .error e, (Spec.Elf.feed f s infos).1) := by
  obtain ⟨xs, infos, h1, h2, h3⟩ := forEachFunction_visit (S := S) σ r hs opts.fileOffset hoff (u :: post) pre hok
  refine ⟨xs, infos, h1, h2, ?_⟩
  intro f s
  unfold Resolver.forEach
  rw [if_neg hv, hunits, h3 f s, Units.forEachFunction, hbad]
  cases (Spec.Elf.feed f s infos).2 <;> rfl

/-- **C45** (DWARF, variables): they cannot be iterated over. -/
theorem C45_dwarf_variable {S : Type} (σ : Sorter) (r : Resolver) (opts : Elf.FindAddrOpts)
    (h : opts.symType = .variable) (f : S → Elf.SymInfo → S × Bool) (s : S) :
    r.forEach σ opts f s = (.error .unsupported, s) := if_pos h

/-- **C45** (DWARF, negation): a function whose name is not text makes the iteration panic. -/
theorem C45_dwarf_text_wrong {S : Type} (σ : Sorter) (r : Resolver) (opts : Elf.FindAddrOpts)
    (hv : opts.symType ≠ .variable) (u : Unit) (rest : List Unit) (hunits : r.units.units = u :: rest)
    (fns : Functions) (hfns : u.functions σ r.units.units = .ok fns) (fn : Function) (fs : List Function)
    (hfs : fns.functions = fn :: fs) (n : Bytes) (hn : fn.name = some n) (hu : isUtf8 n = false)
    (f : S → Elf.SymInfo → S × Bool) (s : S) : r.forEach σ opts f s = (.error .panic, s) := by
  unfold Resolver.forEach
  rw [hunits] at hfns ⊢
  rw [if_neg hv, Units.forEachFunction, hunits, hfns]
  have : r.symInfo fn opts.fileOffset = .error .panic := by
    unfold Resolver.symInfo
    rw [hn]
    simp only [hu, if_true]
  simp only [hfs, callEach, Resolver.visit, this]

end Blazesym.Dwarf
