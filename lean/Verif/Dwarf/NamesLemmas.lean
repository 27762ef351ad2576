import Verif.Dwarf.NamesSpec
import Verif.Dwarf.CodeLemmas
import Verif.Util.SearchProps

/-! Lemmas about names of functions. -/

set_option autoImplicit false

namespace Blazesym.Dwarf
open Blazesym.Util Blazesym.Spec Blazesym.Spec.Dwarf

theorem findUnit_iff (units : List Unit) (hs : UnitsSorted units) (offset : Nat) (d : DieUnit) (rel : Nat) :
    findUnit units offset = .ok (d, rel) ↔ Located units offset d rel := by
  have hs' : SortedBy units (fun u => u.header.offset) := hs.imp (fun h => Nat.le_of_lt h)
  have hc := binarySearchBy_contract units _ (cmpSorted_of_sortedBy units (fun u => u.header.offset) hs' offset)
  have hmono : ∀ (p q : Nat) (x y : Unit), p < q → units[p]? = some x → units[q]? = some y →
      x.header.offset < y.header.offset := by
    intro p q x y hpq hx hy
    obtain ⟨hp, hpx⟩ := List.getElem?_eq_some_iff.mp hx
    obtain ⟨hq', hqy⟩ := List.getElem?_eq_some_iff.mp hy
    have := List.pairwise_iff_getElem.mp hs p q hp hq' hpq
    rw [hpx, hqy] at this; exact this
  unfold findUnit
  cases hb : binarySearchBy units (fun u => compare u.header.offset offset) with
  | inl i =>
    rw [hb] at hc
    obtain ⟨e, he, hq⟩ := hc
    rw [compare_eq_iff_eq] at hq
    simp only [reduceCtorEq, false_iff]
    rintro ⟨u, _, h3, h4, _⟩
    have := h4 e (List.mem_of_getElem? he) (by omega)
    omega
  | inr i =>
    rw [hb] at hc
    obtain ⟨hlen, h1, h2⟩ := hc
    cases i with
    | zero =>
      simp only [reduceCtorEq, false_iff]
      rintro ⟨u, hu, hlt, _⟩
      obtain ⟨j, hj⟩ := List.mem_iff_getElem?.mp hu
      have := compare_gt_iff_gt.mp (h2 j u (by omega) hj)
      omega
    | succ i =>
      simp only
      have hi : units[i]? = some units[i] := List.getElem?_eq_getElem (by omega)
      rw [hi]
      obtain ⟨u, hu⟩ : ∃ u, u = units[i] := ⟨_, rfl⟩
      rw [← hu] at hi ⊢
      simp only
      have hlt := compare_lt_iff_lt.mp (h1 i u (by omega) hi)
      have hlast : ∀ v ∈ units, v.header.offset ≤ offset → v.header.offset ≤ u.header.offset := by
        intro v hv hlt'
        obtain ⟨j, hj⟩ := List.mem_iff_getElem?.mp hv
        rcases Nat.lt_or_ge j (i + 1) with h | h
        · rcases Nat.lt_or_eq_of_le (Nat.le_of_lt_succ h) with h | h
          · have := hmono j i v u h hj hi; omega
          · subst h; rw [hi] at hj; rw [Option.some.inj hj]
        · have := compare_gt_iff_gt.mp (h2 j v h hj); omega
      have huniq : ∀ v ∈ units, v.header.offset < offset →
          (∀ w ∈ units, w.header.offset ≤ offset → w.header.offset ≤ v.header.offset) → v = u := by
        intro v hv hv1 hv2
        have hum := List.mem_of_getElem? hi
        have a1 := hv2 u hum (by omega)
        have a2 := hlast v hv (by omega)
        obtain ⟨j, hj⟩ := List.mem_iff_getElem?.mp hv
        rcases Nat.lt_trichotomy j i with h | h | h
        · have := hmono j i v u h hj hi; omega
        · subst h; rw [hi] at hj; exact (Option.some.inj hj).symm
        · have := hmono i j u v h hi hj; omega
      by_cases hv : u.header.valid (offset - u.header.offset) = true
      · rw [if_pos ⟨Nat.le_of_lt hlt, hv⟩]
        constructor
        · intro h
          obtain ⟨d', h3, h4⟩ := bind_ok h
          simp only [pure, Except.pure, Except.ok.injEq, Prod.mk.injEq] at h4
          refine ⟨u, List.mem_of_getElem? hi, hlt, hlast, h4.2.symm, by rw [← h4.2]; exact hv, ?_⟩
          rw [← h4.1]; exact h3
        · rintro ⟨v, hvm, hv1, hv2, hv3, hv4, hv5⟩
          have := huniq v hvm hv1 hv2
          subst this
          rw [hv5]
          simp only [bind, Except.bind, pure, Except.pure, hv3]
      · rw [if_neg (fun h => hv h.2)]
        simp only [reduceCtorEq, false_iff]
        rintro ⟨v, hvm, hv1, hv2, hv3, hv4, hv5⟩
        have := huniq v hvm hv1 hv2
        subst this
        rw [hv3] at hv4
        exact hv hv4


/-! ### Scanning an entry -/

theorem nameScan_linkage (fail : Option Err) (n : Bytes) : ∀ (attrs : List Attr) (name : Option Bytes)
    (next : Option AttrValue), (attrs.filterMap linkage?).head? = some n →
    nameScan fail attrs name next = .ok (.found (some n)) := by
  intro attrs
  induction attrs with
  | nil => intro name next h; simp at h
  | cons a t ih =>
    intro name next h
    obtain ⟨an, av⟩ := a
    cases an <;> cases av <;>
      first
      | (rw [nameScan]; simp only [List.filterMap_cons, linkage?, List.head?_cons, Option.some.injEq] at h ⊢
         first
         | (rw [h]; done)
         | exact ih _ _ h)

/-- What is known after scanning an entry without linkage name. -/
def scanned : Option Bytes → Option AttrValue → NameScan
  | some n, _ => .found (some n)
  | none, some w => .follow w
  | none, none => .found none

theorem nameScan_none (fail : Option Err) : ∀ (attrs : List Attr) (name : Option Bytes)
    (next : Option AttrValue), attrs.filterMap linkage? = [] →
    nameScan fail attrs name next =
      finish fail (scanned ((lastOf plain? attrs).or name) ((lastOf origin? attrs).or next)) := by
  intro attrs
  induction attrs with
  | nil =>
    intro name next _
    cases name <;> cases next <;> rfl
  | cons a t ih =>
    intro name next h
    obtain ⟨an, av⟩ := a
    simp only [lastOf_cons]
    cases an <;> cases av <;>
      first
      | (simp [List.filterMap_cons, linkage?] at h; done)
      | (rw [nameScan]
         simp only [List.filterMap_cons, linkage?] at h
         simp only [plain?, origin?, Option.or_none, Option.or_assoc, Option.some_or]
         exact ih _ _ h)

theorem lastOf_none {α : Type} {f : Attr → Option α} {attrs : List Attr} :
    lastOf f attrs = none ↔ attrs.filterMap f = [] := by
  unfold lastOf; exact List.getLast?_eq_none_iff

/-- Scanning the entry a reference leads to. -/
theorem nameScan_ok (e : Entry) {r : NameScan} (h : nameScan e.fail e.attrs none none = .ok r) :
    (∃ n, Named e n ∧ r = .found (some n)) ∨
    (Unnamed e ∧ ((∃ w, lastOf origin? e.attrs = some w ∧ r = .follow w) ∨
      (lastOf origin? e.attrs = none ∧ r = .found none))) := by
  cases hl : e.attrs.filterMap linkage? with
  | cons n t =>
    have hh : (e.attrs.filterMap linkage?).head? = some n := by rw [hl]; rfl
    rw [nameScan_linkage _ n _ _ _ hh] at h
    exact .inl ⟨n, .inl hh, (Except.ok.inj h).symm⟩
  | nil =>
    rw [nameScan_none _ _ _ _ hl] at h
    cases hf : e.fail with
    | some err => rw [hf] at h; simp [finish] at h
    | none =>
      rw [hf] at h
      simp only [finish, Except.ok.injEq, Option.or_none] at h
      cases hp : lastOf plain? e.attrs with
      | some n =>
        rw [hp] at h
        exact .inl ⟨n, .inr ⟨hl, hf, hp⟩, by rw [← h]; rfl⟩
      | none =>
        rw [hp] at h
        refine .inr ⟨⟨hl, lastOf_none.mp hp, hf⟩, ?_⟩
        cases ho : lastOf origin? e.attrs with
        | some w => rw [ho] at h; exact .inl ⟨w, rfl, by rw [← h]; rfl⟩
        | none => rw [ho] at h; exact .inr ⟨rfl, by rw [← h]; rfl⟩

theorem named_scan {e : Entry} {n : Bytes} (h : Named e n) :
    nameScan e.fail e.attrs none none = .ok (.found (some n)) := by
  rcases h with h | ⟨h1, h2, h3⟩
  · exact nameScan_linkage _ n _ _ _ h
  · rw [nameScan_none _ _ _ _ h1, h2, h3]; rfl

theorem unnamed_scan {e : Entry} (h : Unnamed e) :
    nameScan e.fail e.attrs none none = .ok (scanned none (lastOf origin? e.attrs)) := by
  obtain ⟨h1, h2, h3⟩ := h
  rw [nameScan_none _ _ _ _ h1, h3, lastOf_none.mpr h2]
  simp only [finish, Option.or_none]

/-! ### References -/

theorem entryAt_iff (unit : DieUnit) (off : Nat) (e : Entry) :
    EntryAt unit off e ↔ ∃ s, unit.entries (some off) = .ok s ∧ firstEntry s = .ok e := by
  unfold EntryAt
  constructor
  · rintro ⟨o, rest, h⟩; exact ⟨_, h, rfl⟩
  · rintro ⟨s, h1, h2⟩
    cases s with
    | nil => simp [firstEntry] at h2
    | cons x t =>
      obtain ⟨o, r⟩ := x
      cases r with
      | null => simp [firstEntry] at h2
      | bad err => simp [firstEntry] at h2
      | entry e' =>
        simp only [firstEntry, Except.ok.injEq] at h2
        subst h2; exact ⟨o, t, h1⟩

theorem points_iff (units : List Unit) (hs : UnitsSorted units) (unit : DieUnit) (v : AttrValue)
    (unit' : DieUnit) (e : Entry) :
    Points units unit v unit' e ↔
      ∃ off, refTarget units unit v = .ok (some (unit', off)) ∧ EntryAt unit' off e := by
  unfold Points
  constructor
  · rintro (⟨off, h1, h2, h3⟩ | ⟨off, rel, h1, h2, h3⟩)
    · subst h1; subst h2; exact ⟨off, rfl, h3⟩
    · subst h1
      refine ⟨rel, ?_, h3⟩
      rw [refTarget, (findUnit_iff units hs off unit' rel).mpr h2]; rfl
  · rintro ⟨off, h1, h2⟩
    cases v with
    | unitRef o =>
      simp only [refTarget, Except.ok.injEq, Option.some.injEq, Prod.mk.injEq] at h1
      exact .inl ⟨off, by rw [h1.2], h1.1.symm, by rw [h1.1]; exact h2⟩
    | infoRef o =>
      simp only [refTarget] at h1
      cases hf : findUnit units o with
      | error err => rw [hf] at h1; simp [Except.map] at h1
      | ok x =>
        rw [hf] at h1
        simp only [Except.map, Except.ok.injEq, Option.some.injEq] at h1
        subst h1
        exact .inr ⟨o, off, rfl, (findUnit_iff units hs o unit' off).mp hf, h2⟩
    | _ => simp [refTarget] at h1

theorem points_ref {units : List Unit} {unit : DieUnit} {v : AttrValue} {unit' : DieUnit} {e : Entry}
    (h : Points units unit v unit' e) : ¬ NoRef v := by
  rintro ⟨h1, h2⟩
  rcases h with ⟨off, h, _⟩ | ⟨off, rel, h, _⟩
  · exact h1 _ h
  · exact h2 _ h

theorem noRef_target (units : List Unit) (unit : DieUnit) {v : AttrValue} (h : NoRef v) :
    refTarget units unit v = .ok none := by
  cases v with
  | unitRef o => exact absurd rfl (h.1 o)
  | infoRef o => exact absurd rfl (h.2 o)
  | _ => rfl

theorem target_none {units : List Unit} {unit : DieUnit} {v : AttrValue}
    (h : refTarget units unit v = .ok none) : NoRef v := by
  refine ⟨?_, ?_⟩
  · rintro o rfl; simp [refTarget] at h
  · rintro o rfl
    simp only [refTarget] at h
    cases hf : findUnit units o with
    | error err => rw [hf] at h; simp [Except.map] at h
    | ok x => rw [hf] at h; simp [Except.map] at h

theorem nameAttr_points (units : List Unit) (hs : UnitsSorted units) (k : Nat) {unit : DieUnit} {v : AttrValue}
    {unit' : DieUnit} {e : Entry} (h : Points units unit v unit' e) {r : NameScan}
    (hr : nameScan e.fail e.attrs none none = .ok r) :
    nameAttr units (k + 1) unit v =
      match r with
      | .found name => .ok name
      | .follow next => nameAttr units k unit' next := by
  obtain ⟨off, h1, h2⟩ := (points_iff units hs unit v unit' e).mp h
  obtain ⟨s, h3, h4⟩ := (entryAt_iff _ _ _).mp h2
  rw [nameAttr, h1]
  simp only [bind, Except.bind, h3, h4, hr]
  cases r <;> rfl

/-- What following a reference yields. -/
theorem nameAttr_ok (units : List Unit) (hs : UnitsSorted units) : ∀ (k : Nat) (unit : DieUnit)
    (v : AttrValue) (o : Option Bytes), nameAttr units k unit v = .ok o →
    ∀ n, o = some n ↔ ∃ j, j ≤ k ∧ NameAfter units j unit v n := by
  intro k
  induction k with
  | zero =>
    intro unit v o h n
    simp only [nameAttr, Except.ok.injEq] at h
    subst h
    simp only [reduceCtorEq, false_iff]
    rintro ⟨j, hj, ha⟩
    have : j = 0 := by omega
    subst this
    cases ha
  | succ k ih =>
    intro unit v o h n
    have horig := h
    rw [nameAttr] at h
    obtain ⟨t, h1, h⟩ := bind_ok h
    cases t with
    | none =>
      simp only [pure, Except.pure, Except.ok.injEq] at h
      subst h
      simp only [reduceCtorEq, false_iff]
      rintro ⟨j, hj, ha⟩
      have hn := target_none h1
      cases ha with
      | here hp _ => exact points_ref hp hn
      | step hp _ _ _ => exact points_ref hp hn
    | some t =>
      obtain ⟨unit', off⟩ := t
      obtain ⟨s, h2, h⟩ := bind_ok h
      obtain ⟨e, h3, h⟩ := bind_ok h
      obtain ⟨r, h4, h⟩ := bind_ok h
      have hp : Points units unit v unit' e :=
        (points_iff units hs _ _ _ _).mpr ⟨off, h1, (entryAt_iff _ _ _).mpr ⟨s, h2, h3⟩⟩
      have huniq : ∀ unit'' e', Points units unit v unit'' e' → unit'' = unit' ∧ e' = e := by
        intro unit'' e' hp'
        obtain ⟨off', q1, q2⟩ := (points_iff units hs _ _ _ _).mp hp'
        rw [h1] at q1
        simp only [Except.ok.injEq, Option.some.injEq, Prod.mk.injEq] at q1
        obtain ⟨s', q3, q4⟩ := (entryAt_iff _ _ _).mp q2
        rw [← q1.1, ← q1.2, h2] at q3
        rw [← Except.ok.inj q3, h3] at q4
        exact ⟨q1.1.symm, (Except.ok.inj q4).symm⟩
      rcases nameScan_ok e h4 with ⟨m, hm, hr⟩ | ⟨hu, ⟨w, hw, hr⟩ | ⟨hw, hr⟩⟩
      · rw [hr] at h
        simp only [pure, Except.pure, Except.ok.injEq] at h
        subst h
        constructor
        · intro hn
          rw [← Option.some.inj hn]
          exact ⟨1, by omega, .here hp hm⟩
        · rintro ⟨j, hj, ha⟩
          cases ha with
          | here hp' hn =>
            obtain ⟨_, he⟩ := huniq _ _ hp'
            rw [he] at hn
            have := (named_scan hn)
            rw [(named_scan hm)] at this
            simpa using this
          | step hp' hun _ _ =>
            obtain ⟨_, he⟩ := huniq _ _ hp'
            rw [he] at hun
            have := (unnamed_scan hun)
            rw [(named_scan hm)] at this
            cases ho : lastOf origin? e.attrs <;> rw [ho] at this <;> simp [scanned] at this
      · rw [hr] at h
        simp only at h
        rw [ih _ _ _ h n]
        constructor
        · rintro ⟨j, hj, ha⟩
          exact ⟨j + 1, by omega, .step hp hu hw ha⟩
        · rintro ⟨j, hj, ha⟩
          cases ha with
          | here hp' hn =>
            obtain ⟨_, he⟩ := huniq _ _ hp'
            rw [he] at hn
            have := (named_scan hn)
            rw [(unnamed_scan hu), hw] at this
            simp [scanned] at this
          | step hp' hun hw' ha' =>
            obtain ⟨he1, he⟩ := huniq _ _ hp'
            rw [he, hw] at hw'
            rw [← Option.some.inj hw', he1] at ha'
            exact ⟨_, by omega, ha'⟩
      · rw [hr] at h
        simp only [pure, Except.pure, Except.ok.injEq] at h
        subst h
        simp only [reduceCtorEq, false_iff]
        rintro ⟨j, hj, ha⟩
        cases ha with
        | here hp' hn =>
          obtain ⟨_, he⟩ := huniq _ _ hp'
          rw [he] at hn
          have := (named_scan hn)
          rw [(unnamed_scan hu), hw] at this
          simp [scanned] at this
        | step hp' hun hw' ha' =>
          obtain ⟨he1, he⟩ := huniq _ _ hp'
          rw [he, hw] at hw'
          cases hw'

theorem nameAttr_isOk (units : List Unit) (hs : UnitsSorted units) : ∀ (k : Nat) (unit : DieUnit)
    (v : AttrValue), RefsOk units k unit v → ∃ o, nameAttr units k unit v = .ok o := by
  intro k
  induction k with
  | zero => intro unit v _; exact ⟨none, rfl⟩
  | succ k ih =>
    intro unit v h
    rw [RefsOk] at h
    rcases h with h | ⟨unit', e, hp, ⟨n, hn⟩ | ⟨hu, hw⟩⟩
    · rw [nameAttr, noRef_target units unit h]; exact ⟨none, rfl⟩
    · rw [nameAttr_points units hs k hp (named_scan hn)]; exact ⟨_, rfl⟩
    · have hsc := unnamed_scan hu
      cases ho : lastOf origin? e.attrs with
      | none => rw [ho] at hsc; rw [nameAttr_points units hs k hp hsc]; exact ⟨_, rfl⟩
      | some w => rw [ho] at hsc; rw [nameAttr_points units hs k hp hsc]; exact ih _ _ (hw w ho)

/-! ### The attributes of a function -/

theorem nameUpdate_linkage (units : List Unit) (unit : DieUnit) (name : Option Bytes) (a : Attr) (n : Bytes)
    (h : linkage? a = some n) : nameUpdate units unit name a = .ok (some n) := by
  obtain ⟨an, av⟩ := a
  cases an <;> cases av <;> simp only [linkage?, reduceCtorEq, Option.some.injEq] at h
  all_goals (subst h; rfl)

theorem nameUpdate_some (units : List Unit) (unit : DieUnit) (n : Bytes) (a : Attr)
    (h : linkage? a = none) : nameUpdate units unit (some n) a = .ok (some n) := by
  obtain ⟨an, av⟩ := a
  cases an <;> cases av <;> first | rfl | (simp [linkage?] at h; done)

theorem nameUpdate_none (units : List Unit) (hs : UnitsSorted units) (unit : DieUnit) (a : Attr)
    (h : linkage? a = none) {o : Option Bytes} (ho : nameUpdate units unit none a = .ok o) (n : Bytes) :
    o = some n ↔ SoftName units unit a n := by
  have horig : ∀ v, origin? a = some v → nameUpdate units unit none a = nameAttr units 16 unit v := by
    intro v hv
    obtain ⟨an, av⟩ := a
    cases an <;> simp only [origin?, reduceCtorEq, Option.some.injEq] at hv
    all_goals (subst hv; rfl)
  unfold SoftName
  cases hor : origin? a with
  | some v =>
    rw [horig v hor] at ho
    rw [nameAttr_ok units hs _ _ _ _ ho n]
    have hpl : plain? a = none := by
      obtain ⟨an, av⟩ := a
      cases an <;> first | (simp [origin?] at hor; done) | rfl
    rw [hpl]
    constructor
    · rintro ⟨j, h1, h2⟩; exact .inr ⟨v, j, rfl, h1, h2⟩
    · rintro (h | ⟨v', j, h1, h2, h3⟩)
      · cases h
      · rw [← Option.some.inj h1] at h3; exact ⟨j, h2, h3⟩
  | none =>
    have : o = plain? a := by
      obtain ⟨an, av⟩ := a
      cases an <;> cases av <;>
        first
        | (simp [origin?] at hor; done)
        | (simp [linkage?] at h; done)
        | (exact (Except.ok.inj ho).symm)
    rw [this]
    constructor
    · intro h; exact .inl h
    · rintro (h | ⟨v', j, h1, _⟩)
      · exact h
      · cases h1

theorem nameUpdate_isOk (units : List Unit) (hs : UnitsSorted units) (unit : DieUnit) (name : Option Bytes)
    (a : Attr) (h : ∀ v, origin? a = some v → RefsOk units 16 unit v) :
    ∃ o, nameUpdate units unit name a = .ok o := by
  obtain ⟨an, av⟩ := a
  cases an <;> cases name <;>
    first
    | exact ⟨_, rfl⟩
    | exact nameAttr_isOk units hs 16 unit av (h av rfl)
    | (cases av <;> exact ⟨_, rfl⟩)

/-- All attributes with names. -/
def nameUpdates (units : List Unit) (unit : DieUnit) : List Attr → Option Bytes → Except Err (Option Bytes)
  | [], name => .ok name
  | a :: rest, name => do
    let name ← nameUpdate units unit name a
    nameUpdates units unit rest name

theorem nameUpdates_some (units : List Unit) (unit : DieUnit) : ∀ (attrs : List Attr) (n : Bytes),
    nameUpdates units unit attrs (some n) = .ok (some ((lastOf linkage? attrs).getD n)) := by
  intro attrs
  induction attrs with
  | nil => intro n; rfl
  | cons a t ih =>
    intro n
    rw [nameUpdates, lastOf_cons]
    cases hl : linkage? a with
    | some m =>
      rw [nameUpdate_linkage _ _ _ _ m hl]
      simp only [bind, Except.bind]
      rw [ih m]
      cases lastOf linkage? t <;> rfl
    | none =>
      rw [nameUpdate_some _ _ _ _ hl]
      simp only [bind, Except.bind]
      rw [ih n, Option.or_none]

theorem nameUpdates_none (units : List Unit) (hs : UnitsSorted units) (unit : DieUnit) :
    ∀ (attrs : List Attr) (o : Option Bytes), nameUpdates units unit attrs none = .ok o →
    HasName units unit attrs o := by
  intro attrs
  induction attrs with
  | nil =>
    intro o h
    simp only [nameUpdates, Except.ok.injEq] at h
    subst h
    simp [HasName, lastOf]
  | cons a t ih =>
    intro o h
    rw [nameUpdates] at h
    obtain ⟨m, h1, h2⟩ := bind_ok h
    cases hl : linkage? a with
    | some n =>
      rw [nameUpdate_linkage _ _ _ _ n hl] at h1
      have := Except.ok.inj h1
      subst this
      rw [nameUpdates_some, Except.ok.injEq] at h2
      subst h2
      unfold HasName
      rw [lastOf_cons, hl]
      cases lastOf linkage? t <;> rfl
    | none =>
      have hsoft := nameUpdate_none units hs unit a hl h1
      cases hm : m with
      | some n =>
        rw [hm] at h2 hsoft
        rw [nameUpdates_some, Except.ok.injEq] at h2
        subst h2
        unfold HasName
        rw [lastOf_cons, hl, Option.or_none]
        cases hlt : lastOf linkage? t with
        | some n' => rfl
        | none => exact ⟨[], a, t, rfl, (hsoft n).mp rfl, by simp⟩
      | none =>
        rw [hm] at h2 hsoft
        have hno : ∀ n, ¬ SoftName units unit a n := fun n hn => by
          have := (hsoft n).mpr hn; cases this
        have hi := ih o h2
        unfold HasName at hi ⊢
        rw [lastOf_cons, hl, Option.or_none]
        cases hlt : lastOf linkage? t with
        | some n' => rw [hlt] at hi; exact hi
        | none =>
          rw [hlt] at hi
          cases o with
          | some n =>
            obtain ⟨pre, b, post, k1, k2, k3⟩ := hi
            refine ⟨a :: pre, b, post, by rw [k1]; rfl, k2, ?_⟩
            intro c hc
            rcases List.mem_cons.mp hc with hc | hc
            · rw [hc]; exact hno
            · exact k3 c hc
          | none =>
            intro c hc
            rcases List.mem_cons.mp hc with hc | hc
            · rw [hc]; exact hno
            · exact hi c hc

theorem nameUpdates_isOk (units : List Unit) (hs : UnitsSorted units) (unit : DieUnit) :
    ∀ (attrs : List Attr) (name : Option Bytes),
    (∀ a ∈ attrs, ∀ v, origin? a = some v → RefsOk units 16 unit v) →
    ∃ o, nameUpdates units unit attrs name = .ok o := by
  intro attrs
  induction attrs with
  | nil => intro name _; exact ⟨name, rfl⟩
  | cons a t ih =>
    intro name h
    obtain ⟨m, hm⟩ := nameUpdate_isOk units hs unit name a (h a List.mem_cons_self)
    obtain ⟨o, ho⟩ := ih m (fun b hb => h b (List.mem_cons_of_mem _ hb))
    exact ⟨o, by rw [nameUpdates, hm]; exact ho⟩

theorem functionAttrs_ok (units : List Unit) (unit : DieUnit) (fail : Option Err) : ∀ (attrs : List Attr)
    (name : Option Bytes) (ra : RangeAttrs) (o : Option Bytes) (ra' : RangeAttrs),
    functionAttrs units unit fail attrs name ra = .ok (o, ra') ↔
    fail = none ∧ nameUpdates units unit attrs name = .ok o ∧ updates attrs ra = .ok ra' := by
  intro attrs
  induction attrs with
  | nil =>
    intro name ra o ra'
    cases fail with
    | some e => simp [functionAttrs, finish]
    | none => simp [functionAttrs, finish, nameUpdates, updates]
  | cons a t ih =>
    intro name ra o ra'
    rw [functionAttrs, nameUpdates, updates, bind_ok_iff, bind_ok_iff, bind_ok_iff]
    constructor
    · rintro ⟨m, h1, h2⟩
      obtain ⟨ra1, h3, h4⟩ := bind_ok h2
      obtain ⟨h5, h6, h7⟩ := (ih _ _ _ _).mp h4
      exact ⟨h5, ⟨m, h1, h6⟩, ra1, h3, h7⟩
    · rintro ⟨h5, ⟨m, h1, h6⟩, ra1, h3, h7⟩
      refine ⟨m, h1, ?_⟩
      rw [h3]
      exact (ih _ _ _ _).mpr ⟨h5, h6, h7⟩

end Blazesym.Dwarf
