import Verif.Dwarf.Units
import Verif.Dwarf.UnitsSpec
import Verif.Dwarf.CodeLemmas
import Verif.Dwarf.LinesProps
import Verif.Util.SearchProps

/-! Lemmas about units. -/

set_option autoImplicit false

namespace Blazesym.Dwarf
open Blazesym.Util Blazesym.Spec Blazesym.Spec.Dwarf

/-! ### `.debug_aranges` -/

theorem takeWhile_eq_filter (l : List ArangeSet) (off : Nat)
    (hs : l.Pairwise (fun a b => a.infoOffset ≤ b.infoOffset)) (hge : ∀ a ∈ l, off ≤ a.infoOffset) :
    l.takeWhile (fun a => decide (a.infoOffset = off)) = l.filter (fun a => decide (a.infoOffset = off)) := by
  induction l with
  | nil => rfl
  | cons a t ih =>
    rw [List.pairwise_cons] at hs
    by_cases h : a.infoOffset = off
    · simp only [List.takeWhile_cons, List.filter_cons, h, decide_true, if_true]
      rw [ih hs.2 (fun b hb => hge b (List.mem_cons_of_mem _ hb))]
    · simp only [List.takeWhile_cons, List.filter_cons, h, decide_false, Bool.false_eq_true, if_false]
      symm
      rw [List.filter_eq_nil_iff]
      intro b hb
      have h1 := hs.1 b hb
      have h2 := hge a List.mem_cons_self
      simp only [decide_eq_true_eq]
      omega

theorem drop_takeWhile_eq_filter (l : List ArangeSet) (off : Nat) :
    ∀ (k : Nat), l.Pairwise (fun a b => a.infoOffset ≤ b.infoOffset) →
    (∀ (j : Nat) (a : ArangeSet), j < k → l[j]? = some a → a.infoOffset ≠ off) →
    (∃ a, l[k]? = some a ∧ a.infoOffset = off) →
    (l.drop k).takeWhile (fun a => decide (a.infoOffset = off)) =
      l.filter (fun a => decide (a.infoOffset = off)) := by
  induction l with
  | nil => intro k _ _ ⟨a, h, _⟩; simp at h
  | cons a t ih =>
    intro k hs hlt hk
    cases k with
    | zero =>
      obtain ⟨x, hx, hxo⟩ := hk
      simp only [List.getElem?_cons_zero, Option.some.injEq] at hx
      rw [List.drop_zero]
      refine takeWhile_eq_filter _ off hs ?_
      intro b hb
      rw [List.pairwise_cons] at hs
      rcases List.mem_cons.mp hb with hb | hb
      · rw [hb, hx]; omega
      · have := hs.1 b hb; rw [hx] at this; omega
    | succ k =>
      have ha := hlt 0 a (by omega) rfl
      rw [List.drop_succ_cons, List.filter_cons, if_neg (by simpa using ha)]
      rw [List.pairwise_cons] at hs
      exact ih k hs.2 (fun j b hj hb => hlt (j + 1) b (by omega) (by simpa using hb)) (by simpa using hk)

theorem firstOf_spec (l : List ArangeSet) (off : Nat) : ∀ (i : Nat),
    (∃ a, l[i]? = some a ∧ a.infoOffset = off) →
    (∃ a, l[firstOf l off i]? = some a ∧ a.infoOffset = off) ∧
    (∀ (k : Nat), firstOf l off i = k + 1 → ∀ a, l[k]? = some a → a.infoOffset ≠ off) := by
  intro i
  induction i with
  | zero => intro h; exact ⟨h, fun k hk => by simp [firstOf] at hk⟩
  | succ i ih =>
    intro h
    rw [firstOf]
    cases hi : l[i]? with
    | none =>
      obtain ⟨a, ha, _⟩ := h
      have h1 := (List.getElem?_eq_some_iff.mp ha).1
      have h2 := List.getElem?_eq_none_iff.mp hi
      omega
    | some a =>
      simp only
      by_cases hao : a.infoOffset = off
      · rw [if_pos hao]; exact ih ⟨a, hi, hao⟩
      · rw [if_neg hao]
        refine ⟨h, ?_⟩
        intro k hk b hb
        have : k = i := by omega
        subst this
        rw [hi] at hb
        rw [← Option.some.inj hb]
        exact hao

theorem arangesOf_eq (l : List ArangeSet) (off : Nat)
    (hs : l.Pairwise (fun a b => a.infoOffset ≤ b.infoOffset)) :
    arangesOf l off = arangesLoop (l.filter (fun a => decide (a.infoOffset = off))) := by
  have hc := binarySearchBy_contract l _ (cmpSorted_of_sortedBy l (fun a => a.infoOffset) hs off)
  unfold arangesOf
  cases hb : binarySearchBy l (fun a => compare a.infoOffset off) with
  | inl i =>
    rw [hb] at hc
    obtain ⟨e, he, hq⟩ := hc
    rw [compare_eq_iff_eq] at hq
    obtain ⟨⟨a, h1, h1o⟩, h2⟩ := firstOf_spec l off i ⟨e, he, hq⟩
    simp only
    rw [drop_takeWhile_eq_filter l off _ hs ?_ ⟨a, h1, h1o⟩]
    intro j b hj hbj hbo
    obtain ⟨k, hk⟩ : ∃ k, firstOf l off i = k + 1 := ⟨firstOf l off i - 1, by omega⟩
    have hkl : k + 1 < l.length := by
      have := (List.getElem?_eq_some_iff.mp h1).1; omega
    have hkk : l[k]? = some l[k] := List.getElem?_eq_getElem (by omega)
    have h3 := h2 k hk _ hkk
    have hmono : ∀ (p q : Nat) (x y : ArangeSet), p ≤ q → l[p]? = some x → l[q]? = some y →
        x.infoOffset ≤ y.infoOffset := by
      intro p q x y hpq hx hy
      obtain ⟨hp, hpx⟩ := List.getElem?_eq_some_iff.mp hx
      obtain ⟨hq', hqy⟩ := List.getElem?_eq_some_iff.mp hy
      rcases Nat.lt_or_eq_of_le hpq with hlt | heq
      · have := List.pairwise_iff_getElem.mp hs p q hp hq' hlt
        rw [hpx, hqy] at this; exact this
      · subst heq; rw [hpx] at hqy; rw [hqy]
    rw [hk] at h1
    have e1 := hmono j k b _ (by omega) hbj hkk
    have e2 := hmono k (k + 1) _ a (by omega) hkk h1
    omega
  | inr i =>
    rw [hb] at hc
    obtain ⟨_, h1, h2⟩ := hc
    have : l.filter (fun a => decide (a.infoOffset = off)) = [] := by
      rw [List.filter_eq_nil_iff]
      intro a ha hao
      simp only [decide_eq_true_eq] at hao
      obtain ⟨j, hj⟩ := List.mem_iff_getElem?.mp ha
      rcases Nat.lt_or_ge j i with h | h
      · have := compare_lt_iff_lt.mp (h1 j a h hj); omega
      · have := compare_gt_iff_gt.mp (h2 j a h hj); omega
    rw [this]; rfl

theorem arangesLoop_ok : ∀ (l : List ArangeSet) (rs : List Range), arangesLoop l = .ok rs →
    (∀ set ∈ l, ∃ items, set.items = .ok items) ∧
    ∀ r, r ∈ rs ↔ ∃ set ∈ l, ∃ items, set.items = .ok items ∧ .ok r ∈ items ∧ r.start < r.stop := by
  intro l
  induction l with
  | nil =>
    intro rs h
    simp only [arangesLoop, Except.ok.injEq] at h
    subst h; simp
  | cons a t ih =>
    intro rs h
    rw [arangesLoop] at h
    obtain ⟨items, h1, h⟩ := bind_ok h
    obtain ⟨more, h2, h⟩ := bind_ok h
    simp only [pure, Except.pure, Except.ok.injEq] at h
    obtain ⟨i1, i2⟩ := ih more h2
    refine ⟨?_, ?_⟩
    · intro set hset
      rcases List.mem_cons.mp hset with hset | hset
      · rw [hset]; exact ⟨items, h1⟩
      · exact i1 set hset
    · intro r
      rw [← h, List.mem_append, i2 r]
      have hm : (r ∈ items.filterMap keptRange) ↔ .ok r ∈ items ∧ r.start < r.stop := by
        rw [List.mem_filterMap]
        constructor
        · rintro ⟨x, hx, hxr⟩
          cases x with
          | error e => simp [keptRange] at hxr
          | ok x =>
            simp only [keptRange] at hxr
            split at hxr
            · rename_i hne
              have := Option.some.inj hxr
              subst this
              exact ⟨hx, by omega⟩
            · cases hxr
        · rintro ⟨hx, hlt⟩
          exact ⟨.ok r, hx, by simp only [keptRange]; rw [if_pos (by omega)]⟩
      rw [hm]
      constructor
      · rintro (⟨h3, h4⟩ | ⟨set, h3, h4⟩)
        · exact ⟨a, List.mem_cons_self, items, h1, h3, h4⟩
        · exact ⟨set, List.mem_cons_of_mem _ h3, h4⟩
      · rintro ⟨set, h3, items', h4, h5⟩
        rcases List.mem_cons.mp h3 with h3 | h3
        · subst h3
          rw [h1] at h4
          rw [Except.ok.inj h4]
          exact .inl h5
        · exact .inr ⟨set, h3, items', h4, h5⟩

theorem arangesLoop_isOk (l : List ArangeSet) (h : ∀ set ∈ l, ∃ items, set.items = .ok items) :
    ∃ rs, arangesLoop l = .ok rs := by
  induction l with
  | nil => exact ⟨[], rfl⟩
  | cons a t ih =>
    obtain ⟨items, h1⟩ := h a List.mem_cons_self
    obtain ⟨more, h2⟩ := ih (fun x hx => h x (List.mem_cons_of_mem _ hx))
    exact ⟨_, by rw [arangesLoop, h1, h2]; rfl⟩

/-- The sets of `.debug_aranges` in the order they are searched. -/
def sortedSets (σ : Sorter) (s : Sections) : List ArangeSet :=
  σ.sort (fun a b => decide (a.infoOffset ≤ b.infoOffset)) s.aranges

theorem sortedSets_sorted (σ : Sorter) (s : Sections) :
    (sortedSets σ s).Pairwise (fun a b => a.infoOffset ≤ b.infoOffset) := by
  have := σ.sorted (fun a b : ArangeSet => decide (a.infoOffset ≤ b.infoOffset))
    (fun a b c h1 h2 => by simp only [decide_eq_true_eq] at *; omega)
    (fun a b => by simp only [Bool.or_eq_true, decide_eq_true_eq]; omega) s.aranges
  exact this.imp (fun h => by simpa using h)

theorem mem_sortedSets (σ : Sorter) (s : Sections) (a : ArangeSet) : a ∈ sortedSets σ s ↔ a ∈ s.aranges :=
  (σ.perm _ _).mem_iff

theorem aranges_ok {σ : Sorter} {s : Sections} {off : Nat} {rs : List Range}
    (h : arangesOf (sortedSets σ s) off = .ok rs) (r : Range) : r ∈ rs ↔ InAranges s off r := by
  rw [arangesOf_eq _ _ (sortedSets_sorted σ s)] at h
  rw [(arangesLoop_ok _ _ h).2 r]
  unfold InAranges
  constructor
  · rintro ⟨set, h1, h2⟩
    rw [List.mem_filter, mem_sortedSets] at h1
    exact ⟨set, h1.1, by simpa using h1.2, h2⟩
  · rintro ⟨set, h1, h2, h3⟩
    exact ⟨set, by rw [List.mem_filter, mem_sortedSets]; exact ⟨h1, by simpa using h2⟩, h3⟩

theorem aranges_isOk (σ : Sorter) (s : Sections) (off : Nat)
    (h : ∀ set ∈ s.aranges, set.infoOffset = off → ∃ items, set.items = .ok items) :
    ∃ rs, arangesOf (sortedSets σ s) off = .ok rs := by
  rw [arangesOf_eq _ _ (sortedSets_sorted σ s)]
  refine arangesLoop_isOk _ ?_
  intro set hs
  rw [List.mem_filter, mem_sortedSets] at hs
  exact h set hs.1 (by simpa using hs.2)

/-! ### Root entries -/

theorem rootAttrs_ok (fail : Option Err) : ∀ (attrs : List Attr) (ra : RangeAttrs) (lang : Option Nat)
    (res : RangeAttrs × Option Nat), rootAttrs fail attrs ra lang = .ok res →
    fail = none ∧ updates attrs ra = .ok res.1 := by
  intro attrs
  induction attrs with
  | nil =>
    intro ra lang res h
    rw [rootAttrs] at h
    cases fail with
    | some e => simp [finish] at h
    | none => simp only [finish, Except.ok.injEq] at h; rw [← h]; exact ⟨rfl, rfl⟩
  | cons a rest ih =>
    intro ra lang res h
    rw [rootAttrs] at h
    obtain ⟨ra1, h1, h2⟩ := bind_ok h
    have : ∃ lang', rootAttrs fail rest ra1 lang' = .ok res := by
      split at h2
      · exact ⟨_, h2⟩
      · exact ⟨_, h2⟩
    obtain ⟨lang', h3⟩ := this
    obtain ⟨i1, i2⟩ := ih _ _ _ h3
    refine ⟨i1, ?_⟩
    rw [updates, h1]; exact i2

theorem rootAttrs_isOk : ∀ (attrs : List Attr) (ra ra' : RangeAttrs) (lang : Option Nat),
    updates attrs ra = .ok ra' → ∃ lang', rootAttrs none attrs ra lang = .ok (ra', lang') := by
  intro attrs
  induction attrs with
  | nil =>
    intro ra ra' lang h
    simp only [updates, Except.ok.injEq] at h
    subst h; exact ⟨lang, rfl⟩
  | cons a rest ih =>
    intro ra ra' lang h
    rw [updates] at h
    obtain ⟨ra1, h1, h2⟩ := bind_ok h
    rw [rootAttrs, h1]
    simp only [bind, Except.bind]
    split
    · exact ih _ _ _ h2
    · exact ih _ _ _ h2

theorem mem_lineRanges (σ : Sorter) (main : MainUnit) (r : Range) :
    r ∈ lineRanges σ main ↔ LineRange main r := by
  unfold lineRanges LineRange
  cases hl : main.line with
  | none => simp
  | some prog =>
    simp only
    cases hp : parseLines σ main.compDir prog with
    | error e =>
      simp only [List.not_mem_nil, false_iff]
      rintro ⟨p, h1, h2, h3, _⟩
      have := Option.some.inj h1
      subst this
      obtain ⟨l, hl⟩ := (C37_accepted σ main.compDir prog).mpr ⟨h2, h3⟩
      rw [hp] at hl; cases hl
    | ok lines =>
      obtain ⟨h1, h2⟩ := (C37_accepted σ main.compDir prog).mp ⟨lines, hp⟩
      obtain ⟨_, hperm, _, _⟩ := parseLines_ok hp
      simp only [List.mem_map]
      constructor
      · rintro ⟨q, hq, hqr⟩
        rw [hperm.mem_iff, List.mem_map] at hq
        obtain ⟨x, hx, hxq⟩ := hq
        refine ⟨prog, rfl, h1, h2, x.1, x.2.1, ?_, ?_⟩
        · rw [← hqr, ← hxq]
          exact (runs_iff prog.rows x.1 x.2.1 x.2.2).mp hx
        · have hseq := (runs_iff prog.rows x.1 x.2.1 x.2.2).mp hx
          obtain ⟨_, _, _, _, _, hne, _⟩ := hseq
          cases hc : x.2.1 with
          | nil => exact absurd hc hne
          | cons y ys =>
            refine ⟨y, ys, rfl, ?_⟩
            rw [← hqr, ← hxq]
            exact (seqOf_start (x := x) (start := y.address) ⟨y, ys, hc, rfl⟩).symm
      · rintro ⟨p, hp1, _, _, pos, seq, hseq, hst⟩
        have := Option.some.inj hp1
        subst this
        refine ⟨seqOf (pos, seq, r.stop), ?_, ?_⟩
        · rw [hperm.mem_iff]
          exact List.mem_map_of_mem ((runs_iff _ _ _ _).mpr hseq)
        · have := seqOf_start (x := (pos, seq, r.stop)) hst
          cases r
          simp only [Range.mk.injEq]
          exact ⟨this, rfl⟩

/-! ### One header -/

theorem parseUnit_ok {σ : Sorter} {h : Header} {o : Option (List Range × Unit)}
    (hp : parseUnit σ h = .ok o) :
    (o = none ∧ ∀ main e, h.unit = .ok main → ¬ RootEntry main e) ∨
    (∃ main e rs u, o = some (rs, u) ∧ u.header = h ∧ h.unit = .ok main ∧ RootEntry main e ∧
      (∀ main' e', h.unit = .ok main' → RootEntry main' e' → main' = main ∧ e' = e) ∧
      ∀ r, r ∈ rs ↔ (r ∈ codeOf e.attrs ∨ (codeOf e.attrs = [] ∧ LineRange main r))) := by
  unfold parseUnit at hp
  cases hu : h.unit with
  | error e =>
    rw [hu] at hp
    simp only [Except.ok.injEq] at hp
    exact .inl ⟨hp.symm, fun main e h => by cases h⟩
  | ok main =>
    rw [hu] at hp
    obtain ⟨stream, hs, hp⟩ := bind_ok hp
    split at hp
    · cases hp
    · cases hp
    · simp only [pure, Except.pure, Except.ok.injEq] at hp
      refine .inl ⟨hp.symm, ?_⟩
      rintro main' e' hm ⟨off, rest, hr⟩
      have := Except.ok.inj hm
      subst this
      rw [hs] at hr
      simp at hr
    · rename_i off e rest
      obtain ⟨x, h1, hp⟩ := bind_ok hp
      obtain ⟨rs, h2, hp⟩ := bind_ok hp
      simp only [pure, Except.pure, Except.ok.injEq] at hp
      obtain ⟨_, hup⟩ := rootAttrs_ok _ _ _ _ _ h1
      have hcode := forEachRange_ok hup h2
      refine .inr ⟨main, e, _, _, hp.symm, rfl, rfl, ⟨off, rest, hs⟩, ?_, ?_⟩
      · rintro main' e' hm ⟨off', rest', hr⟩
        have := Except.ok.inj hm
        subst this
        rw [hs] at hr
        simp only [Except.ok.injEq, List.cons.injEq, Prod.mk.injEq, Raw.entry.injEq] at hr
        exact ⟨rfl, hr.1.2.symm⟩
      · intro r
        rw [hcode]
        cases hc : codeOf e.attrs with
        | nil => simp [mem_lineRanges]
        | cons y ys => simp

theorem parseHeader_ok {σ : Sorter} {s : Sections} {h : Header} {o : Option (List Range × Unit)}
    (hp : parseHeader σ (sortedSets σ s) h = .ok o) :
    (o = none ∧ ¬ Kept s h ∧ ∀ r, ¬ Declares s h r) ∨
    (∃ rs u, o = some (rs, u) ∧ u.header = h ∧ Kept s h ∧ ∀ r, r ∈ rs ↔ Declares s h r) := by
  unfold parseHeader at hp
  by_cases hi : h.inInfo = false
  · rw [if_pos hi] at hp
    simp only [Except.ok.injEq] at hp
    refine .inl ⟨hp.symm, ?_, ?_⟩
    · rintro ⟨h1, _⟩; rw [hi] at h1; cases h1
    · rintro r ⟨h1, _⟩; rw [hi] at h1; cases h1
  · rw [if_neg hi] at hp
    have hi' : h.inInfo = true := by simpa using hi
    cases hk : h.kind with
    | type =>
      rw [hk] at hp
      simp only [Except.ok.injEq] at hp
      refine .inl ⟨hp.symm, ?_, ?_⟩
      · rintro ⟨_, h1 | ⟨h1, _⟩⟩ <;> (rw [hk] at h1; cases h1)
      · rintro r ⟨_, h1, _⟩; rw [hk] at h1; cases h1
    | partialUnit =>
      rw [hk] at hp
      simp only [Except.ok.injEq] at hp
      refine .inr ⟨[], _, hp.symm, rfl, ⟨hi', .inl hk⟩, ?_⟩
      intro r
      simp only [List.not_mem_nil, false_iff]
      rintro ⟨_, h1, _⟩; rw [hk] at h1; cases h1
    | compile =>
      rw [hk] at hp
      obtain ⟨rs, h1, hp⟩ := bind_ok hp
      have har := fun r => aranges_ok h1 r
      cases hrs : rs with
      | cons y ys =>
        rw [hrs] at hp
        simp only [List.isEmpty_cons, Bool.false_eq_true, if_false, pure, Except.pure, Except.ok.injEq] at hp
        rw [← hrs] at hp
        have hy : InAranges s h.offset y := (har y).mp (by rw [hrs]; exact List.mem_cons_self)
        refine .inr ⟨rs, _, hp.symm, rfl, ⟨hi', .inr ⟨hk, .inl ⟨y, hy⟩⟩⟩, ?_⟩
        intro r
        rw [har r]
        constructor
        · intro hr; exact ⟨hi', hk, .inl hr⟩
        · rintro ⟨_, _, hr | ⟨hr, _⟩⟩
          · exact hr
          · exact absurd hy (hr y)
      | nil =>
        rw [hrs] at hp
        simp only [List.isEmpty_nil, if_true] at hp
        have hno : ∀ r, ¬ InAranges s h.offset r := by
          intro r hr
          have := (har r).mpr hr
          rw [hrs] at this; simp at this
        rcases parseUnit_ok hp with ⟨h2, h3⟩ | ⟨main, e, rs', u, h2, h3, h4, h5, h6, h7⟩
        · refine .inl ⟨h2, ?_, ?_⟩
          · rintro ⟨_, h1 | ⟨_, ⟨r, hr⟩ | ⟨main, e, hm, hroot⟩⟩⟩
            · rw [hk] at h1; cases h1
            · exact hno r hr
            · exact h3 main e hm hroot
          · rintro r ⟨_, _, hr | ⟨_, main, e, hm, hroot, _⟩⟩
            · exact hno r hr
            · exact h3 main e hm hroot
        · refine .inr ⟨rs', u, h2, h3, ⟨hi', .inr ⟨hk, .inr ⟨main, e, h4, h5⟩⟩⟩, ?_⟩
          intro r
          rw [h7 r]
          constructor
          · intro hr; exact ⟨hi', hk, .inr ⟨hno, main, e, h4, h5, hr⟩⟩
          · rintro ⟨_, _, hr | ⟨_, main', e', hm, hroot, hr⟩⟩
            · exact absurd hr (hno r)
            · obtain ⟨q1, q2⟩ := h6 main' e' hm hroot
              rw [q1, q2] at hr; exact hr

theorem parseHeader_isOk (σ : Sorter) (s : Sections) (h : Header)
    (hok : h.inInfo = true → h.kind = .compile → HeaderOk s h) :
    ∃ o, parseHeader σ (sortedSets σ s) h = .ok o := by
  unfold parseHeader
  by_cases hi : h.inInfo = false
  · rw [if_pos hi]; exact ⟨_, rfl⟩
  · rw [if_neg hi]
    have hi' : h.inInfo = true := by simpa using hi
    cases hk : h.kind with
    | type => exact ⟨_, rfl⟩
    | partialUnit => exact ⟨_, rfl⟩
    | compile =>
      have ho := hok hi' hk
      obtain ⟨rs, h1⟩ := aranges_isOk σ s h.offset ho.sets
      simp only [h1, bind, Except.bind]
      have har := fun r => aranges_ok h1 r
      cases hrs : rs with
      | cons y ys => exact ⟨_, rfl⟩
      | nil =>
        simp only [List.isEmpty_nil, if_true]
        have hno : ∀ r, ¬ InAranges s h.offset r := by
          intro r hr
          have := (har r).mpr hr
          rw [hrs] at this; simp at this
        unfold parseUnit
        cases hu : h.unit with
        | error e => exact ⟨_, rfl⟩
        | ok main =>
          obtain ⟨off, raw, rest, h2, h3⟩ := ho.entries hno main hu
          simp only [h2, bind, Except.bind]
          rcases h3 with h3 | ⟨e, h3, h4, h5⟩
          · subst h3; exact ⟨_, rfl⟩
          · subst h3
            obtain ⟨ra, hra⟩ := updates_isOk e.attrs {} h5.address h5.list
            obtain ⟨lang, hl⟩ := rootAttrs_isOk e.attrs {} ra none hra
            have hf := forEachRange_isOk hra h5
            simp only [h4, hl, hf]
            exact ⟨_, rfl⟩

/-! ### All headers -/

/-- The ranges of units numbered from `n` on. -/
def numbered : Nat → List (List Range × Unit) → List UnitRange
  | _, [] => []
  | n, x :: rest => x.1.map (fun r => { unitId := n, maxEnd := 0, range := r }) ++ numbered (n + 1) rest

theorem mem_numbered : ∀ (l : List (List Range × Unit)) (n : Nat) (x : UnitRange),
    x ∈ numbered n l → ∃ i rs u, l[i]? = some (rs, u) ∧ x.unitId = n + i ∧ x.range ∈ rs := by
  intro l
  induction l with
  | nil => intro n x h; simp [numbered] at h
  | cons a t ih =>
    intro n x h
    rw [numbered, List.mem_append] at h
    rcases h with h | h
    · obtain ⟨r, hr, hrx⟩ := List.mem_map.mp h
      exact ⟨0, a.1, a.2, rfl, by rw [← hrx]; rfl, by rw [← hrx]; exact hr⟩
    · obtain ⟨i, rs, u, h1, h2, h3⟩ := ih (n + 1) x h
      exact ⟨i + 1, rs, u, by simpa using h1, by omega, h3⟩

theorem numbered_mem : ∀ (l : List (List Range × Unit)) (n i : Nat) (rs : List Range) (u : Unit) (r : Range),
    l[i]? = some (rs, u) → r ∈ rs → (⟨n + i, 0, r⟩ : UnitRange) ∈ numbered n l := by
  intro l
  induction l with
  | nil => intro n i rs u r h; simp at h
  | cons a t ih =>
    intro n i rs u r h hr
    rw [numbered, List.mem_append]
    cases i with
    | zero =>
      simp only [List.getElem?_cons_zero, Option.some.injEq] at h
      subst h
      exact .inl (List.mem_map.mpr ⟨r, hr, rfl⟩)
    | succ i =>
      right
      have := ih (n + 1) i rs u r (by simpa using h) hr
      rw [show n + 1 + i = n + (i + 1) by omega] at this
      exact this

theorem headersLoop_ok (σ : Sorter) (ar : List ArangeSet) : ∀ (hs : List Header) (ur : List UnitRange)
    (us : List Unit) (res : List UnitRange × List Unit), headersLoop σ ar hs ur us = .ok res →
    ∃ l : List (List Range × Unit), res = (ur ++ numbered us.length l, us ++ l.map Prod.snd) ∧
      (∀ h ∈ hs, ∃ o, parseHeader σ ar h = .ok o) ∧
      l = hs.filterMap (fun h => match parseHeader σ ar h with | .ok o => o | .error _ => none) := by
  intro hs
  induction hs with
  | nil =>
    intro ur us res h
    simp only [headersLoop, Except.ok.injEq] at h
    exact ⟨[], by rw [← h]; simp [numbered], by simp, rfl⟩
  | cons a t ih =>
    intro ur us res h
    rw [headersLoop] at h
    obtain ⟨o, h1, h⟩ := bind_ok h
    cases o with
    | none =>
      obtain ⟨l, i1, i2, i3⟩ := ih _ _ _ h
      refine ⟨l, i1, ?_, ?_⟩
      · intro x hx
        rcases List.mem_cons.mp hx with hx | hx
        · rw [hx]; exact ⟨_, h1⟩
        · exact i2 x hx
      · rw [List.filterMap_cons, h1]; exact i3
    | some y =>
      obtain ⟨l, i1, i2, i3⟩ := ih _ _ _ h
      refine ⟨y :: l, ?_, ?_, ?_⟩
      · rw [i1]
        simp [numbered, List.append_assoc]
      · intro x hx
        rcases List.mem_cons.mp hx with hx | hx
        · rw [hx]; exact ⟨_, h1⟩
        · exact i2 x hx
      · rw [List.filterMap_cons, h1, i3]

theorem headersLoop_isOk (σ : Sorter) (ar : List ArangeSet) : ∀ (hs : List Header) (ur : List UnitRange)
    (us : List Unit), (∀ h ∈ hs, ∃ o, parseHeader σ ar h = .ok o) →
    ∃ res, headersLoop σ ar hs ur us = .ok res := by
  intro hs
  induction hs with
  | nil => intro ur us _; exact ⟨_, rfl⟩
  | cons a t ih =>
    intro ur us h
    obtain ⟨o, ho⟩ := h a List.mem_cons_self
    have ht := fun x hx => h x (List.mem_cons_of_mem a hx)
    rw [headersLoop, ho]
    simp only [bind, Except.bind]
    cases o with
    | none => exact ih _ _ ht
    | some y => exact ih _ _ ht

/-! ### Searching ranges -/

/-- The ranges are in the order of their starts, and each has the greatest end so far. -/
def Prepared (m : Nat) : List UnitRange → Prop
  | [] => True
  | r :: rest => r.maxEnd = max m r.range.stop ∧ (∀ x ∈ rest, r.range.start ≤ x.range.start) ∧
      Prepared (max m r.range.stop) rest

theorem fillMaxEnd_map (m : Nat) (l : List UnitRange) :
    (fillMaxEnd m l).map (fun r => (r.unitId, r.range)) = l.map (fun r => (r.unitId, r.range)) := by
  induction l generalizing m with
  | nil => rfl
  | cons a t ih => simp [fillMaxEnd, ih]

theorem mem_fillMaxEnd (m : Nat) (l : List UnitRange) (i : Nat) (r : Range) :
    (∃ x ∈ fillMaxEnd m l, x.unitId = i ∧ x.range = r) ↔ ∃ x ∈ l, x.unitId = i ∧ x.range = r := by
  have h : ∀ l' : List UnitRange, (∃ x ∈ l', x.unitId = i ∧ x.range = r) ↔
      (i, r) ∈ l'.map (fun r => (r.unitId, r.range)) := by
    intro l'; simp
  rw [h, h, fillMaxEnd_map]

theorem fillMaxEnd_prepared (m : Nat) (l : List UnitRange)
    (h : l.Pairwise (fun a b => a.range.start ≤ b.range.start)) : Prepared m (fillMaxEnd m l) := by
  induction l generalizing m with
  | nil => trivial
  | cons a t ih =>
    rw [List.pairwise_cons] at h
    refine ⟨rfl, ?_, ih _ h.2⟩
    intro x hx
    obtain ⟨y, hy, _, hyx⟩ := (mem_fillMaxEnd (max m a.range.stop) t x.unitId x.range).mp ⟨x, hx, rfl, rfl⟩
    rw [← hyx]; exact h.1 y hy

theorem Prepared.sorted {m : Nat} {l : List UnitRange} (h : Prepared m l) :
    l.Pairwise (fun a b => a.range.start ≤ b.range.start) := by
  induction l generalizing m with
  | nil => exact List.Pairwise.nil
  | cons a t ih => exact List.pairwise_cons.mpr ⟨h.2.1, ih h.2.2⟩

/-- The ends of all earlier ranges are at most the greatest end so far. -/
theorem Prepared.bound {m : Nat} {l : List UnitRange} (h : Prepared m l) :
    l.Pairwise (fun a b => a.range.stop ≤ b.maxEnd) ∧ (∀ a ∈ l, a.range.stop ≤ a.maxEnd) ∧
    ∀ a ∈ l, m ≤ a.maxEnd := by
  induction l generalizing m with
  | nil => exact ⟨List.Pairwise.nil, by simp, by simp⟩
  | cons a t ih =>
    obtain ⟨i1, i2, i3⟩ := ih h.2.2
    refine ⟨List.pairwise_cons.mpr ⟨?_, i1⟩, ?_, ?_⟩
    · intro b hb
      exact le_trans (le_max_right _ _) (i3 b hb)
    · intro b hb
      rcases List.mem_cons.mp hb with hb | hb
      · rw [hb, h.1]; exact le_max_right _ _
      · exact i2 b hb
    · intro b hb
      rcases List.mem_cons.mp hb with hb | hb
      · rw [hb, h.1]; exact le_max_left _ _
      · exact le_trans (le_max_left _ _) (i3 b hb)

/-- The test for ranges that have an address in common with a range. -/
def overlaps (lo hi : Nat) (r : UnitRange) : Bool := decide (lo < r.range.stop ∧ r.range.start < hi)

theorem takeUnits_eq (lo hi : Nat) : ∀ (l : List UnitRange),
    (∀ r ∈ l, r.range.start ≤ hi) → l.Pairwise (fun a b => b.range.stop ≤ a.maxEnd) →
    (∀ a ∈ l, a.range.stop ≤ a.maxEnd) → takeUnits lo hi l = .ok (l.filter (overlaps lo hi)) := by
  intro l
  induction l with
  | nil => intro _ _ _; rfl
  | cons a t ih =>
    intro h1 h2 h3
    rw [List.pairwise_cons] at h2
    rw [takeUnits, if_neg (by have := h1 a List.mem_cons_self; omega)]
    by_cases hm : lo < a.maxEnd
    · rw [if_pos hm, ih (fun r hr => h1 r (List.mem_cons_of_mem _ hr)) h2.2
        (fun r hr => h3 r (List.mem_cons_of_mem _ hr))]
      simp only [bind, Except.bind, pure, Except.pure, List.filter_cons]
      by_cases ho : a.range.stop ≤ lo ∨ hi ≤ a.range.start
      · rw [if_pos ho, if_neg (by simp only [overlaps, decide_eq_true_eq]; omega)]
      · rw [if_neg ho, if_pos (by simp only [overlaps, decide_eq_true_eq]; omega)]
    · rw [if_neg hm]
      congr 1
      symm
      rw [List.filter_eq_nil_iff]
      intro b hb
      have hbm : b.range.stop ≤ a.maxEnd := by
        rcases List.mem_cons.mp hb with hb | hb
        · rw [hb]; exact h3 a List.mem_cons_self
        · exact h2.1 b hb
      simp only [overlaps, decide_eq_true_eq]
      omega

theorem findRanges_eq (u : Units) (m : Nat) (h : Prepared m u.unitRanges) (lo hi : Nat) :
    u.findRanges lo hi = .ok (u.unitRanges.filter (overlaps lo hi)).reverse := by
  have hs := h.sorted
  obtain ⟨b1, b2, _⟩ := h.bound
  have hc := binarySearchBy_contract u.unitRanges _
    (cmpSorted_of_sortedBy u.unitRanges (fun r => r.range.start) hs hi)
  have hmono : ∀ (p q : Nat) (x y : UnitRange), p ≤ q → u.unitRanges[p]? = some x →
      u.unitRanges[q]? = some y → x.range.start ≤ y.range.start := by
    intro p q x y hpq hx hy
    obtain ⟨hp, hpx⟩ := List.getElem?_eq_some_iff.mp hx
    obtain ⟨hq', hqy⟩ := List.getElem?_eq_some_iff.mp hy
    rcases Nat.lt_or_eq_of_le hpq with hlt | heq
    · have := List.pairwise_iff_getElem.mp hs p q hp hq' hlt
      rw [hpx, hqy] at this; exact this
    · subst heq; rw [hpx] at hqy; rw [hqy]
  have key : ∀ pos : Nat, (∀ (j : Nat) (r : UnitRange), j < pos → u.unitRanges[j]? = some r → r.range.start ≤ hi) →
      (∀ (j : Nat) (r : UnitRange), pos ≤ j → u.unitRanges[j]? = some r → hi ≤ r.range.start) →
      takeUnits lo hi (u.unitRanges.take pos).reverse = .ok (u.unitRanges.filter (overlaps lo hi)).reverse := by
    intro pos k1 k2
    rw [takeUnits_eq]
    · congr 1
      rw [List.filter_reverse]
      congr 1
      conv_rhs => rw [← List.take_append_drop pos u.unitRanges]
      rw [List.filter_append]
      have : (u.unitRanges.drop pos).filter (overlaps lo hi) = [] := by
        rw [List.filter_eq_nil_iff]
        intro r hr
        obtain ⟨j, hj⟩ := List.mem_iff_getElem?.mp hr
        rw [List.getElem?_drop] at hj
        have := k2 (pos + j) r (by omega) hj
        simp only [overlaps, decide_eq_true_eq]
        omega
      rw [this, List.append_nil]
    · intro r hr
      rw [List.mem_reverse] at hr
      obtain ⟨j, hj⟩ := List.mem_iff_getElem?.mp hr
      rw [List.getElem?_take] at hj
      split at hj
      · exact k1 j r (by omega) hj
      · cases hj
    · rw [List.pairwise_reverse]
      exact b1.sublist (List.take_sublist _ _)
    · intro a ha
      rw [List.mem_reverse] at ha
      exact b2 a (List.mem_of_mem_take ha)
  unfold Units.findRanges
  cases hb : binarySearchBy u.unitRanges (fun r => compare r.range.start hi) with
  | inl i =>
    rw [hb] at hc
    obtain ⟨e, he, hq⟩ := hc
    rw [compare_eq_iff_eq] at hq
    refine key i ?_ ?_
    · intro j r hj hr
      have := hmono j i r e (by omega) hr he
      omega
    · intro j r hj hr
      have := hmono i j e r hj he hr
      omega
  | inr i =>
    rw [hb] at hc
    obtain ⟨_, h1, h2⟩ := hc
    refine key i ?_ ?_
    · intro j r hj hr
      have := compare_lt_iff_lt.mp (h1 j r hj hr); omega
    · intro j r hj hr
      have := compare_gt_iff_gt.mp (h2 j r hj hr); omega

theorem ofRanges_ok (u : Units) : ∀ (l : List UnitRange),
    (∀ r ∈ l, ∃ x, u.units[r.unitId]? = some x) →
    ∃ xs, u.ofRanges l = .ok xs ∧ ∀ x, x ∈ xs ↔ ∃ r ∈ l, u.units[r.unitId]? = some x := by
  intro l
  induction l with
  | nil => intro _; exact ⟨[], rfl, by simp⟩
  | cons a t ih =>
    intro h
    obtain ⟨x, hx⟩ := h a List.mem_cons_self
    obtain ⟨xs, i1, i2⟩ := ih (fun r hr => h r (List.mem_cons_of_mem _ hr))
    refine ⟨x :: xs, ?_, ?_⟩
    · rw [Units.ofRanges, hx]
      simp only [i1, bind, Except.bind, pure, Except.pure]
    · intro y
      rw [List.mem_cons, i2 y]
      constructor
      · rintro (hy | ⟨r, hr, hry⟩)
        · exact ⟨a, List.mem_cons_self, by rw [hx, hy]⟩
        · exact ⟨r, List.mem_cons_of_mem _ hr, hry⟩
      · rintro ⟨r, hr, hry⟩
        rcases List.mem_cons.mp hr with hr | hr
        · subst hr; rw [hx] at hry; exact .inl (Option.some.inj hry).symm
        · exact .inr ⟨r, hr, hry⟩

/-- What parsing the units of a file yields. -/
theorem parseUnits_ok {σ : Sorter} {s : Sections} {u : Units} (h : parseUnits σ s = .ok u) :
    ∃ l : List (List Range × Unit),
      l = s.headers.filterMap (fun h => match parseHeader σ (sortedSets σ s) h with
        | .ok o => o | .error _ => none) ∧
      (∀ h ∈ s.headers, ∃ o, parseHeader σ (sortedSets σ s) h = .ok o) ∧
      s.arangesFail = none ∧ s.headersFail = none ∧
      u.units = l.map Prod.snd ∧ Prepared 0 u.unitRanges ∧
      (∀ i r, (∃ x ∈ u.unitRanges, x.unitId = i ∧ x.range = r) ↔
        ∃ rs un, l[i]? = some (rs, un) ∧ r ∈ rs) := by
  unfold parseUnits at h
  obtain ⟨ar, h1, h⟩ := bind_ok h
  obtain ⟨res, h2, h⟩ := bind_ok h
  obtain ⟨_, h3, h⟩ := bind_ok h
  simp only [pure, Except.pure, Except.ok.injEq] at h
  have har : s.arangesFail = none ∧ ar = s.aranges := by
    unfold finish at h1
    cases hf : s.arangesFail with
    | some e => rw [hf] at h1; simp at h1
    | none => rw [hf] at h1; simp only [Except.ok.injEq] at h1; exact ⟨rfl, h1.symm⟩
  have hhd : s.headersFail = none := by
    unfold finish at h3
    cases hf : s.headersFail with
    | some e => rw [hf] at h3; simp at h3
    | none => rfl
  rw [har.2] at h2
  obtain ⟨l, e1, e2, e3⟩ := headersLoop_ok σ _ _ _ _ _ h2
  have hsort := σ.sorted (fun a b : UnitRange => decide (a.range.start ≤ b.range.start))
      (fun a b c h1 h2 => by simp only [decide_eq_true_eq] at *; omega)
      (fun a b => by simp only [Bool.or_eq_true, decide_eq_true_eq]; omega) res.1
  refine ⟨l, e3, e2, har.1, hhd, ?_, ?_, ?_⟩
  · rw [← h, e1]; simp
  · rw [← h]; exact fillMaxEnd_prepared 0 _ (hsort.imp (fun h => by simpa using h))
  · intro i r
    rw [← h]
    simp only
    rw [mem_fillMaxEnd]
    constructor
    · rintro ⟨x, hx, hxi, hxr⟩
      rw [(σ.perm _ _).mem_iff, e1] at hx
      simp only [List.nil_append, List.length_nil] at hx
      obtain ⟨j, rs, un, k1, k2, k3⟩ := mem_numbered _ _ _ hx
      have : j = i := by omega
      subst this
      exact ⟨rs, un, k1, by rw [← hxr]; exact k3⟩
    · rintro ⟨rs, un, k1, k2⟩
      have := numbered_mem l 0 i rs un r k1 k2
      refine ⟨⟨0 + i, 0, r⟩, ?_, by simp, rfl⟩
      rw [(σ.perm _ _).mem_iff, e1]
      simpa using this

end Blazesym.Dwarf
