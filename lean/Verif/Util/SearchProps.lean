import Verif.Util.SearchLemmas
import Verif.Util.SearchSpec

/-! Property theorems C06 and C07. -/

set_option autoImplicit false

namespace Blazesym.Util

universe u v w
open Blazesym.Spec

/-- **C06** (index found): on a sequence sorted with respect to the comparison, the
lowest-match search returns `i` exactly when `i` is the first matching index. -/
theorem C06_find_lowest_match_some {α : Type u} (l : List α) (f : α → Ordering)
    (hs : CmpSorted l f) (i : Nat) :
    findLowestMatchBy l f = some i ↔ IsFirstIdx l (fun e => f e = .eq) i := by
  have hp : l.Pairwise (fun a b => (f b == .lt) = true → (f a == .lt) = true) := by
    refine hs.imp ?_
    intro a b h hb
    simpa using h.2 (by simpa using hb)
  have hlt := partitionPoint_lt l (fun e => f e == .lt) hp
  have hge := partitionPoint_ge l (fun e => f e == .lt) hp
  unfold findLowestMatchBy
  generalize partitionPoint l (fun e => f e == .lt) = k at *
  simp only
  have key : ∀ e, l[k]? = some e → f e = .eq → IsFirstIdx l (fun e => f e = .eq) k := by
    intro e he hfe
    refine ⟨⟨e, he, hfe⟩, ?_⟩
    intro j e' hj he' hcon
    have := hlt j e' hj he'
    simp [hcon] at this
  constructor
  · intro h
    split at h
    · rename_i e he
      split at h
      · rename_i hfe
        have : k = i := by simpa using h
        subst this
        exact key e he (by simpa using hfe)
      · exact absurd h (by simp)
    · exact absurd h (by simp)
  · intro h
    obtain ⟨⟨e, he, hfe⟩, hfirst⟩ := h
    have hki : k ≤ i := by
      by_contra hcon
      have := hlt i e (by omega) he
      simp [hfe] at this
    have hil : i < l.length := (List.getElem?_eq_some_iff.mp he).1
    have hkl : k < l.length := by omega
    have hkget : l[k]? = some l[k] := List.getElem?_eq_getElem hkl
    have hnlt := hge k _ (le_refl _) hkget
    have hkeq : f l[k] = .eq := by
      rcases Nat.lt_or_ge k i with h | h
      · have hpw := (List.pairwise_iff_getElem.mp hs) k i hkl hil h
        have hie : l[i] = e := by
          rw [List.getElem?_eq_getElem hil] at he; exact Option.some.inj he
        cases hc : f l[k] with
        | eq => rfl
        | lt => simp [hc] at hnlt
        | gt => have := hpw.1 hc; rw [hie, hfe] at this; exact absurd this (by simp)
      · have hke : k = i := by omega
        subst hke
        rw [hkget] at he; rw [Option.some.inj he]; exact hfe
    have : k = i := (key _ hkget hkeq).unique ⟨⟨e, he, hfe⟩, hfirst⟩
    subst this
    rw [he]; simp [hfe]

/-- **C06** (absence): nothing is returned exactly when no element matches. -/
theorem C06_find_lowest_match_none {α : Type u} (l : List α) (f : α → Ordering)
    (hs : CmpSorted l f) :
    findLowestMatchBy l f = none ↔ ∀ e ∈ l, f e ≠ .eq := by
  constructor
  · intro h e he hfe
    -- there is a first matching index
    have : ∃ i, IsFirstIdx l (fun e => f e = .eq) i := by
      clear h hs
      induction l with
      | nil => simp at he
      | cons a t ih =>
        by_cases ha : f a = .eq
        · exact ⟨0, ⟨a, by simp, ha⟩, by intro j e hj; omega⟩
        · have het : e ∈ t := by
            rcases List.mem_cons.mp he with h | h
            · subst h; exact absurd hfe ha
            · exact h
          obtain ⟨i, ⟨b, hb, hfb⟩, hf⟩ := ih het
          refine ⟨i + 1, ⟨b, by simpa using hb, hfb⟩, ?_⟩
          intro j e' hj he'
          cases j with
          | zero => simp at he'; rw [← he']; exact ha
          | succ j => exact hf j e' (by omega) (by simpa using he')
    obtain ⟨i, hi⟩ := this
    rw [(C06_find_lowest_match_some l f hs i).mpr hi] at h
    exact absurd h (by simp)
  · intro h
    cases hr : findLowestMatchBy l f with
    | none => rfl
    | some i =>
      obtain ⟨⟨e, he, hfe⟩, _⟩ := (C06_find_lowest_match_some l f hs i).mp hr
      exact absurd hfe (h e (List.mem_of_getElem? he))

theorem cmpSorted_of_sortedBy {α : Type u} {κ : Type v} [LinearOrder κ] (l : List α)
    (f : α → κ) (hs : SortedBy l f) (b : κ) : CmpSorted l (fun e => compare (f e) b) := by
  refine hs.imp ?_
  intro x y h
  constructor
  · intro hx
    rw [compare_gt_iff_gt] at hx ⊢
    exact lt_of_lt_of_le hx h
  · intro hy
    rw [compare_lt_iff_lt] at hy ⊢
    exact lt_of_le_of_lt h hy

/-- **C06** for the key based variant. -/
theorem C06_find_lowest_match_by_key {α : Type u} {κ : Type v} [LinearOrder κ] (l : List α)
    (f : α → κ) (hs : SortedBy l f) (b : κ) :
    (∀ i, findLowestMatchByKey l b f = some i ↔ IsFirstIdx l (fun e => f e = b) i) ∧
    (findLowestMatchByKey l b f = none ↔ ∀ e ∈ l, f e ≠ b) := by
  have hc := cmpSorted_of_sortedBy l f hs b
  have hcong : (fun e => compare (f e) b = Ordering.eq) = (fun e => f e = b) := by
    funext e; exact propext compare_eq_iff_eq
  constructor
  · intro i
    have := C06_find_lowest_match_some l _ hc i
    rw [hcong] at this
    exact this
  · have := C06_find_lowest_match_none l _ hc
    simpa [findLowestMatchByKey, compare_eq_iff_eq] using this

example : SortedBy [1, 3, 3, 3, 7] (id : Nat → Nat) ∧
    findLowestMatchByKey [1, 3, 3, 3, 7] 3 (id : Nat → Nat) = some 1 := by
  have hs : SortedBy [1, 3, 3, 3, 7] (id : Nat → Nat) := by simp [SortedBy]
  refine ⟨hs, ((C06_find_lowest_match_by_key _ _ hs 3).1 1).mpr ?_⟩
  refine ⟨⟨3, by simp, rfl⟩, ?_⟩
  intro j e hj he
  have : j = 0 := by omega
  subst this; simp at he; subst he; simp

/-- Complete description of what the match-or-lower-bound search returns on a sorted
sequence: the first index of the run of elements with the greatest key `≤ item` — except
when that run starts the sequence and its key is not `item`, in which case it is the
run's *last* index. -/
theorem findMatchOrLowerBound_char {α : Type u} {κ : Type v} [LinearOrder κ] (l : List α)
    (f : α → κ) (hs : SortedBy l f) (item : κ) :
    (findMatchOrLowerBoundByKey l item f = none ∧ ∀ e ∈ l, item < f e) ∨
    (∃ i k, findMatchOrLowerBoundByKey l item f = some i ∧ IsGreatestKeyLE l f item k ∧
      (k = item ∨ ¬ IsFirstIdx l (fun e => f e = k) 0 → IsFirstIdx l (fun e => f e = k) i) ∧
      (¬ (k = item ∨ ¬ IsFirstIdx l (fun e => f e = k) 0) →
        IsLastIdx l (fun e => f e = k) i)) := by
  have hp : l.Pairwise (fun a b => decide (f b < item) = true → decide (f a < item) = true) := by
    refine hs.imp ?_
    intro a b h hb
    simp only [decide_eq_true_eq] at hb ⊢
    exact lt_of_le_of_lt h hb
  have hlt := partitionPoint_lt l (fun e => decide (f e < item)) hp
  have hge := partitionPoint_ge l (fun e => decide (f e < item)) hp
  have hle := partitionPoint_le_length l (fun e => decide (f e < item)) hp
  have hpw := List.pairwise_iff_getElem.mp hs
  unfold findMatchOrLowerBoundByKey
  generalize partitionPoint l (fun e => decide (f e < item)) = k at *
  simp only [decide_eq_true_eq, decide_eq_false_iff_not, not_lt] at hlt hge
  simp only
  by_cases hex : ∃ e, l[k]? = some e ∧ f e = item
  · right
    obtain ⟨e, he, hfe⟩ := hex
    refine ⟨k, item, by simp [keyAtIs, he, hfe], ⟨le_refl _, ⟨e, List.mem_of_getElem? he, hfe⟩,
      fun _ _ h => h⟩, ?_⟩
    refine ⟨fun _ => ?_, fun h => absurd (Or.inl rfl) h⟩
    refine ⟨⟨e, he, hfe⟩, ?_⟩
    intro j e' hj he' heq
    exact absurd heq (ne_of_lt (hlt j e' hj he'))
  · have hexact : keyAtIs l f item k = false := by
      unfold keyAtIs
      cases hg : l[k]? with
      | none => rfl
      | some e =>
        simp only [decide_eq_false_iff_not]
        intro h; exact hex ⟨e, hg, h⟩
    rw [hexact]
    -- elements from `k` on are strictly above `item`
    have hgt : ∀ j e, k ≤ j → l[j]? = some e → item < f e := by
      intro j e hj he
      have hjl : j < l.length := (List.getElem?_eq_some_iff.mp he).1
      have hkl : k < l.length := by omega
      have hk := hge k _ (le_refl _) (List.getElem?_eq_getElem hkl)
      have hkne : f l[k] ≠ item := fun h => hex ⟨_, List.getElem?_eq_getElem hkl, h⟩
      have hklt : item < f l[k] := lt_of_le_of_ne hk (Ne.symm hkne)
      have hej : l[j] = e := by
        rw [List.getElem?_eq_getElem hjl] at he; exact Option.some.inj he
      rcases Nat.lt_or_ge k j with h | h
      · rw [← hej]; exact lt_of_lt_of_le hklt (hpw k j hkl hjl h)
      · have : k = j := by omega
        subst this; rw [← hej]; exact hklt
    cases k with
    | zero =>
      left
      refine ⟨rfl, ?_⟩
      intro e he
      obtain ⟨j, hj⟩ := List.mem_iff_getElem?.mp he
      exact hgt j e (by omega) hj
    | succ k =>
      right
      have hkl : k < l.length := by omega
      have hkget : l[k]? = some l[k] := List.getElem?_eq_getElem hkl
      simp only [Bool.false_eq_true, if_false, hkget]
      have hklt : f l[k] < item := hlt k _ (by omega) hkget
      have hgreat : IsGreatestKeyLE l f item (f l[k]) := by
        refine ⟨le_of_lt hklt, ⟨_, List.getElem_mem hkl, rfl⟩, ?_⟩
        intro e he hle'
        obtain ⟨j, hj⟩ := List.mem_iff_getElem?.mp he
        have hjl : j < l.length := (List.getElem?_eq_some_iff.mp hj).1
        have hej : l[j] = e := by
          rw [List.getElem?_eq_getElem hjl] at hj; exact Option.some.inj hj
        rcases Nat.lt_or_ge k j with h | h
        · exact absurd (hgt j e (by omega) hj) (not_lt.mpr hle')
        · rcases Nat.lt_or_ge j k with h' | h'
          · rw [← hej]; exact hpw j k hjl hkl h'
          · have : j = k := by omega
            subst this; rw [← hej]
      have hmid : ∀ i (hil : i < l.length), i ≤ k → ∀ j e, j < i → l[j]? = some e →
          f e ≤ f l[i] := by
        intro i hil hik j e hj he
        have hjl : j < l.length := by omega
        have hej : l[j] = e := by
          rw [List.getElem?_eq_getElem hjl] at he; exact Option.some.inj he
        rw [← hej]; exact hpw j i hjl hil hj
      rcases scanBack_spec l f (f l[k]) k (by omega) with ⟨h1, h2⟩ | ⟨i, e, h1, h2, h3, h4, h5⟩
      · refine ⟨k, f l[k], by rw [h1], hgreat, ?_⟩
        have h0l : 0 < l.length := by omega
        have h0 : f l[0] = f l[k] := by
          rcases Nat.eq_zero_or_pos k with h | h
          · subst h; rfl
          · exact h2 0 _ h (List.getElem?_eq_getElem h0l)
        have hfirst0 : IsFirstIdx l (fun e => f e = f l[k]) 0 :=
          ⟨⟨l[0], List.getElem?_eq_getElem h0l, h0⟩, by intro j e hj; omega⟩
        constructor
        · rintro (h | h)
          · exact absurd h (ne_of_lt hklt)
          · exact absurd hfirst0 h
        · intro _
          refine ⟨⟨_, hkget, rfl⟩, ?_⟩
          intro j e hj he heq
          have := hgt j e (by omega) he
          rw [heq] at this
          exact absurd hklt (not_lt.mpr (le_of_lt this))
      · refine ⟨i + 1, f l[k], by rw [h1], hgreat, ?_⟩
        have hilk : i < l.length := by omega
        have hei : l[i] = e := by
          rw [List.getElem?_eq_getElem hilk] at h3; exact Option.some.inj h3
        have hlow : f e < f l[k] := by
          refine lt_of_le_of_ne ?_ h4
          rw [← hei]; exact hpw i k hilk hkl h2
        have hFirst : IsFirstIdx l (fun e => f e = f l[k]) (i + 1) := by
          have hi1l : i + 1 < l.length := by omega
          refine ⟨⟨l[i + 1], List.getElem?_eq_getElem hi1l, ?_⟩, ?_⟩
          · rcases Nat.lt_or_ge (i + 1) k with h | h
            · exact h5 (i + 1) _ (by omega) h (List.getElem?_eq_getElem hi1l)
            · have hik : i + 1 = k := by omega
              simp only [hik]
          · intro j e' hj he' heq
            have hjl : j < l.length := (List.getElem?_eq_some_iff.mp he').1
            have hej : l[j] = e' := by
              rw [List.getElem?_eq_getElem hjl] at he'; exact Option.some.inj he'
            have : f e' ≤ f e := by
              rcases Nat.lt_or_ge j i with h | h
              · rw [← hej, ← hei]; exact hpw j i hjl hilk h
              · have : j = i := by omega
                subst this; rw [← hej, ← hei]
            rw [heq] at this
            exact absurd hlow (not_lt.mpr this)
        refine ⟨fun _ => hFirst, fun hn => ?_⟩
        exfalso
        apply hn
        right
        intro h0
        have := h0.unique hFirst
        omega

/-- **C07** (absence): nothing is returned exactly when every element is above the key. -/
theorem C07_lower_bound_none {α : Type u} {κ : Type v} [LinearOrder κ] (l : List α)
    (f : α → κ) (hs : SortedBy l f) (item : κ) :
    findMatchOrLowerBoundByKey l item f = none ↔ ∀ e ∈ l, item < f e := by
  rcases findMatchOrLowerBound_char l f hs item with ⟨h1, h2⟩ | ⟨i, k, h1, h2, _⟩
  · exact ⟨fun _ => h2, fun _ => h1⟩
  · constructor
    · intro h; rw [h1] at h; exact absurd h (by simp)
    · intro h
      obtain ⟨hk, ⟨e, he, hfe⟩, _⟩ := h2
      have := h e he
      rw [hfe] at this
      exact absurd this (not_lt.mpr hk)

/-- **C07** (greatest lower bound): an index that is returned refers to an element with
the greatest key not above the searched one. -/
theorem C07_lower_bound_greatest {α : Type u} {κ : Type v} [LinearOrder κ] (l : List α)
    (f : α → κ) (hs : SortedBy l f) (item : κ) (i : Nat)
    (h : findMatchOrLowerBoundByKey l item f = some i) :
    ∃ e, l[i]? = some e ∧ IsGreatestKeyLE l f item (f e) := by
  rcases findMatchOrLowerBound_char l f hs item with ⟨h1, _⟩ | ⟨i', k, h1, h2, h3⟩
  · rw [h1] at h; exact absurd h (by simp)
  · rw [h1] at h
    have : i' = i := by simpa using h
    subst this
    by_cases hc : k = item ∨ ¬ IsFirstIdx l (fun e => f e = k) 0
    · obtain ⟨⟨e, he, hk⟩, _⟩ := h3.1 hc
      exact ⟨e, he, by rw [hk]; exact h2⟩
    · obtain ⟨⟨e, he, hk⟩, _⟩ := h3.2 hc
      exact ⟨e, he, by rw [hk]; exact h2⟩

/-- **C07** (first of equals, part that holds): an exact match yields the first matching
index, and so does any lower bound whose run of equal keys does not start the sequence.
The full documented claim, `IsFirstIdx` without the side condition `hrun`, is false; see
`C07_first_of_equals_fails`. -/
theorem C07_first_of_equals_partial {α : Type u} {κ : Type v} [LinearOrder κ] (l : List α)
    (f : α → κ) (hs : SortedBy l f) (item k : κ) (hk : IsGreatestKeyLE l f item k)
    (hrun : k = item ∨ ∃ e, l[0]? = some e ∧ f e ≠ k) (i : Nat)
    (h : findMatchOrLowerBoundByKey l item f = some i) :
    IsFirstIdx l (fun e => f e = k) i := by
  rcases findMatchOrLowerBound_char l f hs item with ⟨h1, _⟩ | ⟨i', k', h1, h2, h3⟩
  · rw [h1] at h; exact absurd h (by simp)
  · rw [h1] at h
    have : i' = i := by simpa using h
    subst this
    have hkk : k' = k := by
      obtain ⟨a1, ⟨e1, b1, c1⟩, d1⟩ := h2
      obtain ⟨a2, ⟨e2, b2, c2⟩, d2⟩ := hk
      refine le_antisymm ?_ ?_
      · rw [← c1]; exact d2 e1 b1 (by rw [c1]; exact a1)
      · rw [← c2]; exact d1 e2 b2 (by rw [c2]; exact a2)
    subst hkk
    refine h3.1 ?_
    · rcases hrun with h | ⟨e, he, hne⟩
      · exact Or.inl h
      · right
        rintro ⟨⟨e', he', hfe'⟩, _⟩
        rw [he] at he'
        have : e = e' := by simpa using he'
        subst this
        exact hne hfe'

/-- **C07** (the documented "first of all equal ones" fails): for a sequence that starts
with a run of at least two equal keys below the searched one, the last index of that run
is returned.  This holds for *every* such sequence. -/
theorem C07_first_of_equals_fails {α : Type u} {κ : Type v} [LinearOrder κ] (l : List α)
    (f : α → κ) (hs : SortedBy l f) (item k : κ) (hk : IsGreatestKeyLE l f item k)
    (hne : k ≠ item) (a b : α) (h0 : l[0]? = some a) (h1 : l[1]? = some b)
    (ha : f a = k) (hb : f b = k) :
    ∃ i, findMatchOrLowerBoundByKey l item f = some i ∧ IsLastIdx l (fun e => f e = k) i ∧
      ¬ IsFirstIdx l (fun e => f e = k) i := by
  rcases findMatchOrLowerBound_char l f hs item with ⟨_, h2⟩ | ⟨i, k', h3, h4, h5⟩
  · obtain ⟨hk1, ⟨e, he, hfe⟩, _⟩ := hk
    have := h2 e he
    rw [hfe] at this
    exact absurd this (not_lt.mpr hk1)
  · have hkk : k' = k := by
      obtain ⟨a1, ⟨e1, b1, c1⟩, d1⟩ := h4
      obtain ⟨a2, ⟨e2, b2, c2⟩, d2⟩ := hk
      refine le_antisymm ?_ ?_
      · rw [← c1]; exact d2 e1 b1 (by rw [c1]; exact a1)
      · rw [← c2]; exact d1 e2 b2 (by rw [c2]; exact a2)
    subst hkk
    have hf0 : IsFirstIdx l (fun e => f e = k') 0 :=
      ⟨⟨a, h0, ha⟩, by intro j e hj; omega⟩
    have h5 := h5.2 ?_
    · refine ⟨i, h3, h5, ?_⟩
      intro hfi
      have : 0 = i := hf0.unique hfi
      subst this
      exact h5.2 1 b (by omega) h1 hb
    · rintro (h | h)
      · exact hne h
      · exact h hf0

/-- The concrete witness of the defect: in `[5, 5]` the lower bound of `6` is reported
at index 1, not at the first of the equal elements. -/
theorem C07_first_of_equals_witness :
    findMatchOrLowerBoundByKey [5, 5] 6 (id : Nat → Nat) = some 1 := by
  obtain ⟨i, h1, h2, _⟩ := C07_first_of_equals_fails [5, 5] (id : Nat → Nat)
    (by simp [SortedBy]) 6 5 ⟨by decide, ⟨5, by simp, rfl⟩, by simp⟩ (by decide) 5 5
    (by simp) (by simp) rfl rfl
  obtain ⟨⟨e, he, _⟩, hl⟩ := h2
  have : i = 1 := by
    rcases Nat.lt_trichotomy i 1 with h | h | h
    · exact absurd rfl (hl 1 5 h (by simp))
    · exact h
    · have := (List.getElem?_eq_some_iff.mp he).1
      simp at this; omega
  rw [← this]; exact h1

example : ∃ i, findMatchOrLowerBoundByKey [1, 3, 3, 8] 5 (id : Nat → Nat) = some i ∧
    IsFirstIdx [1, 3, 3, 8] (fun e => id e = 3) i := by
  have hs : SortedBy [1, 3, 3, 8] (id : Nat → Nat) := by simp [SortedBy]
  cases h : findMatchOrLowerBoundByKey [1, 3, 3, 8] 5 (id : Nat → Nat) with
  | none =>
    have := (C07_lower_bound_none _ _ hs 5).mp h 1 (by simp)
    simp at this
  | some i =>
    exact ⟨i, rfl, C07_first_of_equals_partial _ _ hs 5 3
      ⟨by decide, ⟨3, by simp, rfl⟩, by simp⟩ (Or.inr ⟨1, by simp, by decide⟩) i h⟩

end Blazesym.Util
