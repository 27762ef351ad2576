import Verif.Util.ReorderLemmas

/-! Property theorems C01. -/

set_option autoImplicit false

namespace Blazesym.Util

universe u v w

/-- **C01** (the permutation step): moving the element at position `k` to position
`indices[k].1` terminates, does not panic and is correct for every permutation. -/
theorem C01_reorder {α : Type u} {U : Type v} (array : List α) (indices : List (U × Nat))
    (hlen : array.length = indices.length)
    (hperm : (indices.map Prod.snd).Perm (List.range array.length)) (fuel : Nat)
    (hfuel : array.length < fuel) :
    ∃ out, reorder fuel array indices = .done out ∧ out.length = array.length ∧
      ∀ (k : Nat) (e : U × Nat), indices[k]? = some e → out[e.2]? = array[k]? :=
  reorder_spec array indices hlen hperm fuel hfuel

/-- **C01** (handler input): the handler is handed the inputs in ascending order, each
exactly as often as it occurs; if it fails its error is the result. -/
theorem C01_handler_sees_sorted_permutation {E : Type u} {R : Type v} {U : Type w}
    (slice : List Nat) (handle : List Nat → Except E (R × List U)) :
    ∃ sorted : List Nat, sorted.Perm slice ∧ sorted.Pairwise (· ≤ ·) ∧
      (∀ e, handle sorted = .error e → withOrderedElems slice handle = .err e) ∧
      (∀ h' : List Nat → Except E (R × List U), h' sorted = handle sorted →
        withOrderedElems slice h' = withOrderedElems slice handle) := by
  refine ⟨(sortWithIdx slice).map Prod.fst, ?_, ?_, ?_, ?_⟩
  · have := (sortWithIdx_perm slice).map Prod.fst
    rwa [List.zipIdx_map_fst] at this
  · rw [List.pairwise_map]
    exact (sortWithIdx_sorted slice).imp (by intro a b h; omega)
  · intro e he; unfold withOrderedElems; simp only; rw [he]
  · intro h' he; unfold withOrderedElems; simp only; rw [he]

/-- **C01** (order restored): whatever relation `P` the handler establishes between the
`k`-th address it was handed and the `k`-th result, the caller gets one result per input
and the same relation between the `i`-th input and the `i`-th result. -/
theorem C01_results_in_input_order {E : Type u} {R : Type v} {U : Type w}
    (slice : List Nat) (handle : List Nat → Except E (R × List U)) (rest : R)
    (P : Nat → U → Prop)
    (hh : ∀ sorted : List Nat, sorted.Perm slice → sorted.Pairwise (· ≤ ·) →
      ∃ outs, handle sorted = .ok (rest, outs) ∧ List.Forall₂ P sorted outs) :
    ∃ outs, withOrderedElems slice handle = .ok rest outs ∧ List.Forall₂ P slice outs := by
  obtain ⟨outs, h1, h2⟩ := hh ((sortWithIdx slice).map Prod.fst)
    (by have := (sortWithIdx_perm slice).map Prod.fst
        rwa [List.zipIdx_map_fst] at this)
    (by rw [List.pairwise_map]
        exact (sortWithIdx_sorted slice).imp (by intro a b h; omega))
  have hlen : outs.length = slice.length := by
    have := h2.length_eq
    simp only [List.length_map, sortWithIdx_length] at this
    exact this.symm
  obtain ⟨out, g1, g2, g3⟩ := reorder_spec outs (sortWithIdx slice)
    (by rw [sortWithIdx_length, hlen])
    (by rw [hlen]; exact sortWithIdx_snd_perm slice) (slice.length + 1) (by omega)
  refine ⟨out, ?_, ?_⟩
  · unfold withOrderedElems
    simp only [h1, g1]
  · rw [List.forall₂_iff_get]
    refine ⟨by rw [g2, hlen], ?_⟩
    intro i hi1 hi2
    -- find the position of index `i` in the sorted vector
    have hmem : i ∈ (sortWithIdx slice).map Prod.snd :=
      (sortWithIdx_snd_perm slice).mem_iff.mpr (by simpa using hi1)
    obtain ⟨e, he, hei⟩ := List.mem_map.mp hmem
    obtain ⟨k, hk⟩ := List.mem_iff_getElem?.mp he
    have hg := g3 k e hk
    have hs := sortWithIdx_mem slice e he
    rw [hei] at hg hs
    have hkl : k < (sortWithIdx slice).length := (List.getElem?_eq_some_iff.mp hk).1
    have hko : k < outs.length := by rw [hlen, ← sortWithIdx_length slice]; exact hkl
    have hP := (List.forall₂_iff_get.mp h2).2 k (by simpa using hkl) hko
    have e1 : slice.get ⟨i, hi1⟩ = e.1 := by
      rw [List.getElem?_eq_getElem hi1] at hs
      simpa using hs
    have e2 : out.get ⟨i, hi2⟩ = outs.get ⟨k, hko⟩ := by
      rw [List.getElem?_eq_getElem hi2, List.getElem?_eq_getElem hko] at hg
      simpa using hg
    have e3 : ((sortWithIdx slice).map Prod.fst).get ⟨k, by simpa using hkl⟩ = e.1 := by
      rw [List.getElem?_eq_getElem hkl] at hk
      simp only [List.get_eq_getElem, List.getElem_map]
      rw [Option.some.inj hk]
    rw [e1, e2, ← e3]
    exact hP

/-- **C01** (nothing lost): if the handler succeeds with one result per input then so does the
call; the results are those of the handler, put back in input order, and all of them are
there. -/
theorem C01_results_kept {E : Type u} {R : Type v} {U : Type w} (slice : List Nat)
    (handle : List Nat → Except E (R × List U))
    (hlen : ∀ (l : List Nat) (r : R) (outs : List U), handle l = .ok (r, outs) → outs.length = l.length) :
    (∃ sorted : List Nat, sorted.Perm slice ∧ sorted.Pairwise (· ≤ ·) ∧
      ((∃ e, handle sorted = .error e ∧ withOrderedElems slice handle = .err e) ∨
        ∃ rest outs outs', handle sorted = .ok (rest, outs) ∧
          withOrderedElems slice handle = .ok rest outs' ∧ (∀ x, x ∈ outs ↔ x ∈ outs') ∧
          ∀ P : Nat → U → Prop, List.Forall₂ P sorted outs → List.Forall₂ P slice outs')) := by
  have hp : ((sortWithIdx slice).map Prod.fst).Perm slice := by
    have := (sortWithIdx_perm slice).map Prod.fst
    rwa [List.zipIdx_map_fst] at this
  have hs : ((sortWithIdx slice).map Prod.fst).Pairwise (· ≤ ·) := by
    rw [List.pairwise_map]
    exact (sortWithIdx_sorted slice).imp (by intro a b h; omega)
  refine ⟨(sortWithIdx slice).map Prod.fst, hp, hs, ?_⟩
  cases hh : handle ((sortWithIdx slice).map Prod.fst) with
  | error e => exact Or.inl ⟨e, rfl, by unfold withOrderedElems; simp only; rw [hh]⟩
  | ok ro =>
    obtain ⟨rest, outs⟩ := ro
    right
    have hl : outs.length = slice.length := by
      have := hlen _ _ _ hh
      rwa [List.length_map, sortWithIdx_length] at this
    obtain ⟨out, g1, g2, g3⟩ := reorder_spec outs (sortWithIdx slice)
      (by rw [sortWithIdx_length, hl]) (by rw [hl]; exact sortWithIdx_snd_perm slice)
      (slice.length + 1) (by omega)
    refine ⟨rest, outs, out, rfl, by unfold withOrderedElems; simp only [hh, g1], ?_, ?_⟩
    · intro x
      constructor
      · intro hx
        obtain ⟨k, hk⟩ := List.mem_iff_getElem?.mp hx
        have hkl : k < (sortWithIdx slice).length := by
          rw [sortWithIdx_length, ← hl]; exact (List.getElem?_eq_some_iff.mp hk).1
        have := g3 k _ (List.getElem?_eq_getElem hkl)
        rw [hk] at this
        exact List.mem_of_getElem? this
      · intro hx
        obtain ⟨i, hi⟩ := List.mem_iff_getElem?.mp hx
        have hmem : i ∈ (sortWithIdx slice).map Prod.snd :=
          (sortWithIdx_snd_perm slice).mem_iff.mpr (by
            have := (List.getElem?_eq_some_iff.mp hi).1
            rw [List.mem_range]; omega)
        obtain ⟨e, he, hei⟩ := List.mem_map.mp hmem
        obtain ⟨k, hk⟩ := List.mem_iff_getElem?.mp he
        have := g3 k e hk
        rw [hei, hi] at this
        exact List.mem_of_getElem? this.symm
    · intro P hP
      obtain ⟨o, h1, h2⟩ := C01_results_in_input_order slice (fun _ => Except.ok (rest, outs)) rest
        (E := E) (fun a u => ∀ Q : Nat → U → Prop,
          List.Forall₂ Q ((sortWithIdx slice).map Prod.fst) outs → Q a u) (by
        intro sorted h1 h2
        have : sorted = (sortWithIdx slice).map Prod.fst :=
          (h1.trans hp.symm).eq_of_pairwise (fun a b _ _ hab hba => by omega) h2 hs
        refine ⟨outs, rfl, ?_⟩
        rw [this, List.forall₂_iff_get]
        refine ⟨by rw [List.length_map, sortWithIdx_length, hl], fun i hi1 hi2 Q hQ => ?_⟩
        exact (List.forall₂_iff_get.mp hQ).2 i hi1 hi2)
      have : o = out := by
        unfold withOrderedElems at h1
        simp only [g1] at h1
        cases h1; rfl
      subst this
      exact h2.imp (fun a b h => h P hP)

/-- **C01** for handlers that treat addresses independently: the outcome is the plain
`map` over the inputs, in input order. -/
theorem C01_pointwise_handler {E : Type u} {R : Type v} {U : Type w} (slice : List Nat)
    (handle : List Nat → Except E (R × List U)) (rest : R) (g : Nat → U)
    (hh : ∀ sorted : List Nat, handle sorted = .ok (rest, sorted.map g)) :
    withOrderedElems slice handle = .ok rest (slice.map g) := by
  obtain ⟨outs, h1, h2⟩ := C01_results_in_input_order slice handle rest (fun a u => u = g a) (by
    intro sorted _ _
    refine ⟨_, hh sorted, ?_⟩
    rw [List.forall₂_map_right_iff]
    exact List.forall₂_same.mpr (fun _ _ => rfl))
  rw [h1]
  congr 1
  rw [← List.forall₂_eq_eq_eq, List.forall₂_map_right_iff]
  exact h2.flip

example : withOrderedElems (E := Unit) [30, 10, 20, 10] (fun l => .ok ((), l.map (· + 1))) =
    .ok () [31, 11, 21, 11] :=
  C01_pointwise_handler _ _ () (· + 1) (fun _ => rfl)

example : ∃ out, reorder 5 ["a", "b", "c"] [((), 2), ((), 0), ((), 1)] = .done out ∧
    out.length = 3 ∧ out[2]? = some "a" := by
  obtain ⟨out, h1, h2, h3⟩ := C01_reorder ["a", "b", "c"] [((), 2), ((), 0), ((), 1)] rfl
    (by decide) 5 (by decide)
  exact ⟨out, h1, h2, by simpa using h3 0 ((), 2) (by simp)⟩

end Blazesym.Util
