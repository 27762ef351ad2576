import Verif.Util.Reorder
import Mathlib.Data.List.Perm.Basic
import Mathlib.Data.List.Nodup

set_option autoImplicit false

namespace Blazesym.Util

universe u v w

theorem swapAt_eq {α : Type u} (l : List α) (i j : Nat) (a b : α)
    (hi : l[i]? = some a) (hj : l[j]? = some b) :
    swapAt l i j = some ((l.set i b).set j a) := by
  simp [swapAt, hi, hj]

theorem swap_getElem? {α : Type u} (l : List α) (i j : Nat) (a b : α)
    (hi : l[i]? = some a) (hj : l[j]? = some b) (k : Nat) :
    ((l.set i b).set j a)[k]? = if k = j then some a else if k = i then some b else l[k]? := by
  have hil := (List.getElem?_eq_some_iff.mp hi).1
  have hjl := (List.getElem?_eq_some_iff.mp hj).1
  simp only [List.getElem?_set, List.length_set]
  by_cases h1 : k = j
  · subst h1; simp [hjl]
  · by_cases h2 : k = i
    · subst h2; simp [h1, Ne.symm h1, hil]
    · simp [h1, h2, Ne.symm h1, Ne.symm h2]

theorem filter_length_lt {p q : Nat → Bool} (l : List Nat) (himp : ∀ k ∈ l, q k = true → p k = true)
    (x : Nat) (hx : x ∈ l) (hpx : p x = true) (hqx : q x = false) :
    (l.filter q).length < (l.filter p).length := by
  induction l with
  | nil => simp at hx
  | cons a t ih =>
    have hle : ∀ (t : List Nat), (∀ k ∈ t, q k = true → p k = true) →
        (t.filter q).length ≤ (t.filter p).length := by
      intro t ht
      induction t with
      | nil => simp
      | cons b s ihs =>
        have h1 := ihs (fun k hk => ht k (List.mem_cons_of_mem _ hk))
        have h2 := ht b (by simp)
        simp only [List.filter_cons]
        by_cases hqb : q b = true
        · simp [hqb, h2 hqb, h1]
        · by_cases hpb : p b = true
          · simp [hqb, hpb]; omega
          · simp [hqb, hpb, h1]
    have hta : ∀ k ∈ t, q k = true → p k = true := fun k hk => himp k (List.mem_cons_of_mem _ hk)
    rcases List.mem_cons.mp hx with h | h
    · subst h
      have := hle t hta
      simp [hpx, hqx]; omega
    · have h1 := ih hta h
      simp only [List.filter_cons]
      by_cases hqa : q a = true
      · have := himp a (by simp) hqa
        simp [hqa, this]; omega
      · by_cases hpa : p a = true
        · simp [hqa, hpa]; omega
        · simp [hqa, hpa]; omega

theorem nodup_getElem?_inj {l : List Nat} (h : l.Nodup) {i j : Nat} {x : Nat}
    (hi : l[i]? = some x) (hj : l[j]? = some x) : i = j := by
  obtain ⟨hil, hi'⟩ := List.getElem?_eq_some_iff.mp hi
  obtain ⟨hjl, hj'⟩ := List.getElem?_eq_some_iff.mp hj
  exact (List.Nodup.getElem_inj_iff h).mp (hi'.trans hj'.symm)

/-- Invariant of the reordering. -/
structure ReorderInv {α : Type u} {U : Type v} (a0 : List α) (x0 : List (U × Nat))
    (a : List α) (x : List (U × Nat)) : Prop where
  lenA : a.length = a0.length
  lenX : x.length = a0.length
  bound : ∀ (k : Nat) (e : U × Nat), x[k]? = some e → e.2 < a0.length
  inj : ∀ (i j : Nat) (e e' : U × Nat), x[i]? = some e → x[j]? = some e' → e.2 = e'.2 → i = j
  pairs : ∀ (k : Nat) (e : U × Nat), x[k]? = some e → ∃ (k' : Nat) (e' : U × Nat), x0[k']? = some e' ∧ e'.2 = e.2 ∧ a[k]? = a0[k']?

/-- Number of misplaced positions of an index vector. -/
def badCount {U : Type v} (x : List (U × Nat)) : Nat :=
  ((List.range x.length).filter
    (fun k => decide ((x[k]?).map Prod.snd ≠ some k))).length

theorem reorderInner_spec {α : Type u} {U : Type v} (a0 : List α) (x0 : List (U × Nat))
    (i : Nat) (hi : i < a0.length) (fuel : Nat) (a : List α) (x : List (U × Nat))
    (hinv : ReorderInv a0 x0 a x) (hpre : ∀ k, k < i → (x[k]?).map Prod.snd = some k)
    (hfuel : badCount x < fuel) :
    ∃ a' x', reorderInner i fuel a x = .done (a', x') ∧ ReorderInv a0 x0 a' x' ∧
      badCount x' ≤ badCount x ∧ (∀ k, k ≤ i → (x'[k]?).map Prod.snd = some k) := by
  induction fuel generalizing a x with
  | zero => omega
  | succ fuel ih =>
    have hix : i < x.length := by rw [hinv.lenX]; exact hi
    have hget : x[i]? = some x[i] := List.getElem?_eq_getElem hix
    unfold reorderInner
    rw [hget]
    generalize x[i] = xi at hget
    obtain ⟨u, idx⟩ := xi
    simp only
    by_cases hne : idx ≠ i
    · rw [if_pos hne]
      have hidx : idx < a0.length := hinv.bound i _ hget
      have hidxx : idx < x.length := by rw [hinv.lenX]; exact hidx
      have hai : a[i]? = some (a[i]'(by rw [hinv.lenA]; exact hi)) :=
        List.getElem?_eq_getElem _
      have haidx : a[idx]? = some (a[idx]'(by rw [hinv.lenA]; exact hidx)) :=
        List.getElem?_eq_getElem _
      have hxidx : x[idx]? = some x[idx] := List.getElem?_eq_getElem hidxx
      generalize x[idx] = xk at hxidx
      obtain ⟨w, t⟩ := xk
      rw [swapAt_eq a i idx _ _ hai haidx, swapAt_eq x i idx _ _ hget hxidx]
      simp only
      have hA := swap_getElem? a i idx _ _ hai haidx
      have hX := swap_getElem? x i idx _ _ hget hxidx
      generalize haa : (a.set i (a[idx]'(by rw [hinv.lenA]; exact hidx))).set idx
        (a[i]'(by rw [hinv.lenA]; exact hi)) = a1 at *
      generalize hxx : (x.set i (w, t)).set idx (u, idx) = x1 at *
      have hlx : x1.length = x.length := by rw [← hxx]; simp
      have hla : a1.length = a.length := by rw [← haa]; simp
      have htne : t ≠ idx := by
        intro h
        exact hne (hinv.inj idx i _ _ hxidx hget h)
      have hinv1 : ReorderInv a0 x0 a1 x1 := by
        refine ⟨by rw [hla, hinv.lenA], by rw [hlx, hinv.lenX], ?_, ?_, ?_⟩
        · intro k e he
          rw [hX] at he
          split at he
          · cases he; exact hidx
          · split at he
            · cases he; exact hinv.bound idx _ hxidx
            · exact hinv.bound k e he
        · intro p q e e' hp hq heq
          rw [hX] at hp hq
          by_cases hpi : p = idx
          · rw [if_pos hpi] at hp
            cases hp
            by_cases hqi : q = idx
            · rw [hpi, hqi]
            · rw [if_neg hqi] at hq
              by_cases hq2 : q = i
              · rw [if_pos hq2] at hq; cases hq; exact absurd heq.symm htne
              · rw [if_neg hq2] at hq
                exact absurd (hinv.inj q i _ _ hq hget heq.symm) hq2
          · rw [if_neg hpi] at hp
            by_cases hp2 : p = i
            · rw [if_pos hp2] at hp
              cases hp
              by_cases hqi : q = idx
              · rw [if_pos hqi] at hq; cases hq; exact absurd heq htne
              · rw [if_neg hqi] at hq
                by_cases hq2 : q = i
                · rw [hp2, hq2]
                · rw [if_neg hq2] at hq
                  exact absurd (hinv.inj q idx _ _ hq hxidx heq.symm) hqi
            · rw [if_neg hp2] at hp
              by_cases hqi : q = idx
              · rw [if_pos hqi] at hq; cases hq
                exact absurd (hinv.inj p i _ _ hp hget heq) hp2
              · rw [if_neg hqi] at hq
                by_cases hq2 : q = i
                · rw [if_pos hq2] at hq; cases hq
                  exact absurd (hinv.inj p idx _ _ hp hxidx heq) hpi
                · rw [if_neg hq2] at hq
                  exact hinv.inj p q e e' hp hq heq
        · intro k e he
          rw [hX] at he
          rw [hA]
          split at he
          · rename_i hk
            cases he
            obtain ⟨k', e', h1, h2, h3⟩ := hinv.pairs i _ hget
            exact ⟨k', e', h1, h2, by rw [if_pos hk, ← hai, h3]⟩
          · rename_i hk
            split at he
            · rename_i hk2
              cases he
              obtain ⟨k', e', h1, h2, h3⟩ := hinv.pairs idx _ hxidx
              exact ⟨k', e', h1, h2, by rw [if_neg hk, if_pos hk2, ← haidx, h3]⟩
            · rename_i hk2
              obtain ⟨k', e', h1, h2, h3⟩ := hinv.pairs k e he
              exact ⟨k', e', h1, h2, by rw [if_neg hk, if_neg hk2, h3]⟩
      have hpre1 : ∀ k, k < i → (x1[k]?).map Prod.snd = some k := by
        intro k hk
        rw [hX]
        have h1 : k ≠ i := by omega
        have h2 : k ≠ idx := by
          intro h
          have := hpre k hk
          rw [h, hxidx] at this
          simp only [Option.map_some, Option.some.injEq] at this
          exact htne this
        rw [if_neg h2, if_neg h1]
        exact hpre k hk
      have hbad : badCount x1 < badCount x := by
        unfold badCount
        rw [hlx]
        refine filter_length_lt _ ?_ idx (by simp [hidxx]) ?_ ?_
        · intro k _ hk
          simp only [decide_eq_true_eq] at hk ⊢
          rw [hX] at hk
          by_cases h1 : k = idx
          · rw [if_pos h1] at hk; exact absurd (by simp [h1]) hk
          · rw [if_neg h1] at hk
            by_cases h2 : k = i
            · rw [h2, hget]; simpa using hne
            · rwa [if_neg h2] at hk
        · simp only [decide_eq_true_eq]; rw [hxidx]; simpa using htne
        · rw [hX]; simp
      obtain ⟨a', x', h1, h2, h3, h4⟩ := ih a1 x1 hinv1 hpre1 (by omega)
      exact ⟨a', x', h1, h2, by omega, h4⟩
    · rw [if_neg hne]
      have hidxi : idx = i := by simpa using hne
      refine ⟨a, x, rfl, hinv, le_refl _, ?_⟩
      intro k hk
      rcases Nat.lt_or_ge k i with h | h
      · exact hpre k h
      · have : k = i := by omega
        subst this; rw [hget]; simp [hidxi]

theorem reorderOuter_spec {α : Type u} {U : Type v} (a0 : List α) (x0 : List (U × Nat))
    (fuel n m : Nat) (hnm : n + m = a0.length) (a : List α) (x : List (U × Nat))
    (hinv : ReorderInv a0 x0 a x) (hpre : ∀ k, k < n → (x[k]?).map Prod.snd = some k)
    (hfuel : badCount x < fuel) :
    ∃ a' x', reorderOuter fuel (List.range' n m) a x = .done a' ∧ ReorderInv a0 x0 a' x' ∧
      (∀ k, k < a0.length → (x'[k]?).map Prod.snd = some k) := by
  induction m generalizing n a x with
  | zero =>
    refine ⟨a, x, by simp [reorderOuter], hinv, ?_⟩
    intro k hk; exact hpre k (by omega)
  | succ m ih =>
    rw [List.range'_succ]
    unfold reorderOuter
    obtain ⟨a1, x1, h1, h2, h3, h4⟩ :=
      reorderInner_spec a0 x0 n (by omega) fuel a x hinv hpre hfuel
    rw [h1]
    simp only
    exact ih (n + 1) (by omega) a1 x1 h2 (fun k hk => h4 k (by omega)) (by omega)

theorem badCount_le {U : Type v} (x : List (U × Nat)) : badCount x ≤ x.length := by
  unfold badCount
  exact le_trans (List.length_filter_le _ _) (by simp)

theorem reorder_spec {α : Type u} {U : Type v} (array : List α) (indices : List (U × Nat))
    (hlen : array.length = indices.length)
    (hperm : (indices.map Prod.snd).Perm (List.range array.length)) (fuel : Nat)
    (hfuel : array.length < fuel) :
    ∃ out, reorder fuel array indices = .done out ∧ out.length = array.length ∧
      ∀ (k : Nat) (e : U × Nat), indices[k]? = some e → out[e.2]? = array[k]? := by
  have hnd : (indices.map Prod.snd).Nodup := hperm.nodup_iff.mpr List.nodup_range
  have hinv : ReorderInv array indices array indices := by
    refine ⟨rfl, hlen.symm, ?_, ?_, ?_⟩
    · intro k e he
      have : e.2 ∈ indices.map Prod.snd :=
        List.mem_map_of_mem (List.mem_of_getElem? he)
      simpa using hperm.mem_iff.mp this
    · intro i j e e' hi hj heq
      refine nodup_getElem?_inj hnd (x := e.2) ?_ ?_
      · simp [hi]
      · simp [hj, heq]
    · intro k e he; exact ⟨k, e, he, rfl, rfl⟩
  obtain ⟨out, x', h1, h2, h3⟩ := reorderOuter_spec array indices fuel 0 array.length
    (by omega) array indices hinv (by intro k hk; omega)
    (lt_of_le_of_lt (badCount_le _) (by omega))
  refine ⟨out, ?_, h2.lenA, ?_⟩
  · unfold reorder
    rw [if_neg (by simpa using hlen), List.range_eq_range']
    exact h1
  · intro k e he
    have hb := hinv.bound k e he
    have hx := h3 e.2 hb
    cases hxe : x'[e.2]? with
    | none => rw [hxe] at hx; simp at hx
    | some e2 =>
      rw [hxe] at hx
      simp only [Option.map_some, Option.some.injEq] at hx
      obtain ⟨k', e', g1, g2, g3⟩ := h2.pairs e.2 e2 hxe
      have : k' = k := by
        refine hinv.inj k' k e' e g1 he ?_
        rw [g2, hx]
      rw [g3, this]

theorem sortWithIdx_perm (slice : List Nat) : (sortWithIdx slice).Perm slice.zipIdx :=
  List.mergeSort_perm _ _

theorem sortWithIdx_sorted (slice : List Nat) :
    (sortWithIdx slice).Pairwise (fun a b => a.1 < b.1 ∨ (a.1 = b.1 ∧ a.2 ≤ b.2)) := by
  have := List.pairwise_mergeSort
    (le := fun (a b : Nat × Nat) => decide (a.1 < b.1 ∨ (a.1 = b.1 ∧ a.2 ≤ b.2)))
    (by intro a b c h1 h2; simp only [decide_eq_true_eq] at *; omega)
    (by intro a b; simp only [Bool.or_eq_true, decide_eq_true_eq]; omega) slice.zipIdx
  exact this.imp (by intro a b h; simpa using h)

theorem sortWithIdx_snd_perm (slice : List Nat) :
    ((sortWithIdx slice).map Prod.snd).Perm (List.range slice.length) := by
  have h := (sortWithIdx_perm slice).map Prod.snd
  have h2 : slice.zipIdx.map Prod.snd = List.range slice.length := by
    rw [List.zipIdx_map_snd, List.range_eq_range']
  rwa [h2] at h

theorem sortWithIdx_length (slice : List Nat) : (sortWithIdx slice).length = slice.length := by
  have := (sortWithIdx_perm slice).length_eq
  simpa using this

theorem sortWithIdx_mem (slice : List Nat) (e : Nat × Nat) (h : e ∈ sortWithIdx slice) :
    slice[e.2]? = some e.1 := by
  have := (sortWithIdx_perm slice).mem_iff.mp h
  obtain ⟨a, b⟩ := e
  exact (List.mem_zipIdx_iff_getElem?.mp this)

end Blazesym.Util
