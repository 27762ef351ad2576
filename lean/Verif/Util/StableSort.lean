import Verif.Basic
import Mathlib.Data.Prod.Lex

/-!
# Stable sorting as provided by the standard library

`slice::sort_by` and `slice::sort_by_key` are stable: equal elements keep their order.  That
determines the result, so the model can use the simplest stable algorithm.
-/

set_option autoImplicit false

namespace Blazesym.Util

variable {α κ : Type} [LinearOrder κ]

/-- Insert before the first element that is not smaller. -/
def insertByKey (key : α → κ) (a : α) : List α → List α
  | [] => [a]
  | b :: l => if key a ≤ key b then a :: b :: l else b :: insertByKey key a l

/-- `slice::sort_by_key` (standard library); `slice::sort_by` with a comparison of keys. -/
def sortByKey (key : α → κ) : List α → List α
  | [] => []
  | a :: l => insertByKey key a (sortByKey key l)

/-- The key `(a, b)` of a Rust tuple: tuples compare lexicographically. -/
def pairKey (a b : Nat) : Nat ×ₗ Nat := toLex (a, b)

end Blazesym.Util

namespace Blazesym.Spec

/-- `out` is `l` sorted by `key`, elements with equal keys in the order they have in `l`. -/
def StableSorted {α κ : Type} [LinearOrder κ] (key : α → κ) (l out : List α) : Prop :=
  out.Pairwise (fun a b => key a ≤ key b) ∧
    ∀ k, out.filter (fun e => decide (key e = k)) = l.filter (fun e => decide (key e = k))

end Blazesym.Spec

namespace Blazesym.Util
open Blazesym.Spec

variable {α κ : Type} [LinearOrder κ]

theorem pairKey_le {a b c d : Nat} : pairKey a b ≤ pairKey c d ↔ a < c ∨ (a = c ∧ b ≤ d) := by
  unfold pairKey
  rw [Prod.Lex.toLex_le_toLex]

theorem pairKey_inj {a b c d : Nat} : pairKey a b = pairKey c d ↔ a = c ∧ b = d := by
  unfold pairKey
  rw [toLex_inj, Prod.mk.injEq]

theorem insertByKey_perm (key : α → κ) (a : α) (l : List α) : (insertByKey key a l).Perm (a :: l) := by
  induction l with
  | nil => exact List.Perm.refl _
  | cons b l ih =>
    unfold insertByKey
    split
    · exact List.Perm.refl _
    · exact (List.Perm.cons b ih).trans (List.Perm.swap a b l)

theorem sortByKey_perm (key : α → κ) (l : List α) : (sortByKey key l).Perm l := by
  induction l with
  | nil => exact List.Perm.refl _
  | cons a l ih => exact (insertByKey_perm key a _).trans (List.Perm.cons a ih)

theorem insertByKey_sorted (key : α → κ) (a : α) (l : List α)
    (h : l.Pairwise (fun a b => key a ≤ key b)) :
    (insertByKey key a l).Pairwise (fun a b => key a ≤ key b) := by
  induction l with
  | nil => simp [insertByKey]
  | cons b l ih =>
    rw [List.pairwise_cons] at h
    unfold insertByKey
    split
    · rename_i hab
      rw [List.pairwise_cons]
      refine ⟨?_, List.pairwise_cons.mpr h⟩
      intro x hx
      rcases List.mem_cons.mp hx with rfl | hx
      · exact hab
      · exact le_trans hab (h.1 x hx)
    · rename_i hab
      rw [List.pairwise_cons]
      refine ⟨?_, ih h.2⟩
      intro x hx
      rcases List.mem_cons.mp ((insertByKey_perm key a l).mem_iff.mp hx) with rfl | hx
      · exact le_of_lt (not_le.mp hab)
      · exact h.1 x hx

theorem sortByKey_sorted (key : α → κ) (l : List α) :
    (sortByKey key l).Pairwise (fun a b => key a ≤ key b) := by
  induction l with
  | nil => simp [sortByKey]
  | cons a l ih => exact insertByKey_sorted key a _ ih

theorem insertByKey_filter (key : α → κ) (a : α) (l : List α) (k : κ) :
    (insertByKey key a l).filter (fun e => decide (key e = k)) =
      (a :: l).filter (fun e => decide (key e = k)) := by
  induction l with
  | nil => rfl
  | cons b l ih =>
    unfold insertByKey
    split
    · rfl
    · rename_i hab
      have hab := not_le.mp hab
      rw [List.filter_cons, ih]
      by_cases ha : key a = k
      · have hb : key b ≠ k := fun h => by rw [ha, h] at hab; exact lt_irrefl _ hab
        simp [ha, hb]
      · simp [ha, List.filter_cons]

theorem sortByKey_filter (key : α → κ) (l : List α) (k : κ) :
    (sortByKey key l).filter (fun e => decide (key e = k)) =
      l.filter (fun e => decide (key e = k)) := by
  induction l with
  | nil => rfl
  | cons a l ih =>
    rw [sortByKey, insertByKey_filter, List.filter_cons, List.filter_cons, ih]

/-- The model of stable sorting meets its specification. -/
theorem sortByKey_stable (key : α → κ) (l : List α) : StableSorted key l (sortByKey key l) :=
  ⟨sortByKey_sorted key l, sortByKey_filter key l⟩

theorem mem_sortByKey {key : α → κ} {l : List α} {a : α} : a ∈ sortByKey key l ↔ a ∈ l :=
  (sortByKey_perm key l).mem_iff

/-- What the specification says determines the result. -/
theorem StableSorted.unique {key : α → κ} {l out out' : List α}
    (h : StableSorted key l out) (h' : StableSorted key l out') : out = out' := by
  obtain ⟨hs, hf⟩ := h
  obtain ⟨hs', hf'⟩ := h'
  have hff : ∀ k, out.filter (fun e => decide (key e = k)) =
      out'.filter (fun e => decide (key e = k)) := fun k => by rw [hf, hf']
  clear hf hf'
  induction out generalizing out' l with
  | nil =>
    cases out' with
    | nil => rfl
    | cons b t => have := hff (key b); simp at this
  | cons a s ih =>
    cases out' with
    | nil => have := hff (key a); simp at this
    | cons b t =>
      rw [List.pairwise_cons] at hs hs'
      have hb : b ∈ a :: s := by
        have : b ∈ (b :: t).filter (fun e => decide (key e = key b)) := by simp
        rw [← hff] at this
        exact (List.mem_filter.mp this).1
      have ha : a ∈ b :: t := by
        have : a ∈ (a :: s).filter (fun e => decide (key e = key a)) := by simp
        rw [hff] at this
        exact (List.mem_filter.mp this).1
      have hab : key a ≤ key b := by
        rcases List.mem_cons.mp hb with rfl | h
        · exact le_refl _
        · exact hs.1 b h
      have hba : key b ≤ key a := by
        rcases List.mem_cons.mp ha with rfl | h
        · exact le_refl _
        · exact hs'.1 a h
      have hk : key a = key b := le_antisymm hab hba
      have h0 := hff (key a)
      rw [List.filter_cons_of_pos (by simp), List.filter_cons_of_pos (by simp [hk])] at h0
      obtain ⟨rfl, -⟩ := List.cons.inj h0
      congr 1
      refine ih (l := l) hs.2 hs'.2 (fun k => ?_)
      have := hff k
      rw [List.filter_cons, List.filter_cons] at this
      split at this
      · exact (List.cons.inj this).2
      · exact this

/-- For a list that is already sorted by its key, sorting changes nothing. -/
theorem sortByKey_of_sorted {key : α → κ} {l : List α}
    (h : l.Pairwise (fun a b => key a ≤ key b)) : sortByKey key l = l :=
  StableSorted.unique (sortByKey_stable key l) ⟨h, fun _ => rfl⟩

end Blazesym.Util
