import Mathlib.Order.Defs.LinearOrder

/-! Specification vocabulary for searches in sequences (independent of the model). -/

set_option autoImplicit false

namespace Blazesym.Spec

universe u v w

/-- `i` is the first index of `l` whose element satisfies `P`. -/
def IsFirstIdx {α : Type u} (l : List α) (P : α → Prop) (i : Nat) : Prop :=
  (∃ e, l[i]? = some e ∧ P e) ∧ ∀ j e, j < i → l[j]? = some e → ¬ P e

/-- `i` is the last index of `l` whose element satisfies `P`. -/
def IsLastIdx {α : Type u} (l : List α) (P : α → Prop) (i : Nat) : Prop :=
  (∃ e, l[i]? = some e ∧ P e) ∧ ∀ j e, i < j → l[j]? = some e → ¬ P e

/-- `k` is the greatest key in `l` that is not above `x`. -/
def IsGreatestKeyLE {α : Type u} {κ : Type v} [LinearOrder κ] (l : List α) (f : α → κ)
    (x k : κ) : Prop :=
  k ≤ x ∧ (∃ e ∈ l, f e = k) ∧ ∀ e ∈ l, f e ≤ x → f e ≤ k

/-- `l` is sorted (ascending, duplicates allowed) by the key `f`. -/
def SortedBy {α : Type u} {κ : Type v} [LinearOrder κ] (l : List α) (f : α → κ) : Prop :=
  l.Pairwise (fun a b => f a ≤ f b)

theorem IsFirstIdx.unique {α : Type u} {l : List α} {P : α → Prop} {i j : Nat}
    (hi : IsFirstIdx l P i) (hj : IsFirstIdx l P j) : i = j := by
  obtain ⟨⟨a, ha, pa⟩, hi⟩ := hi
  obtain ⟨⟨b, hb, pb⟩, hj⟩ := hj
  rcases Nat.lt_trichotomy i j with h | h | h
  · exact absurd pa (hj i a h ha)
  · exact h
  · exact absurd pb (hi j b h hb)

end Blazesym.Spec
