import Verif.Util.SearchLemmas

/-! # Searching sorted lists of address ranges -/

set_option autoImplicit false

namespace Blazesym.Dwarf
open Blazesym.Util

universe u

/-- The comparison used for binary searches in ranges. -/
def spanCmp (probe start stop : Nat) : Ordering :=
  if probe < start then .gt else if stop ≤ probe then .lt else .eq

theorem spanCmp_eq {probe start stop : Nat} : spanCmp probe start stop = .eq ↔ start ≤ probe ∧ probe < stop := by
  unfold spanCmp; split
  · simp; omega
  · split
    · simp; omega
    · simp; omega

theorem spanCmp_gt {probe start stop : Nat} : spanCmp probe start stop = .gt ↔ probe < start := by
  unfold spanCmp; split
  · simp [*]
  · split
    · simp; omega
    · simp; omega

theorem spanCmp_lt {probe start stop : Nat} : spanCmp probe start stop = .lt ↔ start ≤ probe ∧ stop ≤ probe := by
  unfold spanCmp; split
  · simp; omega
  · split
    · simp; omega
    · simp; omega

/-- Of two ranges, the one that starts later does not end earlier; if they start at the same address they
are the same. -/
def Apart (s₁ e₁ s₂ e₂ : Nat) : Prop :=
  (s₁ = s₂ ∧ e₁ = e₂) ∨ (s₁ < s₂ ∧ e₁ ≤ e₂) ∨ (s₂ < s₁ ∧ e₂ ≤ e₁)

theorem cmpSorted_spans {α : Type u} (l : List α) (start stop : α → Nat)
    (hs : l.Pairwise (fun a b => start a ≤ start b))
    (hd : l.Pairwise (fun a b => Apart (start a) (stop a) (start b) (stop b)))
    (hne : ∀ a ∈ l, start a < stop a) (probe : Nat) :
    CmpSorted l (fun a => spanCmp probe (start a) (stop a)) := by
  induction l with
  | nil => exact List.Pairwise.nil
  | cons a t ih =>
    rw [List.pairwise_cons] at hs hd
    refine List.pairwise_cons.mpr ⟨?_, ih hs.2 hd.2 (fun b hb => hne b (List.mem_cons_of_mem _ hb))⟩
    intro b hb
    have h1 := hs.1 b hb
    have h2 := hd.1 b hb
    have h3 := hne a List.mem_cons_self
    have h4 := hne b (List.mem_cons_of_mem _ hb)
    simp only [spanCmp_gt, spanCmp_lt]
    unfold Apart at h2
    omega

/-- What a binary search for the range containing an address finds. -/
theorem search_spans {α : Type u} (l : List α) (start stop : α → Nat)
    (hs : l.Pairwise (fun a b => start a ≤ start b))
    (hd : l.Pairwise (fun a b => Apart (start a) (stop a) (start b) (stop b)))
    (hne : ∀ a ∈ l, start a < stop a) (probe : Nat) :
    (∃ i a, binarySearchBy l (fun a => spanCmp probe (start a) (stop a)) = .inl i ∧ l[i]? = some a ∧
      start a ≤ probe ∧ probe < stop a) ∨
    (∃ i, binarySearchBy l (fun a => spanCmp probe (start a) (stop a)) = .inr i ∧
      ∀ a ∈ l, ¬ (start a ≤ probe ∧ probe < stop a)) := by
  have hc := binarySearchBy_contract l _ (cmpSorted_spans l start stop hs hd hne probe)
  cases hb : binarySearchBy l (fun a => spanCmp probe (start a) (stop a)) with
  | inl i =>
    rw [hb] at hc
    obtain ⟨e, he, hq⟩ := hc
    exact .inl ⟨i, e, rfl, he, (spanCmp_eq.mp hq).1, (spanCmp_eq.mp hq).2⟩
  | inr i =>
    rw [hb] at hc
    obtain ⟨_, h1, h2⟩ := hc
    refine .inr ⟨i, rfl, ?_⟩
    intro a ha hcon
    obtain ⟨j, hj⟩ := List.mem_iff_getElem?.mp ha
    rcases Nat.lt_or_ge j i with h | h
    · have := spanCmp_lt.mp (h1 j a h hj); omega
    · have := spanCmp_gt.mp (h2 j a h hj); omega

theorem pairwise_perm {α : Type u} {R : α → α → Prop} (hsym : ∀ a b, R a b → R b a) {l l' : List α}
    (h : l.Perm l') : l.Pairwise R ↔ l'.Pairwise R := h.pairwise_iff (fun {a b} => hsym a b)

theorem Apart.symm {a b c d : Nat} (h : Apart a b c d) : Apart c d a b := by
  unfold Apart at *; omega

end Blazesym.Dwarf
