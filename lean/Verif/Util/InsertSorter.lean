import Verif.Util.Sort

/-! # A sorting function that the kernel can evaluate, for examples -/

set_option autoImplicit false

namespace Blazesym

/-- Insertion into a sorted list. -/
def insertLe {α : Type} (le : α → α → Bool) (a : α) : List α → List α
  | [] => [a]
  | b :: l => if le a b then a :: b :: l else b :: insertLe le a l

/-- Insertion sort. -/
def insertSort {α : Type} (le : α → α → Bool) : List α → List α
  | [] => []
  | a :: l => insertLe le a (insertSort le l)

theorem insertLe_perm {α : Type} (le : α → α → Bool) (a : α) (l : List α) :
    (insertLe le a l).Perm (a :: l) := by
  induction l with
  | nil => rfl
  | cons b l ih =>
    unfold insertLe
    split
    · rfl
    · exact (ih.cons b).trans (List.Perm.swap a b l)

theorem insertSort_perm {α : Type} (le : α → α → Bool) (l : List α) : (insertSort le l).Perm l := by
  induction l with
  | nil => rfl
  | cons a l ih => exact (insertLe_perm le a _).trans (ih.cons a)

theorem insertSort_sorted {α : Type} (le : α → α → Bool) (htrans : ∀ a b c, le a b → le b c → le a c)
    (htotal : ∀ a b, le a b || le b a) (l : List α) :
    (insertSort le l).Pairwise (fun a b => le a b = true) := by
  induction l with
  | nil => exact List.Pairwise.nil
  | cons a l ih =>
    rw [insertSort]
    generalize insertSort le l = s at ih
    induction s with
    | nil => simp [insertLe]
    | cons b s ih2 =>
      rw [List.pairwise_cons] at ih
      unfold insertLe
      split
      · rename_i h
        rw [List.pairwise_cons]
        refine ⟨?_, List.pairwise_cons.mpr ih⟩
        intro c hc
        rcases List.mem_cons.mp hc with rfl | hc
        · exact h
        · exact htrans _ _ _ h (ih.1 c hc)
      · rename_i h
        rw [List.pairwise_cons]
        refine ⟨?_, ih2 ih.2⟩
        intro c hc
        rcases List.mem_cons.mp ((insertLe_perm le a s).mem_iff.mp hc) with rfl | hc
        · have := htotal c b
          simp only [Bool.or_eq_true] at this
          rcases this with h' | h'
          · exact absurd h' h
          · exact h'
        · exact ih.1 c hc

/-- There is such an implementation. -/
def insertSorter : Sorter where
  sort := insertSort
  perm := insertSort_perm
  sorted := insertSort_sorted

end Blazesym
