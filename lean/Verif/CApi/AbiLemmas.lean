import Verif.CApi.AbiSpec
import Mathlib.Tactic.Common
import Mathlib.Data.Nat.Basic

/-! Lemmas about layouts. -/

set_option autoImplicit false

namespace Blazesym.CApi.Abi

theorem IsAlign.pos {a : Nat} (h : IsAlign a) : 0 < a := by
  rcases h with h | h | h | h <;> omega

theorem IsAlign.dvd_of_le {a b : Nat} (ha : IsAlign a) (hb : IsAlign b) (h : a ≤ b) : a ∣ b := by
  rcases ha with rfl | rfl | rfl | rfl <;> rcases hb with rfl | rfl | rfl | rfl <;> first | omega | decide

theorem IsAlign.dvd8 {a : Nat} (ha : IsAlign a) : a ∣ 8 := by
  rcases ha with rfl | rfl | rfl | rfl <;> decide

theorem IsAlign.max {a b : Nat} (ha : IsAlign a) (hb : IsAlign b) : IsAlign (max a b) := by
  rcases Nat.le_total a b with h | h
  · rw [Nat.max_eq_right h]; exact hb
  · rw [Nat.max_eq_left h]; exact ha

theorem dvd_roundUp (n a : Nat) : a ∣ roundUp n a := Nat.dvd_mul_left a _

theorem le_roundUp {n a : Nat} (ha : 0 < a) : n ≤ roundUp n a := by
  unfold roundUp
  have h1 := Nat.div_add_mod (n + a - 1) a
  have h2 := Nat.mod_lt (n + a - 1) ha
  rw [Nat.mul_comm] at h1
  omega

theorem roundUp_lt {n a : Nat} (ha : 0 < a) : roundUp n a < n + a := by
  unfold roundUp
  have := Nat.div_mul_le_self (n + a - 1) a
  omega

theorem roundUp_of_dvd {n a : Nat} (ha : 0 < a) (h : a ∣ n) : roundUp n a = n := by
  obtain ⟨k, rfl⟩ := h
  unfold roundUp
  rw [show a * k + a - 1 = a * k + (a - 1) by omega, Nat.mul_add_div ha, Nat.div_eq_of_lt (by omega), Nat.add_zero,
    Nat.mul_comm]

theorem align_le_maxAlign {ss : List Shape} {s : Shape} (h : s ∈ ss) : s.align ≤ maxAlign ss := by
  induction ss with
  | nil => cases h
  | cons x rest ih =>
    rw [maxAlign]
    rcases List.mem_cons.mp h with rfl | h
    · exact Nat.le_max_left _ _
    · exact Nat.le_trans (ih h) (Nat.le_max_right _ _)

theorem isAlign_maxAlign {ss : List Shape} (h : ∀ s ∈ ss, IsAlign s.align) : IsAlign (maxAlign ss) := by
  induction ss with
  | nil => exact Or.inl rfl
  | cons x rest ih =>
    exact (h x (by simp)).max (ih fun s hs => h s (by simp [hs]))

theorem place_length (pos : Nat) (ss : List Shape) : (place pos ss).1.length = ss.length := by
  induction ss generalizing pos with
  | nil => rfl
  | cons s rest ih => simp [place, ih]

theorem le_place_end {ss : List Shape} (h : ∀ s ∈ ss, 0 < s.align) (pos : Nat) : pos ≤ (place pos ss).2 := by
  induction ss generalizing pos with
  | nil => exact Nat.le_refl _
  | cons s rest ih =>
    have h1 := ih (fun s hs => h s (by simp [hs])) (roundUp pos s.align + s.size)
    have h2 := le_roundUp (n := pos) (h s (by simp))
    simp only [place]
    omega

theorem place_inside {ss : List Shape} (h : ∀ s ∈ ss, 0 < s.align) (pos : Nat) (i : Nat) (s : Shape) (off : Nat)
    (hs : ss[i]? = some s) (ho : (place pos ss).1[i]? = some off) :
    s.align ∣ off ∧ pos ≤ off ∧ off + s.size ≤ (place pos ss).2 := by
  induction ss generalizing pos i with
  | nil => simp at hs
  | cons x rest ih =>
    have hx := h x (by simp)
    have hr : ∀ s ∈ rest, 0 < s.align := fun s hs => h s (by simp [hs])
    have h2 := le_roundUp (n := pos) hx
    simp only [place] at ho ⊢
    cases i with
    | zero =>
      simp only [List.getElem?_cons_zero, Option.some.injEq] at hs ho
      subst hs ho
      exact ⟨dvd_roundUp _ _, h2, le_place_end hr _⟩
    | succ i =>
      simp only [List.getElem?_cons_succ] at hs ho
      obtain ⟨h3, h4, h5⟩ := ih hr _ i hs ho
      exact ⟨h3, by omega, h5⟩

theorem place_apart {ss : List Shape} (h : ∀ s ∈ ss, 0 < s.align) (pos : Nat) (i j : Nat) (s : Shape) (off off' : Nat)
    (hij : i < j) (hs : ss[i]? = some s) (ho : (place pos ss).1[i]? = some off)
    (ho' : (place pos ss).1[j]? = some off') : off + s.size ≤ off' := by
  induction ss generalizing pos i j with
  | nil => simp at hs
  | cons x rest ih =>
    have hr : ∀ s ∈ rest, 0 < s.align := fun s hs => h s (by simp [hs])
    simp only [place] at ho ho'
    cases j with
    | zero => omega
    | succ j =>
      simp only [List.getElem?_cons_succ] at ho'
      cases i with
      | zero =>
        simp only [List.getElem?_cons_zero, Option.some.injEq] at hs ho
        subst hs ho
        have hj : j < rest.length := by
          have := (List.getElem?_eq_some_iff.mp ho').1
          rwa [place_length] at this
        exact (place_inside hr _ j rest[j] off' (List.getElem?_eq_getElem hj) ho').2.1
      | succ i =>
        simp only [List.getElem?_cons_succ] at hs ho
        exact ih hr _ i j (by omega) hs ho ho'

theorem place_next {ss : List Shape} (h : ∀ s ∈ ss, 0 < s.align) (pos : Nat) (i : Nat) (s s' : Shape) (off off' : Nat)
    (hs : ss[i]? = some s) (ho : (place pos ss).1[i]? = some off) (hs' : ss[i + 1]? = some s')
    (ho' : (place pos ss).1[i + 1]? = some off') : off' < off + s.size + s'.align := by
  induction ss generalizing pos i with
  | nil => simp at hs
  | cons x rest ih =>
    have hr : ∀ s ∈ rest, 0 < s.align := fun s hs => h s (by simp [hs])
    simp only [place] at ho ho'
    simp only [List.getElem?_cons_succ] at hs' ho'
    cases i with
    | zero =>
      simp only [List.getElem?_cons_zero, Option.some.injEq] at hs ho
      subst hs ho
      cases rest with
      | nil => simp at hs'
      | cons y rest =>
        simp only [place, List.getElem?_cons_zero, Option.some.injEq] at hs' ho'
        subst hs' ho'
        exact roundUp_lt (hr _ (by simp))
    | succ i =>
      simp only [List.getElem?_cons_succ] at hs ho
      exact ih hr _ i hs ho hs' ho'

theorem place_last (pos : Nat) (ss : List Shape) (s : Shape) (off : Nat) (hs : ss.getLast? = some s)
    (ho : (place pos ss).1.getLast? = some off) : (place pos ss).2 = off + s.size := by
  induction ss generalizing pos with
  | nil => simp at hs
  | cons x rest ih =>
    cases rest with
    | nil =>
      simp only [place, List.getLast?_singleton, Option.some.injEq] at hs ho ⊢
      subst hs ho
      rfl
    | cons y rest =>
      rw [List.getLast?_cons_cons] at hs
      have hp : (place pos (x :: y :: rest)).1 =
        roundUp pos x.align :: (place (roundUp pos x.align + x.size) (y :: rest)).1 := rfl
      have hp2 : (place pos (x :: y :: rest)).2 = (place (roundUp pos x.align + x.size) (y :: rest)).2 := rfl
      rw [hp, show (place (roundUp pos x.align + x.size) (y :: rest)).1 =
        roundUp (roundUp pos x.align + x.size) y.align ::
          (place (roundUp (roundUp pos x.align + x.size) y.align + y.size) rest).1 from rfl,
        List.getLast?_cons_cons] at ho
      rw [hp2]
      exact ih _ hs ho

theorem place_append (pos : Nat) (ss rest : List Shape) :
    place pos (ss ++ rest) = ((place pos ss).1 ++ (place (place pos ss).2 rest).1, (place (place pos ss).2 rest).2) := by
  induction ss generalizing pos with
  | nil => rfl
  | cons s ss ih => simp only [List.cons_append, place, ih]

theorem structShape_ok {ss : List Shape} (h : ∀ s ∈ ss, IsAlign s.align) : (structShape ss).Ok :=
  ⟨isAlign_maxAlign h, dvd_roundUp _ _⟩

theorem unionShape_ok {ss : List Shape} (h : ∀ s ∈ ss, IsAlign s.align) : (unionShape ss).Ok :=
  ⟨isAlign_maxAlign h, dvd_roundUp _ _⟩

end Blazesym.CApi.Abi
