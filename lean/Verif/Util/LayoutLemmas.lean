import Verif.Util.LayoutSpec
import Verif.Util.Layout
import Mathlib.Tactic.Ring

set_option autoImplicit false

namespace Blazesym.Util
open Blazesym.Spec

theorem le_eq (b : Bytes) : le b = leValue b := by
  induction b with
  | nil => rfl
  | cons x t ih => simp [le, leValue, ih]

theorem isSlice_iff (d : Bytes) (off n : Nat) (s : Bytes) :
    IsSlice d off n s ↔ off + n ≤ d.length ∧ s = (d.drop off).take n := by
  constructor
  · rintro ⟨pre, post, rfl, rfl, rfl⟩
    constructor
    · simp only [List.length_append]; omega
    · simp [List.append_assoc]
  · rintro ⟨h, rfl⟩
    refine ⟨d.take off, d.drop (off + n), ?_, by simp; omega, by simp; omega⟩
    rw [List.append_assoc, ← List.drop_drop, List.take_append_drop, List.take_append_drop]

theorem num_iff (d : Bytes) (off w v : Nat) :
    Num d off w v ↔ off + w ≤ d.length ∧ v = field d off w := by
  unfold Num field
  constructor
  · rintro ⟨s, hs, rfl⟩
    obtain ⟨h, rfl⟩ := (isSlice_iff _ _ _ _).mp hs
    exact ⟨h, le_eq _⟩
  · rintro ⟨h, rfl⟩
    exact ⟨_, (isSlice_iff _ _ _ _).mpr ⟨h, rfl⟩, (le_eq _).symm⟩

theorem field_sub (d : Bytes) (off n k w : Nat) (h : k + w ≤ n) :
    field ((d.drop off).take n) k w = field d (off + k) w := by
  unfold field
  rw [List.drop_take, List.drop_drop, List.take_take, Nat.min_eq_left (by omega)]

theorem num_field {d : Bytes} {off n : Nat} (hn : off + n ≤ d.length) (k w : Nat) (h : k + w ≤ n) :
    Num d (off + k) w (field ((d.drop off).take n) k w) :=
  (num_iff _ _ _ _).mpr ⟨by omega, field_sub _ _ _ _ _ h⟩

theorem num_field0 {d : Bytes} {off n : Nat} (hn : off + n ≤ d.length) (w : Nat) (h : w ≤ n) :
    Num d off w (field ((d.drop off).take n) 0 w) := by
  have := num_field hn 0 w (by omega)
  simpa using this

variable {α : Type}

theorem records_length (f : Bytes → α) (size n : Nat) (b : Bytes) :
    (records f size n b).length = n := by
  induction n generalizing b with
  | zero => rfl
  | succ n ih => simp [records, ih]

theorem records_get (f : Bytes → α) (size n : Nat) (b : Bytes) (i : Nat) (h : i < n) :
    (records f size n b)[i]? = some (f ((b.drop (i * size)).take size)) := by
  induction n generalizing b i with
  | zero => omega
  | succ n ih =>
    cases i with
    | zero => simp [records]
    | succ i =>
      simp only [records, List.getElem?_cons_succ]
      rw [ih _ i (by omega), List.drop_drop]
      congr 3
      ring_nf

theorem records_slice (f : Bytes → α) (size n : Nat) (d : Bytes) (off i : Nat) (h : i < n) :
    (records f size n ((d.drop off).take (size * n)))[i]? =
      some (f ((d.drop (off + i * size)).take size)) := by
  rw [records_get f size n _ i h, List.drop_take, List.drop_drop, List.take_take, Nat.min_eq_left]
  obtain ⟨k, rfl⟩ : ∃ k, n = i + 1 + k := ⟨n - (i + 1), by omega⟩
  have : size * (i + 1 + k) = i * size + size + size * k := by ring
  omega

end Blazesym.Util
