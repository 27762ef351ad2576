import Verif.Util.PathProps

/-!
# Joining paths: `std::path::Path::join` on Unix

The library calls it for module paths, debug directories and the like.
-/

set_option autoImplicit false

namespace Blazesym.Util

/-- `std::path::Path::join` (`PathBuf::push`) on Unix: an absolute path replaces the directory;
otherwise a separator is added unless the directory is empty or ends with one. -/
def pathJoin (base p : Bytes) : Bytes :=
  if p.head? = some 47 then p
  else if base = [] ∨ base.getLast? = some 47 then base ++ p
  else base ++ 47 :: p

end Blazesym.Util

namespace Blazesym.Spec

theorem pieces_append_sep (a b : Bytes) : pieces (a ++ 47 :: b) = pieces a ++ pieces b := by
  induction a with
  | nil => simp [pieces]
  | cons x t ih =>
    by_cases hx : x = 47
    · subst hx; simp [pieces, ih]
    · have hne : pieces t ≠ [] := Blazesym.Util.pieces_ne_nil t
      rw [List.cons_append, pieces, if_neg hx, ih, pieces, if_neg hx]
      cases hp : pieces t with
      | nil => exact absurd hp hne
      | cons q qs => rfl

end Blazesym.Spec

namespace Blazesym.Util
open Blazesym.Spec

/-- **C55** (joining): a relative path is joined by appending its components to those of the
directory; an absolute one replaces it. -/
theorem C55_join (base p : Bytes) (hb : base ≠ []) :
    (p.head? = some 47 → pathJoin base p = p) ∧
    (p.head? ≠ some 47 → (pieces p).head? ≠ some [46] →
      components (pathJoin base p) = components base ++ components p) := by
  refine ⟨fun h => by rw [pathJoin, if_pos h], fun h hd => ?_⟩
  have hcp : components p = (pieces p).filter (fun p => decide (p ≠ [] ∧ p ≠ [46])) := by
    unfold components
    rw [if_neg h, if_neg hd]
    rfl
  rw [hcp, pathJoin, if_neg h]
  have hhead : ∀ x : Bytes, (base ++ x).head? = base.head? := by
    intro x
    cases base with
    | nil => exact absurd rfl hb
    | cons a t => rfl
  by_cases hs : base = [] ∨ base.getLast? = some 47
  · rw [if_pos hs]
    have hs := hs.resolve_left hb
    obtain ⟨ini, rfl⟩ : ∃ ini, base = ini ++ [47] := by
      rw [List.getLast?_eq_some_iff] at hs
      exact hs
    have h1 : pieces (ini ++ [47] ++ p) = pieces ini ++ pieces p := by
      rw [List.append_assoc]; exact pieces_append_sep ini p
    have h2 : pieces (ini ++ [47]) = pieces ini ++ [[]] := pieces_append_sep ini []
    have h3 : (pieces ini ++ pieces p).head? = (pieces ini ++ [[]]).head? := by
      cases hp : pieces ini with
      | nil => exact absurd hp (pieces_ne_nil ini)
      | cons q qs => rfl
    unfold components
    rw [hhead, h1, h2, h3]
    simp
  · rw [if_neg hs]
    have h1 : pieces (base ++ 47 :: p) = pieces base ++ pieces p := pieces_append_sep base p
    have h3 : (pieces base ++ pieces p).head? = (pieces base).head? := by
      cases hp : pieces base with
      | nil => exact absurd hp (pieces_ne_nil base)
      | cons q qs => rfl
    unfold components
    rw [hhead, h1, h3]
    simp

example : pathJoin (ascii "/lib/modules/6.2") (ascii "kernel/a.ko") = ascii "/lib/modules/6.2/kernel/a.ko" := by
  decide +kernel
example : pathJoin (ascii "/lib/modules/6.2") (ascii "/a.ko") = ascii "/a.ko" := by decide +kernel

end Blazesym.Util
