import Verif.Maps.Maps
import Verif.Maps.MapsSpec
import Verif.Util.FormatLemmas

/-! Helper lemmas for `Verif.Maps.Maps`. -/

set_option autoImplicit false

namespace Blazesym.Maps
open Blazesym.Util Blazesym.Spec Blazesym.Spec.Maps

theorem isAsciiWs_iff (b : UInt8) : isAsciiWs b = true ↔ Blank b := by
  unfold isAsciiWs Blank
  simp only [Bool.or_eq_true, beq_iff_eq]
  tauto

theorem isAsciiWs_false_iff (b : UInt8) : isAsciiWs b = false ↔ ¬ Blank b := by
  rw [← isAsciiWs_iff]; simp

theorem digit_not_blank {c : UInt8} (h : IsDigit 16 c) : ¬ Blank c := by
  rintro (rfl | rfl | rfl | rfl | rfl) <;> exact absurd h (by decide)

theorem hexOrInvalid_ok {s : Bytes} {v : Nat} : hexOrInvalid s = .ok v ↔ HexOf s v ∧ v < 2 ^ 64 := by
  have hx := C52_from_radix_16 s v
  unfold hexOrInvalid HexOf
  constructor
  · intro h
    split at h
    · cases h; rename_i w hw; have := (hx.mp hw); exact ⟨⟨this.1, this.2.1⟩, this.2.2⟩
    · cases h
    · cases h
  · rintro ⟨⟨h1, h2⟩, h3⟩
    rw [hx.mpr ⟨h1, h2, h3⟩]

end Blazesym.Maps
