import Verif.Util.Mmap
import Verif.Util.LayoutSpec
import Verif.Util.LayoutLemmas

/-! # C29: views on memory mappings -/

set_option autoImplicit false

namespace Blazesym.Util
open Blazesym.Spec

/-- The view lies inside the mapped bytes. -/
def Mmap.Inside (m : Mmap) : Prop := ∃ b, m.mapping = some b ∧ m.start ≤ m.stop ∧ m.stop ≤ b.length

theorem deref_inside {m : Mmap} (h : m.Inside) {b : Bytes} (hb : m.mapping = some b) :
    m.deref = (b.drop m.start).take (m.stop - m.start) ∧ m.deref.length = m.stop - m.start := by
  obtain ⟨b', hb', h1, h2⟩ := h
  rw [hb] at hb'
  cases hb'
  unfold Mmap.deref getRange
  rw [hb]
  simp only
  rw [if_pos ⟨h1, h2⟩]
  refine ⟨rfl, ?_⟩
  simp only [Option.getD_some, List.length_take, List.length_drop]
  omega

/-- **C29** (whole file): mapping a file gives a view on exactly its contents. -/
theorem C29_map (contents : Bytes) : (Mmap.map contents).deref = contents := by
  by_cases h : contents = []
  · subst h; rfl
  · unfold Mmap.map
    rw [if_neg (by simpa using h)]
    simp [Mmap.deref, getRange]

theorem map_inside {contents : Bytes} (h : contents ≠ []) : (Mmap.map contents).Inside := by
  unfold Mmap.map
  rw [if_neg (by simpa using h)]
  exact ⟨contents, rfl, Nat.zero_le _, Nat.le_refl _⟩

/-- **C29** (sub-range): a view is constrained to exactly the bytes of the range, as a slice of
what the view shows, and refused if the range does not lie inside the view.  (A view of this
kind is far smaller than the address space, `hlen`.)
Partial: an empty file, for which it is false (`C29_empty_not_refused`), and ranges beyond the address space (`C29_overflow_panics`). -/
theorem C29_constrain_partial {m : Mmap} (hm : m.Inside) {b : Bytes} (hb : m.mapping = some b)
    (hlen : b.length < 2 ^ 63) (lo hi : Nat) (hle : lo ≤ hi) (hhi : hi < 2 ^ 63) :
    (hi ≤ m.deref.length → ∃ m', m.constrain lo hi = .ok (some m') ∧ m'.Inside ∧ m'.mapping = some b ∧
      IsSlice m.deref lo (hi - lo) m'.deref) ∧
    (m.deref.length < hi → m.constrain lo hi = .ok none) := by
  have hd := deref_inside hm hb
  have hin : m.Inside := hm
  obtain ⟨b', hb', h1, h2⟩ := hm
  rw [hb] at hb'
  cases hb'
  rw [hd.2]
  have hadd : ∀ x, m.start + x < 2 ^ 64 → addU64 m.start x = .ok (m.start + x) := by
    intro x hx
    unfold addU64 u64Size
    rw [if_pos (by omega)]
  unfold Mmap.constrain
  rw [hadd hi (by omega)]
  simp only [bind, Except.bind]
  constructor
  · intro h
    rw [if_neg (by omega), hadd lo (by omega)]
    simp only
    have hin' : Mmap.Inside ⟨m.mapping, m.start + lo, m.start + hi⟩ :=
      ⟨b, hb, by dsimp only; omega, by dsimp only; omega⟩
    refine ⟨_, rfl, hin', hb, ?_⟩
    rw [isSlice_iff, hd.2, hd.1, (deref_inside hin' hb).1]
    refine ⟨by omega, ?_⟩
    dsimp only
    rw [List.drop_take, List.drop_drop, List.take_take, Nat.min_eq_left (by omega)]
    congr 1
    omega
  · intro h
    rw [if_pos (by omega)]

/-- **C29** (nesting): constraining a constrained view is constraining the view itself to the
range shifted by the start of the first one. -/
theorem C29_nested {m m' : Mmap} {lo hi lo' hi' : Nat}
    (h : m.constrain lo hi = .ok (some m')) (h' : lo + hi' ≤ hi) (hv : m.stop + lo + lo' < 2 ^ 64) :
    m'.constrain lo' hi' = m.constrain (lo + lo') (lo + hi') := by
  unfold Mmap.constrain at h
  obtain ⟨s, h1, h2⟩ := bind_ok h
  unfold addU64 at h1
  split at h1
  · cases h1
    split at h2
    · cases h2
    · obtain ⟨t, h3, h4⟩ := bind_ok h2
      unfold addU64 at h3
      split at h3
      · cases h3
        simp only [Except.ok.injEq, Option.some.injEq] at h4
        subst h4
        have hadd : ∀ x y, x + y < 2 ^ 64 → addU64 x y = .ok (x + y) := by
          intro x y hx
          unfold addU64 u64Size
          rw [if_pos (by omega)]
        unfold u64Size at *
        unfold Mmap.constrain
        dsimp only
        rw [hadd (m.start + lo) hi' (by omega), hadd m.start (lo + hi') (by omega),
          hadd (m.start + lo) lo' (by omega), hadd m.start (lo + lo') (by omega)]
        simp only [bind, Except.bind]
        rw [if_neg (by omega), if_neg (by omega)]
        simp only [Nat.add_assoc]
      · cases h3
  · cases h1

/-- **C29** (reversed ranges): a range whose start is above its end shows nothing, and nothing but
nothing can be made of it. -/
theorem C29_reversed {m m' : Mmap} {lo hi : Nat} (hlt : hi < lo)
    (h : m.constrain lo hi = .ok (some m')) :
    m'.deref = [] ∧ ∀ lo' hi' m'', m'.constrain lo' hi' ≠ .ok (some m'') := by
  unfold Mmap.constrain at h
  obtain ⟨s, h1, h2⟩ := bind_ok h
  unfold addU64 at h1
  split at h1
  · cases h1
    split at h2
    · cases h2
    · obtain ⟨t, h3, h4⟩ := bind_ok h2
      unfold addU64 at h3
      split at h3
      · cases h3
        simp only [Except.ok.injEq, Option.some.injEq] at h4
        subst h4
        constructor
        · unfold Mmap.deref getRange
          dsimp only
          cases m.mapping with
          | none => rfl
          | some b => dsimp only; rw [if_neg (by omega)]; rfl
        · intro lo' hi' m'' hc
          unfold Mmap.constrain at hc
          obtain ⟨s', g1, g2⟩ := bind_ok hc
          unfold addU64 at g1
          split at g1
          · cases g1
            dsimp only at g2
            rw [if_pos (by omega)] at g2
            cases g2
          · cases g1
      · cases h3
  · cases h1

/-- **C29** (overflow): a range whose end lies beyond the address space, seen from the start of the
view, makes the call panic rather than fail. -/
theorem C29_overflow_panics (m : Mmap) (lo hi : Nat) (h : 2 ^ 64 ≤ m.start + hi) :
    m.constrain lo hi = .error .panic := by
  unfold Mmap.constrain addU64 u64Size
  rw [if_neg (by omega)]
  rfl

/-- **C29** (negation): of an empty file, which shows no bytes, the range of the first byte is not
refused. -/
theorem C29_empty_not_refused :
    ∃ m', (Mmap.map []).constrain 0 1 = .ok (some m') ∧ m'.deref = [] := ⟨_, rfl, rfl⟩

/-! ### Concrete cases -/

example : ∃ m m', (Mmap.map [1, 2, 3, 4, 5]).constrain 1 4 = .ok (some m) ∧ m.deref = [2, 3, 4] ∧
    m.constrain 1 3 = .ok (some m') ∧ m'.deref = [3, 4] ∧ m.constrain 1 4 = .ok none :=
  ⟨⟨some [1, 2, 3, 4, 5], 1, 4⟩, ⟨some [1, 2, 3, 4, 5], 2, 4⟩, rfl, rfl, rfl, rfl, rfl⟩

example : ∃ m, (Mmap.map [1, 2, 3, 4, 5]).constrain 4 1 = .ok (some m) := ⟨⟨_, 4, 1⟩, rfl⟩

example : ∃ m, (Mmap.map [1, 2]).constrain 1 2 = .ok (some m) ∧
    m.constrain 0 (2 ^ 64 - 1) = .error .panic :=
  ⟨⟨_, 1, 2⟩, rfl, C29_overflow_panics _ _ _ (by decide)⟩

end Blazesym.Util
