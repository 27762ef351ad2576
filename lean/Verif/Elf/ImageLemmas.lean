import Verif.Elf.ImageSpec
import Verif.Elf.SymtabLemmas
import Verif.Util.ReaderLemmas
import Verif.Util.LayoutLemmas

set_option autoImplicit false

namespace Blazesym.Elf
open Blazesym.Util Blazesym.Spec Blazesym.Spec.Elf

/-! ### The backends -/

theorem fileReadExact_ok {d : Bytes} {off n : Nat} {s : Bytes} (h : fileReadExact d off n = .ok s) :
    (n = 0 ∧ s = []) ∨ IsSlice d off n s := by
  unfold fileReadExact at h
  split at h
  · cases h
  · split at h
    · cases h; left; exact ⟨by assumption, rfl⟩
    · split at h
      · cases h; right; exact (isSlice_iff _ _ _ _).mpr ⟨by assumption, rfl⟩
      · cases h

theorem fileReadExact_complete {d : Bytes} {off n : Nat} (hd : d.length ≤ isizeMax)
    (h : off + n ≤ d.length) : fileReadExact d off n = .ok ((d.drop off).take n) := by
  unfold fileReadExact
  rw [if_neg (by omega)]
  split
  · simp_all
  · rfl

theorem readPodRef_ok {size a : Nat} {c c' : Cursor} {s : Bytes}
    (h : readPodRef size a c = (.ok s, c')) : size ≤ c.data.length ∧ s = c.data.take size := by
  unfold readPodRef at h
  by_cases hl : size ≤ c.data.length
  · rw [readSlice_ok hl] at h
    simp only at h
    split at h
    · simp only [Prod.mk.injEq, Except.ok.injEq] at h; exact ⟨hl, h.1.symm⟩
    · simp at h
  · rw [readSlice_none (by omega)] at h; simp at h

theorem alignOffset_zero {x a : Nat} (h : x % a = 0) : alignOffset x a = 0 := by
  unfold alignOffset; rw [h]; simp

theorem readPodRef_complete {size a : Nat} {c : Cursor} (hl : size ≤ c.data.length)
    (ha : c.addr % a = 0) : ∃ c', readPodRef size a c = (.ok (c.data.take size), c') := by
  unfold readPodRef
  rw [readSlice_ok hl]
  simp only [alignOffset_zero ha]
  exact ⟨_, rfl⟩

theorem readObj_ok {b : Backend} {off size a : Nat} {s : Bytes} (hs : 0 < size)
    (h : b.readObj off size a = .ok s) : IsSlice b.data off size s := by
  cases b with
  | mem addr d =>
    simp only [Backend.readObj] at h
    split at h
    · rename_i ho
      split at h
      · rename_i s' c' hr
        cases h
        obtain ⟨h1, h2⟩ := readPodRef_ok hr
        simp only [List.length_drop] at h1
        exact (isSlice_iff _ _ _ _).mpr ⟨by simp only [Backend.data]; omega, h2⟩
      · cases h
    · cases h
  | file d =>
    rcases fileReadExact_ok h with ⟨h0, _⟩ | h
    · omega
    · exact h

theorem readObj_complete {b : Backend} {off size a : Nat} (hd : b.data.length ≤ isizeMax)
    (h : off + size ≤ b.data.length) (ha : AlignedAt b off a) :
    b.readObj off size a = .ok ((b.data.drop off).take size) := by
  cases b with
  | mem addr d =>
    simp only [Backend.data] at h hd
    simp only [Backend.readObj]
    rw [if_pos (by omega)]
    obtain ⟨c', hc⟩ := readPodRef_complete (size := size) (a := a) (c := ⟨addr + off, d.drop off⟩)
      (by simp only [List.length_drop]; omega) ha
    rw [hc]
    rfl
  | file d => exact fileReadExact_complete hd h

theorem readObj_err {b : Backend} {off size a : Nat} {e : Err} (h : b.readObj off size a = .error e) :
    e ≠ .panic := by
  cases b with
  | mem addr d =>
    simp only [Backend.readObj] at h
    split at h
    · split at h <;> cases h
      decide
    · cases h; decide
  | file d =>
    simp only [Backend.readObj, fileReadExact] at h
    split at h
    · cases h; decide
    · split at h
      · cases h
      · split at h <;> cases h
        decide

theorem readSlice_ok' {b : Backend} {off size a count : Nat} {s : Bytes}
    (h : b.readSlice off size a count = .ok s) :
    (size * count = 0 ∧ s = []) ∨ IsSlice b.data off (size * count) s := by
  cases b with
  | mem addr d =>
    simp only [Backend.readSlice] at h
    split at h
    · rename_i ho
      split at h
      · rename_i s' c' hr
        cases h
        unfold readPodSliceRef at hr
        split at hr
        · obtain ⟨h1, h2⟩ := readPodRef_ok hr
          simp only [List.length_drop] at h1
          right
          exact (isSlice_iff _ _ _ _).mpr ⟨by simp only [Backend.data]; omega, h2⟩
        · simp at hr
      · cases h
    · cases h
  | file d =>
    simp only [Backend.readSlice] at h
    split at h
    · cases h
    · split at h
      · cases h
      · exact fileReadExact_ok h

theorem readSlice_complete {b : Backend} {off size a count : Nat} (hd : b.data.length ≤ isizeMax)
    (h : off + size * count ≤ b.data.length) (ha : AlignedAt b off a) :
    b.readSlice off size a count = .ok ((b.data.drop off).take (size * count)) := by
  cases b with
  | mem addr d =>
    simp only [Backend.data] at h hd
    simp only [Backend.readSlice]
    rw [if_pos (by omega)]
    unfold readPodSliceRef
    rw [if_pos (by unfold isizeMax at hd; unfold u64Size; omega)]
    obtain ⟨c', hc⟩ := readPodRef_complete (size := size * count) (a := a)
      (c := ⟨addr + off, d.drop off⟩) (by simp only [List.length_drop]; omega) ha
    rw [hc]
    rfl
  | file d =>
    simp only [Backend.data] at h hd
    simp only [Backend.readSlice]
    rw [if_neg (by omega), if_neg (by omega)]
    exact fileReadExact_complete hd h

/-- A read from memory never panics. -/
theorem readSlice_err {addr : Nat} {d : Bytes} {off size a count : Nat} {e : Err}
    (h : (Backend.mem addr d).readSlice off size a count = .error e) : e ≠ .panic := by
  simp only [Backend.readSlice] at h
  split at h
  · split at h <;> cases h
    decide
  · cases h; decide

/-! ### Records -/

variable {α : Type}

/-- One record: its bytes are in the file. -/
theorem readRecord_ok {b : Backend} {l : Layout α} {bit32 : Bool} {off : Nat} {x : α}
    (hs : 0 < l.size bit32) (h : b.readRecord l bit32 off = .ok x) :
    off + l.size bit32 ≤ b.data.length ∧ x = l.decode bit32 ((b.data.drop off).take (l.size bit32)) := by
  unfold Backend.readRecord at h
  cases hr : b.readObj off (l.size bit32) (l.align bit32) with
  | error e => rw [hr] at h; cases h
  | ok s =>
    rw [hr] at h
    cases h
    obtain ⟨h1, rfl⟩ := (isSlice_iff _ _ _ _).mp (readObj_ok hs hr)
    exact ⟨h1, rfl⟩

/-- A table: the number of entries is as requested, each one's bytes are in the file. -/
theorem readTable_ok {b : Backend} {l : Layout α} {bit32 : Bool} {off count : Nat} {t : List α}
    (hs : 0 < l.size bit32) (h : b.readTable l bit32 off count = .ok t) :
    t.length = count ∧ ∀ i x, t[i]? = some x →
      off + i * l.size bit32 + l.size bit32 ≤ b.data.length ∧
      x = l.decode bit32 ((b.data.drop (off + i * l.size bit32)).take (l.size bit32)) := by
  unfold Backend.readTable at h
  cases hr : b.readSlice off (l.size bit32) (l.align bit32) count with
  | error e => rw [hr] at h; cases h
  | ok s =>
    rw [hr] at h
    cases h
    refine ⟨records_length _ _ _ _, ?_⟩
    intro i x hx
    have hi : i < count := by
      have := (List.getElem?_eq_some_iff.mp hx).1
      rwa [records_length] at this
    rcases readSlice_ok' hr with ⟨h0, _⟩ | hsl
    · rcases Nat.mul_eq_zero.mp h0 with h0 | h0 <;> omega
    · obtain ⟨h1, rfl⟩ := (isSlice_iff _ _ _ _).mp hsl
      rw [records_slice _ _ _ _ _ _ hi] at hx
      refine ⟨?_, (Option.some.inj hx).symm⟩
      obtain ⟨k, rfl⟩ : ∃ k, count = i + 1 + k := ⟨count - (i + 1), by omega⟩
      have : l.size bit32 * (i + 1 + k) = i * l.size bit32 + l.size bit32 + l.size bit32 * k := by ring
      omega

theorem readRecord_complete {b : Backend} {l : Layout α} {bit32 : Bool} {off : Nat}
    (hd : b.data.length ≤ isizeMax) (h : off + l.size bit32 ≤ b.data.length)
    (ha : AlignedAt b off (l.align bit32)) : ∃ x, b.readRecord l bit32 off = .ok x := by
  unfold Backend.readRecord
  rw [readObj_complete hd h ha]
  exact ⟨_, rfl⟩

theorem readTable_complete {b : Backend} {l : Layout α} {bit32 : Bool} {off count : Nat}
    (hd : b.data.length ≤ isizeMax) (h : off + l.size bit32 * count ≤ b.data.length)
    (ha : AlignedAt b off (l.align bit32)) : ∃ x, b.readTable l bit32 off count = .ok x := by
  unfold Backend.readTable
  rw [readSlice_complete hd h ha]
  exact ⟨_, rfl⟩

theorem readRecord_err {b : Backend} {l : Layout α} {bit32 : Bool} {off : Nat} {e : Err}
    (h : b.readRecord l bit32 off = .error e) : e ≠ .panic := by
  unfold Backend.readRecord at h
  cases hr : b.readObj off (l.size bit32) (l.align bit32) with
  | error e' => rw [hr] at h; cases h; exact readObj_err hr
  | ok s => rw [hr] at h; cases h

theorem readTable_err {addr : Nat} {d : Bytes} {l : Layout α} {bit32 : Bool} {off count : Nat} {e : Err}
    (h : (Backend.mem addr d).readTable l bit32 off count = .error e) : e ≠ .panic := by
  unfold Backend.readTable at h
  cases hr : (Backend.mem addr d).readSlice off (l.size bit32) (l.align bit32) count with
  | error e' => rw [hr] at h; cases h; exact readSlice_err hr
  | ok s => rw [hr] at h; cases h

theorem shdrAt_decode {bit32 : Bool} {d : Bytes} {o : Nat}
    (h : o + shdrLayout.size bit32 ≤ d.length) :
    ShdrAt bit32 d o (shdrLayout.decode bit32 ((d.drop o).take (shdrLayout.size bit32))) := by
  cases bit32 with
  | true =>
    simp only [ShdrAt, if_true]
    have h' : o + 40 ≤ d.length := h
    refine ⟨num_field0 h' _ (by omega), num_field h' _ _ (by omega), num_field h' _ _ (by omega),
      num_field h' _ _ (by omega), num_field h' _ _ (by omega), num_field h' _ _ (by omega),
      num_field h' _ _ (by omega), num_field h' _ _ (by omega), num_field h' _ _ (by omega),
      num_field h' _ _ (by omega)⟩
  | false =>
    simp only [ShdrAt]
    have h' : o + 64 ≤ d.length := h
    refine ⟨num_field0 h' _ (by omega), num_field h' _ _ (by omega), num_field h' _ _ (by omega),
      num_field h' _ _ (by omega), num_field h' _ _ (by omega), num_field h' _ _ (by omega),
      num_field h' _ _ (by omega), num_field h' _ _ (by omega), num_field h' _ _ (by omega),
      num_field h' _ _ (by omega)⟩

theorem phdrAt_decode {bit32 : Bool} {d : Bytes} {o : Nat}
    (h : o + phdrLayout.size bit32 ≤ d.length) :
    PhdrAt bit32 d o (phdrLayout.decode bit32 ((d.drop o).take (phdrLayout.size bit32))) := by
  cases bit32 with
  | true =>
    simp only [PhdrAt, if_true]
    have h' : o + 32 ≤ d.length := h
    refine ⟨num_field0 h' _ (by omega), num_field h' _ _ (by omega), num_field h' _ _ (by omega),
      num_field h' _ _ (by omega), num_field h' _ _ (by omega), num_field h' _ _ (by omega),
      num_field h' _ _ (by omega), num_field h' _ _ (by omega)⟩
  | false =>
    simp only [PhdrAt]
    have h' : o + 56 ≤ d.length := h
    refine ⟨num_field0 h' _ (by omega), num_field h' _ _ (by omega), num_field h' _ _ (by omega),
      num_field h' _ _ (by omega), num_field h' _ _ (by omega), num_field h' _ _ (by omega),
      num_field h' _ _ (by omega), num_field h' _ _ (by omega)⟩

theorem symAt_decode {bit32 : Bool} {d : Bytes} {o : Nat}
    (h : o + symLayout.size bit32 ≤ d.length) :
    SymAt bit32 d o (symLayout.decode bit32 ((d.drop o).take (symLayout.size bit32))) := by
  cases bit32 with
  | true =>
    simp only [SymAt, if_true]
    have h' : o + 16 ≤ d.length := h
    refine ⟨num_field0 h' _ (by omega), num_field h' _ _ (by omega), num_field h' _ _ (by omega),
      num_field h' _ _ (by omega), num_field h' _ _ (by omega), num_field h' _ _ (by omega)⟩
  | false =>
    simp only [SymAt]
    have h' : o + 24 ≤ d.length := h
    refine ⟨num_field0 h' _ (by omega), num_field h' _ _ (by omega), num_field h' _ _ (by omega),
      num_field h' _ _ (by omega), num_field h' _ _ (by omega), num_field h' _ _ (by omega)⟩

theorem shdr_pos (bit32 : Bool) : 0 < shdrLayout.size bit32 := by cases bit32 <;> decide
theorem phdr_pos (bit32 : Bool) : 0 < phdrLayout.size bit32 := by cases bit32 <;> decide
theorem sym_pos (bit32 : Bool) : 0 < symLayout.size bit32 := by cases bit32 <;> decide
theorem ehdr_pos (bit32 : Bool) : 0 < ehdrLayout.size bit32 := by cases bit32 <;> decide

end Blazesym.Elf
