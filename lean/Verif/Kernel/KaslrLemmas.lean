import Verif.Kernel.Kaslr
import Verif.Kernel.KaslrSpec
import Verif.Elf.NotesProps
import Verif.Util.TextLemmas
import Verif.Elf.OffsetProps

/-! Lemmas about the kernel core notes. -/

set_option autoImplicit false

namespace Blazesym.Kernel
open Blazesym.Util Blazesym.Elf Blazesym.Spec Blazesym.Spec.Elf Blazesym.Spec.Kernel

/-! ### The descriptor -/

theorem key_no_eq : ∀ x ∈ ascii "KERNELOFFSET", (x == 61) = false := by decide +kernel

theorem split_key (l value : Bytes) :
    splitBytes l (fun b => b == 61) = some (ascii "KERNELOFFSET", value) ↔ l = ascii "KERNELOFFSET" ++ 61 :: value := by
  rw [splitBytes_some_iff]
  constructor
  · rintro ⟨w, h1, h2, _⟩
    have : w = 61 := by simpa using h2
    subst this
    exact h1
  · intro h
    exact ⟨61, h, by decide, key_no_eq⟩

theorem find_entry (lines : List Bytes) :
    (∀ value, (∃ before after : List Bytes, lines = before ++ (ascii "KERNELOFFSET" ++ 61 :: value) :: after ∧
        ∀ l ∈ before, ∀ v, l ≠ ascii "KERNELOFFSET" ++ 61 :: v) ↔
      (lines.filterMap (fun line => splitBytes line (fun b => b == 61))).find?
        (fun kv => kv.1 == ascii "KERNELOFFSET") = some (ascii "KERNELOFFSET", value)) := by
  intro value
  induction lines with
  | nil => simp
  | cons l t ih =>
    by_cases hl : ∃ v, l = ascii "KERNELOFFSET" ++ 61 :: v
    · obtain ⟨v, rfl⟩ := hl
      rw [List.filterMap_cons_some (f := fun line => splitBytes line (fun b => b == 61)) ((split_key _ v).mpr rfl), List.find?_cons_of_pos (by simp)]
      constructor
      · rintro ⟨before, after, h1, h2⟩
        cases before with
        | nil =>
          simp only [List.nil_append, List.cons.injEq, List.append_cancel_left_eq] at h1
          simpa using h1.1
        | cons b bs =>
          simp only [List.cons_append, List.cons.injEq] at h1
          exact absurd h1.1.symm (h2 b (by simp) v)
      · intro h
        have : v = value := by simpa using h
        subst this
        exact ⟨[], t, rfl, by simp⟩
    · have hl' : ∀ v, l ≠ ascii "KERNELOFFSET" ++ 61 :: v := fun v h => hl ⟨v, h⟩
      have hstep : ((l :: t).filterMap (fun line => splitBytes line (fun b => b == 61))).find?
          (fun kv => kv.1 == ascii "KERNELOFFSET") =
          (t.filterMap (fun line => splitBytes line (fun b => b == 61))).find?
            (fun kv => kv.1 == ascii "KERNELOFFSET") := by
        cases hs : splitBytes l (fun b => b == 61) with
        | none => rw [List.filterMap_cons_none (f := fun line => splitBytes line (fun b => b == 61)) hs]
        | some kv =>
          rw [List.filterMap_cons_some (f := fun line => splitBytes line (fun b => b == 61)) hs, List.find?_cons_of_neg]
          intro hk
          obtain ⟨k, v⟩ := kv
          have : k = ascii "KERNELOFFSET" := by simpa using hk
          subst this
          exact hl' v ((split_key _ _).mp hs)
      rw [hstep, ← ih]
      constructor
      · rintro ⟨before, after, h1, h2⟩
        cases before with
        | nil =>
          simp only [List.nil_append, List.cons.injEq] at h1
          exact absurd h1.1 (hl' value)
        | cons b bs =>
          simp only [List.cons_append, List.cons.injEq] at h1
          exact ⟨bs, after, h1.2, fun x hx => h2 x (by simp [hx])⟩
      · rintro ⟨before, after, rfl, h2⟩
        refine ⟨l :: before, after, rfl, ?_⟩
        intro x hx
        rcases List.mem_cons.mp hx with rfl | hx
        · exact hl'
        · exact h2 x hx

theorem entry_iff (desc value : Bytes) : FirstEntry desc (ascii "KERNELOFFSET") value ↔
    (parseVmcoreinfo desc).find? (fun kv => kv.1 == ascii "KERNELOFFSET") = some (ascii "KERNELOFFSET", value) := by
  unfold FirstEntry parseVmcoreinfo
  rw [split_eq]
  exact find_entry _ value

theorem find_key {l : List (Bytes × Bytes)} {kv : Bytes × Bytes} {k : Bytes} (h : l.find? (fun kv => kv.1 == k) = some kv) :
    kv = (k, kv.2) := by
  have := List.find?_some h
  have : kv.1 = k := by simpa using this
  rw [← this]

/-- What the descriptor says about the offset. -/
theorem kernelOffset_spec (desc : Bytes) :
    (∀ v, kernelOffset desc = .ok (some v) ↔ ∃ value, FirstEntry desc (ascii "KERNELOFFSET") value ∧
      (∀ c ∈ value, IsDigit 16 c) ∧ numVal 16 value = v ∧ v < 2 ^ 64) ∧
    (kernelOffset desc = .ok none ↔ ∀ value, ¬ FirstEntry desc (ascii "KERNELOFFSET") value) ∧
    (∀ e, kernelOffset desc = .error e → (e = .invalidData ∨ e = .panic) ∧
      ∃ value, FirstEntry desc (ascii "KERNELOFFSET") value ∧
        ¬ ((∀ c ∈ value, IsDigit 16 c) ∧ numVal 16 value < 2 ^ 64)) := by
  simp only [entry_iff]
  unfold kernelOffset
  cases hf : (parseVmcoreinfo desc).find? (fun kv => kv.1 == ascii "KERNELOFFSET") with
  | none => simp
  | some kv =>
    have hkv := find_key hf
    obtain ⟨k, value⟩ := kv
    simp only [Prod.mk.injEq, and_true] at hkv
    subst hkv
    have hv : ∀ value', some (ascii "KERNELOFFSET", value) = some (ascii "KERNELOFFSET", value') ↔ value = value' := by
      intro value'; simp
    simp only [hv]
    cases hr : fromRadix16 value with
    | ok v =>
      have := (C52_from_radix_16 value v).mp hr
      refine ⟨?_, ?_, by simp⟩
      · intro v'
        simp only [Except.ok.injEq, Option.some.injEq]
        constructor
        · rintro rfl
          exact ⟨value, rfl, this⟩
        · rintro ⟨_, rfl, _, h, _⟩
          exact this.2.1.symm.trans h
      · simp
    | error f =>
      have hn : ¬ ((∀ c ∈ value, IsDigit 16 c) ∧ numVal 16 value < 2 ^ 64) := by
        rintro ⟨h1, h2⟩
        rw [(C52_from_radix_16 value _).mpr ⟨h1, rfl, h2⟩] at hr
        simp at hr
      have h1 : ∀ v, ¬ ∃ value', value = value' ∧ (∀ c ∈ value', IsDigit 16 c) ∧ numVal 16 value' = v ∧ v < 2 ^ 64 := by
        rintro v ⟨_, rfl, h1, h2, h3⟩
        exact hn ⟨h1, by rw [h2]; exact h3⟩
      cases f with
      | none =>
        refine ⟨fun v => by simp only [reduceCtorEq, false_iff]; exact h1 v, by simp, ?_⟩
        intro e he
        exact ⟨.inl (by simpa using he.symm), value, rfl, hn⟩
      | panic =>
        refine ⟨fun v => by simp only [reduceCtorEq, false_iff]; exact h1 v, by simp, ?_⟩
        intro e he
        exact ⟨.inr (by simpa using he.symm), value, rfl, hn⟩

/-! ### The loop over the notes -/

/-- What the function returns for a descriptor. -/
def fromDesc (desc : Bytes) : Except Err (Option (Option Nat)) :=
  match kernelOffset desc with
  | .error e => .error e
  | .ok r => .ok (some r)

theorem vm_pos : 0 < VMCOREINFO_NAME.length := by decide +kernel

theorem noteName_eq (data : Bytes) (off n : Nat) (hd : data.length < 2 ^ 62) (ho : off < 2 ^ 62 + 2 ^ 34) (hn : n < 2 ^ 32) :
    noteName data n off =
      if n = 0 then .ok (none, off)
      else if data.length < off + n then .error .unexpectedEof
      else if u32Size ≤ n + 3 then .error .panic
      else .ok (some ((data.drop off).take n), off + (n + pad4 n)) := by
  unfold noteName
  by_cases h0 : n = 0
  · rw [if_neg (by omega), if_pos h0]
  · rw [if_pos (by omega), if_neg h0]
    unfold Backend.readSlice fileReadExact
    simp only [Nat.one_mul]
    rw [if_neg (by unfold isizeMax; omega), if_neg (by unfold isizeMax; omega), if_neg (by unfold isizeMax; omega),
      if_neg h0]
    by_cases hl : off + n ≤ data.length
    · rw [if_pos hl, if_neg (by omega)]
      simp only
      by_cases hp : u32Size ≤ n + 3
      · rw [alignUp4_panic hp, if_pos hp]
      · rw [alignUp4 (by omega), if_neg hp]
        simp only
        rw [addU64_ok (by have : pad4 n < 4 := by unfold pad4; omega
                          omega)]
    · rw [if_neg hl, if_pos (by omega)]

theorem kcoreLoop_step (data : Bytes) (filesz fuel off : Nat) (hd : data.length < 2 ^ 62) (ho : off < 2 ^ 62 + 2 ^ 34) :
    kcoreLoop data filesz (fuel + 1) off =
      if filesz < off + 12 then .ok none
      else if data.length < off + 12 then .error .unexpectedEof
      else if data.length < off + 12 + field (data.drop off) 0 4 then .error .unexpectedEof
      else if u32Size ≤ field (data.drop off) 0 4 + 3 then .error .panic
      else if (data.drop (off + 12)).take (field (data.drop off) 0 4) = VMCOREINFO_NAME ∧ field (data.drop off) 4 4 > 0 then
        if data.length < off + 12 + (field (data.drop off) 0 4 + pad4 (field (data.drop off) 0 4)) + field (data.drop off) 4 4
        then .error .unexpectedEof
        else fromDesc ((data.drop (off + 12 + (field (data.drop off) 0 4 + pad4 (field (data.drop off) 0 4)))).take
          (field (data.drop off) 4 4))
      else if u32Size ≤ field (data.drop off) 4 4 + 3 then .error .panic
      else kcoreLoop data filesz fuel (off + 12 + (field (data.drop off) 0 4 + pad4 (field (data.drop off) 0 4)) +
        (field (data.drop off) 4 4 + pad4 (field (data.drop off) 4 4))) := by
  rw [kcoreLoop, addU64_ok (by omega)]
  simp only
  by_cases h1 : off + 12 ≤ filesz
  swap
  · rw [if_neg h1, if_pos (by omega)]
  rw [if_pos h1, if_neg (by omega)]
  unfold Backend.readObj fileReadExact
  simp only
  rw [if_neg (by unfold isizeMax; omega), if_neg (by omega)]
  by_cases h2 : off + 12 ≤ data.length
  swap
  · rw [if_neg h2, if_pos (by omega)]
  rw [if_pos h2, if_neg (by omega)]
  simp only
  have f0 : field ((data.drop off).take 12) 0 4 = field (data.drop off) 0 4 := by
    have := field_sub (data.drop off) 0 12 0 4 (by omega)
    simpa using this
  have f4 : field ((data.drop off).take 12) 4 4 = field (data.drop off) 4 4 := by
    have := field_sub (data.drop off) 0 12 4 4 (by omega)
    simpa using this
  rw [f0, f4]
  have hN : field (data.drop off) 0 4 < 2 ^ 32 := by
    have := leValue_lt (((data.drop off).drop 0).take 4)
    have hl : (((data.drop off).drop 0).take 4).length ≤ 4 := by simp
    have : 256 ^ (((data.drop off).drop 0).take 4).length ≤ 256 ^ 4 := Nat.pow_le_pow_right (by omega) hl
    unfold field
    omega
  have hS : field (data.drop off) 4 4 < 2 ^ 32 := by
    have := leValue_lt (((data.drop off).drop 4).take 4)
    have hl : (((data.drop off).drop 4).take 4).length ≤ 4 := by simp
    have : 256 ^ (((data.drop off).drop 4).take 4).length ≤ 256 ^ 4 := Nat.pow_le_pow_right (by omega) hl
    unfold field
    omega
  generalize field (data.drop off) 0 4 = N at hN ⊢
  generalize field (data.drop off) 4 4 = S at hS ⊢
  have hpN : pad4 N < 4 := by unfold pad4; omega
  have hpS : pad4 S < 4 := by unfold pad4; omega
  rw [noteName_eq data (off + 12) N hd (by omega) hN]
  -- what follows once the name is known
  have tail : ∀ (name : Option Bytes) (o : Nat), o < 2 ^ 62 + 2 ^ 34 →
      (if name = some VMCOREINFO_NAME ∧ S > 0 then
        match Backend.readSlice (.file data) o 1 1 S with
        | .error e => .error e
        | .ok desc =>
          match kernelOffset desc with
          | .error e => .error e
          | .ok r => .ok (some r)
      else
        match alignUp u32Size S 4 with
        | .error e => .error e
        | .ok skip =>
          match addU64 o skip with
          | .error e => .error e
          | .ok offset => kcoreLoop data filesz fuel offset) =
      (if name = some VMCOREINFO_NAME ∧ S > 0 then
        if data.length < o + S then .error .unexpectedEof
        else fromDesc ((data.drop o).take S)
      else if u32Size ≤ S + 3 then .error .panic
      else kcoreLoop data filesz fuel (o + (S + pad4 S))) := by
    intro name o ho'
    by_cases hv : name = some VMCOREINFO_NAME ∧ S > 0
    · rw [if_pos hv, if_pos hv]
      unfold Backend.readSlice fileReadExact
      simp only [Nat.one_mul]
      rw [if_neg (by unfold isizeMax; omega), if_neg (by unfold isizeMax; omega), if_neg (by unfold isizeMax; omega),
        if_neg (by omega)]
      by_cases hl : o + S ≤ data.length
      · rw [if_pos hl, if_neg (by omega)]
        rfl
      · rw [if_neg hl, if_pos (by omega)]
    · rw [if_neg hv, if_neg hv]
      by_cases hp : u32Size ≤ S + 3
      · rw [alignUp4_panic hp, if_pos hp]
      · rw [alignUp4 (by omega), if_neg hp]
        simp only
        rw [addU64_ok (by omega)]
  by_cases h0 : N = 0
  · rw [if_pos h0]
    simp only
    refine (tail none (off + 12) (by omega)).trans ?_
    have hv : ¬ ((data.drop (off + 12)).take N = VMCOREINFO_NAME ∧ S > 0) := by
      rintro ⟨h, _⟩
      have := vm_pos
      rw [← h, h0] at this
      simp at this
    have hp : pad4 N = 0 := by subst h0; rfl
    rw [if_neg (by omega : ¬ data.length < off + 12 + N),
      if_neg (by unfold u32Size; omega : ¬ u32Size ≤ N + 3), if_neg (by simp), if_neg hv, hp, h0]
  · rw [if_neg h0]
    by_cases h3 : data.length < off + 12 + N
    · rw [if_pos h3, if_pos h3]
    rw [if_neg h3, if_neg h3]
    by_cases h4 : u32Size ≤ N + 3
    · rw [if_pos h4, if_pos h4]
    rw [if_neg h4, if_neg h4]
    simp only
    refine (tail _ _ (by omega)).trans ?_
    simp only [Option.some.injEq]

end Blazesym.Kernel
