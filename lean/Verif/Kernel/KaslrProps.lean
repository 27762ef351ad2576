import Verif.Kernel.KaslrLemmas
import Verif.Kernel.KsymProps

/-! # C35: detection of the KASLR offset -/

set_option autoImplicit false

namespace Blazesym.Kernel
open Blazesym.Util Blazesym.Elf Blazesym.Spec Blazesym.Spec.Elf Blazesym.Spec.Kernel

/-- **C35** (descriptor): the offset is the hexadecimal number in the first line that starts with
`KERNELOFFSET=`; there is none if there is no such line. -/
theorem C35_descriptor (desc : Bytes) :
    (∀ v, kernelOffset desc = .ok (some v) ↔ ∃ value, FirstEntry desc (ascii "KERNELOFFSET") value ∧
      (∀ c ∈ value, IsDigit 16 c) ∧ numVal 16 value = v ∧ v < 2 ^ 64) ∧
    (kernelOffset desc = .ok none ↔ ∀ value, ¬ FirstEntry desc (ascii "KERNELOFFSET") value) ∧
    (∀ e, kernelOffset desc = .error e → (e = .invalidData ∨ e = .panic) ∧
      ∃ value, FirstEntry desc (ascii "KERNELOFFSET") value ∧
        ¬ ((∀ c ∈ value, IsDigit 16 c) ∧ numVal 16 value < 2 ^ 64)) :=
  kernelOffset_spec desc

theorem notes_len {d rest : Bytes} {ns : List (Nat × Bytes × Bytes)} (h : Notes d ns rest) :
    12 * ns.length + rest.length ≤ d.length := by
  induction h with
  | nil d => simp
  | cons d type name desc pad d' rest ns hh hp _ ih =>
    obtain ⟨hdr, pad', rfl, h12, _⟩ := hh
    simp only [List.length_append, List.length_cons] at ih ⊢
    omega

theorem kcoreLoop_found (data : Bytes) (filesz : Nat) (hd : data.length < 2 ^ 62) (d : Bytes)
    (ns : List (Nat × Bytes × Bytes)) (rest : Bytes) (hn : Notes d ns rest) : ∀ (off fuel : Nat),
    off ≤ data.length → d = data.drop off → (∀ n ∈ ns, ¬ IsVmcoreinfo n) → (∀ n ∈ ns, SmallNote n) →
    ∀ (type : Nat) (desc tail : Bytes), NoteHead rest type (ascii "VMCOREINFO" ++ [0]) desc tail → desc ≠ [] →
    ∀ pos, pos + rest.length = data.length → pos + 12 ≤ filesz → ns.length < fuel →
    kcoreLoop data filesz fuel off = fromDesc desc := by
  induction hn with
  | nil d =>
    rintro off fuel ho rfl _ _ type desc tail hh hne pos hpos hf hfuel
    obtain ⟨fuel, rfl⟩ : ∃ k, fuel = k + 1 := ⟨fuel - 1, by simp at hfuel; omega⟩
    have : pos = off := by simp at hpos; omega
    subst this
    obtain ⟨h12, _, hl, h3, h4, _⟩ := (noteHead_iff ..).mp hh
    rw [List.length_drop] at h12 hl
    have hvl : (ascii "VMCOREINFO" ++ [0] : Bytes).length = 11 := by decide +kernel
    have hN : field (data.drop pos) 0 4 = 11 := by
      have := congrArg List.length h3
      rw [hvl, List.length_take, List.length_drop, List.length_drop] at this
      omega
    have hS : 0 < field (data.drop pos) 4 4 := by
      rcases Nat.eq_zero_or_pos (field (data.drop pos) 4 4) with h0 | h0
      · rw [h0, List.take_zero] at h4; exact absurd h4 hne
      · exact h0
    rw [kcoreLoop_step data filesz fuel pos hd (by omega), if_neg (by omega), if_neg (by omega), if_neg (by omega),
      if_neg (by rw [hN]; decide), if_pos, if_neg (by omega)]
    · rw [h4, List.drop_drop, Nat.add_assoc]
    · refine ⟨?_, hS⟩
      rw [List.drop_drop] at h3
      exact h3.symm
  | cons d type name desc pad d' rest ns hh hpad _ ih =>
    rintro off fuel ho rfl hns hsm type' desc' tail' hh' hne pos hpos hf hfuel
    obtain ⟨fuel, rfl⟩ : ∃ k, fuel = k + 1 := ⟨fuel - 1, by simp at hfuel; omega⟩
    have hn' := notes_len ‹Notes d' ns rest›
    obtain ⟨h12, _, hl, h3, h4, h5⟩ := (noteHead_iff ..).mp hh
    rw [List.length_drop] at h12 hl
    have hsmall := hsm _ (List.mem_cons_self ..)
    have hN : name.length = field (data.drop off) 0 4 := by
      rw [h3, List.length_take, List.length_drop, List.length_drop]; omega
    have hS : desc.length = field (data.drop off) 4 4 := by
      rw [h4, List.length_take, List.length_drop, List.length_drop]; omega
    unfold SmallNote at hsmall
    simp only [hN, hS] at hsmall
    -- where the next note starts
    have hd' : d' = data.drop (off + 12 + (field (data.drop off) 0 4 + pad4 (field (data.drop off) 0 4)) +
        (field (data.drop off) 4 4 + pad4 (field (data.drop off) 4 4))) := by
      have h6 := congrArg (List.drop pad.length) h5
      rw [List.drop_left, List.drop_drop, List.drop_drop, hpad, hS] at h6
      rw [h6]
      congr 1
      omega
    have hlen5 := congrArg List.length h5
    rw [List.length_append, List.length_drop, List.length_drop, hpad, hS] at hlen5
    rw [kcoreLoop_step data filesz fuel off hd (by omega), if_neg (by omega), if_neg (by omega), if_neg (by omega),
      if_neg (by unfold u32Size; omega), if_neg, if_neg (by unfold u32Size; omega)]
    · refine ih _ fuel ?_ hd' (fun n hn => hns n (by simp [hn])) (fun n hn => hsm n (by simp [hn])) type' desc' tail' hh'
        hne pos hpos hf (by simpa using hfuel)
      omega
    · rintro ⟨hv, hpos'⟩
      refine hns _ (List.mem_cons_self ..) ⟨?_, ?_⟩
      · rw [h3, List.drop_drop]; exact hv
      · intro h0
        have h0 : desc = [] := h0
        rw [h0] at hS
        simp at hS
        omega

/-- **C35** (notes of a segment): if kernel core information is among the notes of a segment
(and its start is not too close to the segment's end, see `C35_tail_ignored`), the offset in it is
the result. -/
theorem C35_segment_partial (data : Bytes) (filesz off pos : Nat) (ns : List (Nat × Bytes × Bytes)) (desc : Bytes)
    (hd : data.length < 2 ^ 62) (h : VmcoreAt data off ns pos desc) (hs : ∀ n ∈ ns, SmallNote n)
    (hp : pos + 12 ≤ filesz) :
    kcoreLoop data filesz (data.length + 2) off =
      match kernelOffset desc with
      | .error e => .error e
      | .ok r => .ok (some r) := by
  obtain ⟨rest, type, tail, h1, h2, h3, h4, h5, h6⟩ := h
  have hl := notes_len h2
  rw [List.length_drop] at hl
  exact kcoreLoop_found data filesz hd _ ns rest h2 off _ h1 rfl h3 hs type desc tail h4 h5 pos h6 hp (by omega)

theorem kcoreLoop_sound (data : Bytes) (filesz : Nat) (hd : data.length < 2 ^ 62) (r : Option Nat) (fuel : Nat) :
    ∀ off, off < 2 ^ 62 + 2 ^ 34 → kcoreLoop data filesz fuel off = .ok (some r) →
    ∃ (ns : List (Nat × Bytes × Bytes)) (pos : Nat) (desc : Bytes), VmcoreAt data off ns pos desc ∧ pos + 12 ≤ filesz ∧
      kernelOffset desc = .ok r := by
  induction fuel with
  | zero => intro off _ h; simp [kcoreLoop] at h
  | succ fuel ih =>
    intro off ho h
    rw [kcoreLoop_step data filesz fuel off hd ho] at h
    split at h
    · simp at h
    rename_i h1
    split at h
    · simp at h
    rename_i h2
    split at h
    · simp at h
    rename_i h3
    split at h
    · simp at h
    rename_i h4
    have hpN : pad4 (field (data.drop off) 0 4) < 4 := by unfold pad4; omega
    have hpS : pad4 (field (data.drop off) 4 4) < 4 := by unfold pad4; omega
    split at h
    · rename_i hv
      split at h
      · simp at h
      rename_i h5
      refine ⟨[], off, _, ⟨data.drop off, field (data.drop off) 8 4, _, by omega, .nil _, by simp,
        (noteHead_iff ..).mpr ⟨by simp; omega, rfl, by simp only [List.length_drop]; omega, ?_, rfl, rfl⟩, ?_,
        by simp only [List.length_drop]; omega⟩, by omega, ?_⟩
      · rw [List.drop_drop]; exact hv.1.symm
      · intro h0
        have := congrArg List.length h0
        simp only [List.length_take, List.length_drop, List.length_nil] at this
        omega
      · unfold fromDesc at h
        rw [List.drop_drop, ← Nat.add_assoc]
        split at h
        · simp at h
        · rename_i r' hr
          have : r' = r := by simpa using h
          subst this
          rw [← hr]
    · rename_i hv
      split at h
      · simp at h
      rename_i h6
      unfold u32Size at h4 h6
      obtain ⟨ns, pos, desc, ⟨rest, type, tail, g1, g2, g3, g4, g5, g6⟩, g7, g8⟩ := ih _ (by omega) h
      have hhead : NoteHead (data.drop off) (field (data.drop off) 8 4)
          (((data.drop off).drop 12).take (field (data.drop off) 0 4))
          (((data.drop off).drop (12 + (field (data.drop off) 0 4 + pad4 (field (data.drop off) 0 4)))).take
            (field (data.drop off) 4 4))
          (((data.drop off).drop (12 + (field (data.drop off) 0 4 + pad4 (field (data.drop off) 0 4)) +
            field (data.drop off) 4 4)).take (pad4 (field (data.drop off) 4 4)) ++
            data.drop (off + 12 + (field (data.drop off) 0 4 + pad4 (field (data.drop off) 0 4)) +
              (field (data.drop off) 4 4 + pad4 (field (data.drop off) 4 4)))) := by
        refine (noteHead_iff ..).mpr ⟨by simp; omega, rfl, by simp only [List.length_drop]; omega, rfl, rfl, ?_⟩
        conv_rhs => rw [← List.take_append_drop (pad4 (field (data.drop off) 4 4)) (List.drop _ (List.drop off data))]
        congr 1
        rw [List.drop_drop, List.drop_drop]
        congr 1
        omega
      refine ⟨_, pos, desc, ⟨rest, type, tail, by omega, .cons _ _ _ _ _ _ _ ns hhead ?_ g2, ?_, g4, g5, g6⟩, g7, g8⟩
      · simp only [List.length_take, List.length_drop]
        rw [Nat.min_eq_left (by omega : field (data.drop off) 4 4 ≤ _)]
        omega
      · intro n hn
        rcases List.mem_cons.mp hn with rfl | hn
        · rintro ⟨hc1, hc2⟩
          simp only at hc1 hc2
          apply hv
          rw [List.drop_drop] at hc1
          refine ⟨hc1, ?_⟩
          rcases Nat.eq_zero_or_pos (field (data.drop off) 4 4) with h0 | h0
          · rw [h0, List.take_zero] at hc2; exact absurd rfl hc2
          · exact h0
        · exact g3 n hn

/-- The result of the segments: of the first one with kernel core information. -/
theorem kcoreSegments_ok (data : Bytes) (phdrs : List Phdr) (v : Nat) (h : kcoreSegments data phdrs = .ok (some v)) :
    ∃ ph ∈ phdrs, ph.type = 4 ∧ kcoreLoop data ph.filesz (data.length + 2) ph.offset = .ok (some (some v)) := by
  induction phdrs with
  | nil => simp [kcoreSegments] at h
  | cons p t ih =>
    rw [kcoreSegments] at h
    split at h
    · obtain ⟨ph, h1, h2⟩ := ih h
      exact ⟨ph, by simp [h1], h2⟩
    · rename_i ht
      split at h
      · simp at h
      · rename_i r hr
        have : r = some v := by simpa using h
        subst this
        exact ⟨p, by simp, by simpa [PT_NOTE] using ht, hr⟩
      · obtain ⟨ph, h1, h2⟩ := ih h
        exact ⟨ph, by simp [h1], h2⟩

/-- **C35** (kernel core file): a detected offset is stored as `KERNELOFFSET` in the kernel core
information of a note segment of the file. -/
theorem C35_kcore_sound (data : Bytes) (v : Nat) (hd : data.length < 2 ^ 62) (h : readKcoreOffset data = .ok (some v))
    (hoff : ∀ phdrs, parsePhdrs (.file data) = .ok phdrs → ∀ ph ∈ phdrs, ph.offset < 2 ^ 62) :
    ∃ phdrs, parsePhdrs (.file data) = .ok phdrs ∧ ∃ ph ∈ phdrs, ph.type = 4 ∧
      ∃ (ns : List (Nat × Bytes × Bytes)) (pos : Nat) (desc value : Bytes), VmcoreAt data ph.offset ns pos desc ∧
        FirstEntry desc (ascii "KERNELOFFSET") value ∧ (∀ c ∈ value, IsDigit 16 c) ∧ numVal 16 value = v := by
  unfold readKcoreOffset at h
  cases hp : parsePhdrs (.file data) with
  | error e => rw [hp] at h; simp at h
  | ok phdrs =>
    rw [hp] at h
    obtain ⟨ph, h1, h2, h3⟩ := kcoreSegments_ok data phdrs v h
    obtain ⟨ns, pos, desc, h4, _, h5⟩ := kcoreLoop_sound data ph.filesz hd _ _ _
      (by have := hoff phdrs hp ph h1; omega) h3
    obtain ⟨value, h6, h7, h8, _⟩ := ((kernelOffset_spec desc).1 v).mp h5
    exact ⟨phdrs, rfl, ph, h1, h2, ns, pos, desc, value, h4, h6, h7, h8⟩

theorem kcoreSegments_found (data : Bytes) (before : List Phdr) (ph : Phdr) (after : List Phdr) (r : Option Nat)
    (hb : ∀ q ∈ before, q.type = 4 → kcoreLoop data q.filesz (data.length + 2) q.offset = .ok none)
    (ht : ph.type = 4) (h : kcoreLoop data ph.filesz (data.length + 2) ph.offset = .ok (some r)) :
    kcoreSegments data (before ++ ph :: after) = .ok r := by
  induction before with
  | nil =>
    rw [List.nil_append, kcoreSegments, if_neg (by simpa [PT_NOTE] using ht), h]
  | cons q t ih =>
    rw [List.cons_append, kcoreSegments]
    have ih' := ih (fun x hx => hb x (by simp [hx]))
    by_cases hq : q.type = 4
    · rw [if_neg (by simpa [PT_NOTE] using hq), hb q (by simp) hq]
      exact ih'
    · rw [if_pos (by simpa [PT_NOTE] using hq)]
      exact ih'

/-- **C35** (kernel core file, completeness): the `KERNELOFFSET` of the kernel core information of
the first note segment is detected.  (Missing: a note that starts in the last `p_offset` bytes of
the segment, see `C35_tail_ignored`.) -/
theorem C35_kcore_partial (data : Bytes) (before : List Phdr) (ph : Phdr) (after : List Phdr)
    (hd : data.length < 2 ^ 62) (hp : parsePhdrs (.file data) = .ok (before ++ ph :: after))
    (hb : ∀ q ∈ before, q.type ≠ 4) (ht : ph.type = 4) (ns : List (Nat × Bytes × Bytes)) (pos : Nat) (desc : Bytes)
    (h : VmcoreAt data ph.offset ns pos desc) (hs : ∀ n ∈ ns, SmallNote n) (hpos : pos + 12 ≤ ph.filesz)
    (value : Bytes) (he : FirstEntry desc (ascii "KERNELOFFSET") value) (hv : ∀ c ∈ value, IsDigit 16 c)
    (hfit : numVal 16 value < 2 ^ 64) : readKcoreOffset data = .ok (some (numVal 16 value)) := by
  unfold readKcoreOffset
  rw [hp]
  refine kcoreSegments_found data before ph after _ (fun q hq hqt => absurd hqt (hb q hq)) ht ?_
  rw [C35_segment_partial data ph.filesz ph.offset pos ns desc hd h hs hpos,
    ((kernelOffset_spec desc).1 _).mpr ⟨value, he, hv, rfl, hfit⟩]

/-- **C35** (end of the segment): the offset of a note in the file is compared with the size of
the segment.  So a segment is ignored completely if its offset in the file exceeds its size, and
the claim that `KERNELOFFSET` is found wherever it is in the notes is false. -/
theorem C35_tail_ignored (data : Bytes) (filesz off : Nat) (hd : data.length < 2 ^ 62) (ho : off < 2 ^ 62)
    (h : filesz < off + 12) : kcoreLoop data filesz (data.length + 2) off = .ok none := by
  rw [kcoreLoop_step data filesz _ off hd (by omega), if_pos h]

theorem kcoreLoop_no_panic (data : Bytes) (filesz : Nat) (hd : data.length + 3 < 2 ^ 32)
    (hs : ∀ o, field (data.drop o) 4 4 + 3 < 2 ^ 32)
    (hk : ∀ o n, kernelOffset ((data.drop o).take n) ≠ .error .panic) (fuel : Nat) : ∀ off, off < 2 ^ 62 + 2 ^ 34 →
    data.length < off + 12 * fuel → 0 < fuel → kcoreLoop data filesz fuel off ≠ .error .panic := by
  induction fuel with
  | zero => intro off _ _ h; omega
  | succ fuel ih =>
    intro off ho hl _ h
    rw [kcoreLoop_step data filesz fuel off (by omega) ho] at h
    split at h
    · simp at h
    split at h
    · simp at h
    rename_i h2
    split at h
    · simp at h
    rename_i h3
    split at h
    · unfold u32Size at *; omega
    have hpN : pad4 (field (data.drop off) 0 4) < 4 := by unfold pad4; omega
    have hpS : pad4 (field (data.drop off) 4 4) < 4 := by unfold pad4; omega
    have := hs off
    split at h
    · split at h
      · simp at h
      · unfold fromDesc at h
        split at h
        · rename_i e he
          have : e = .panic := by simpa using h
          subst this
          exact hk _ _ he
        · simp at h
    · split at h
      · unfold u32Size at *; omega
      · exact ih _ (by omega) (by omega) (by omega) h

theorem fromRadix16_no_panic (s : Bytes) : ∀ (a n : Nat), s.length ≤ n → (a + 1) * 16 ^ n ≤ 2 ^ 64 →
    fromRadix16Loop s a ≠ .error .panic := by
  induction s with
  | nil => intro a n _ _ h; simp [fromRadix16Loop] at h
  | cons c t ih =>
    intro a n hl ha h
    obtain ⟨n, rfl⟩ : ∃ k, n = k + 1 := ⟨n - 1, by simp at hl; omega⟩
    rw [fromRadix16Loop] at h
    split at h
    · simp at h
    · rename_i digit hd
      have hd : digit < 16 := by
        rw [asciiToHexdigit_eq] at hd
        split at hd
        · rename_i hdig
          have : digitVal c = digit := by simpa using hd
          unfold IsDigit at hdig
          omega
        · simp at hd
      have h16 : 1 ≤ 16 ^ n := Nat.one_le_pow _ _ (by omega)
      have hb : (a * 16 + digit + 1) * 16 ^ n ≤ 2 ^ 64 := by
        refine le_trans (Nat.mul_le_mul_right _ (by omega : a * 16 + digit + 1 ≤ (a + 1) * 16)) ?_
        rw [Nat.mul_assoc, Nat.mul_comm 16, ← Nat.pow_succ]
        exact ha
      rw [if_pos] at h
      · exact ih _ n (by simpa using hl) hb h
      · have := Nat.le_mul_of_pos_right (a * 16 + digit + 1) h16
        unfold u64Size
        omega

/-- **C35** (no panic): on a file below 4 GB without a descriptor size of almost 4 GB, and without
a `KERNELOFFSET` of more than 16 characters, the notes of a segment are read without a panic, from
wherever the segment starts. -/
theorem C35_no_panic (data : Bytes) (filesz off : Nat) (hd : data.length + 3 < 2 ^ 32) (ho : off < 2 ^ 62)
    (hs : ∀ o n, Num (data.drop o) 4 4 n → n + 3 < 2 ^ 32)
    (hk : ∀ o n value, FirstEntry ((data.drop o).take n) (ascii "KERNELOFFSET") value → value.length ≤ 16) :
    kcoreLoop data filesz (data.length + 2) off ≠ .error .panic := by
  refine kcoreLoop_no_panic data filesz hd ?_ ?_ _ off (by omega) (by omega) (by omega)
  · intro o
    by_cases hl : 8 ≤ (data.drop o).length
    · exact hs o _ ((num_iff ..).mpr ⟨by omega, rfl⟩)
    · unfold field
      have h1 : (((data.drop o).drop 4).take 4).length ≤ 3 := by simp at hl ⊢; omega
      have h2 := leValue_lt (((data.drop o).drop 4).take 4)
      have h3 : 256 ^ (((data.drop o).drop 4).take 4).length ≤ 256 ^ 3 := Nat.pow_le_pow_right (by omega) h1
      omega
  · intro o n h
    obtain ⟨_, value, h1, h2⟩ := (kernelOffset_spec _).2.2 _ h
    have h3 := hk o n value h1
    rw [entry_iff] at h1
    unfold kernelOffset at h
    simp only [h1] at h
    split at h
    · simp at h
    · simp at h
    · rename_i hf
      exact fromRadix16_no_panic value 0 16 h3 (by decide) hf

/-- **C35** (defect): a note (other than kernel core information) without a name that announces a
descriptor of almost 4 GB, the greatest three sizes there are, makes the detection panic instead
of reporting malformed data.  So `C35_no_panic` cannot do without its condition. -/
theorem C35_descriptor_size_panics (data : Bytes) (filesz off size : Nat) (hd : data.length < 2 ^ 62)
    (ho : off < 2 ^ 62) (hin : off + 12 ≤ data.length) (hseg : off + 12 ≤ filesz)
    (hname : Num (data.drop off) 0 4 0) (hsize : Num (data.drop off) 4 4 size) (hbig : 2 ^ 32 ≤ size + 3) :
    kcoreLoop data filesz (data.length + 2) off = .error .panic := by
  have h1 : field (data.drop off) 0 4 = 0 := ((num_iff ..).mp hname).2.symm
  have h2 : field (data.drop off) 4 4 = size := ((num_iff ..).mp hsize).2.symm
  rw [kcoreLoop_step data filesz _ off hd (by omega), h1, h2, if_neg (by omega), if_neg (by omega), if_neg (by omega),
    if_neg (by unfold u32Size; omega), if_neg (by simp [VMCOREINFO_NAME]), if_pos (by unfold u32Size; omega)]

example : kcoreLoop ([0, 0, 0, 0, 255, 255, 255, 255, 0, 0, 0, 0]) 12 14 0 = .error .panic :=
  C35_descriptor_size_panics [0, 0, 0, 0, 255, 255, 255, 255, 0, 0, 0, 0] 12 0 (2 ^ 32 - 1) (by decide) (by decide)
    (by decide) (by decide) ((num_iff ..).mpr (by decide)) ((num_iff ..).mpr (by decide)) (by decide)

/-- **C35** (sources): what the kernel core file says is used if it can be opened and read;
without permission for it the difference of the addresses of `_stext` is. -/
theorem C35_kcore_used (data : Bytes) (ksym vmlinux : Option FindAddr) (r : Option Nat)
    (h : readKcoreOffset data = .ok r) : findKaslrOffset (.ok data) ksym vmlinux = .ok r := by
  unfold findKaslrOffset findKcoreOffset
  simp only [h]

/-- The first of the symbols with that exact name is at `addr`. -/
def FirstNamed (syms : List SymInfo) (name : Bytes) (addr : Nat) : Prop :=
  ∃ (before : List SymInfo) (s : SymInfo) (after : List SymInfo), syms = before ++ s :: after ∧
    (∀ x ∈ before, x.name ≠ name) ∧ s.name = name ∧ s.addr = addr

theorem inspect_some (f : FindAddr) (name : Bytes) (syms : List SymInfo) (hf : f name = .ok syms) (addr : Nat) :
    inspectSymAddr f name = .ok (some addr) ↔ FirstNamed syms name addr := by
  unfold inspectSymAddr FirstNamed
  simp only [hf]
  rw [Except.ok.injEq, Option.map_eq_some_iff]
  constructor
  · rintro ⟨s, h1, h2⟩
    obtain ⟨h3, before, after, h4, h5⟩ := List.find?_eq_some_iff_append.mp h1
    exact ⟨before, s, after, h4, fun x hx => by simpa using h5 x hx, by simpa using h3, h2⟩
  · rintro ⟨before, s, after, rfl, h1, h2, h3⟩
    exact ⟨s, List.find?_eq_some_iff_append.mpr ⟨by simpa using h2, before, after, rfl, fun x hx => by
      simpa using h1 x hx⟩, h3⟩

theorem inspect_none (f : FindAddr) (name : Bytes) (syms : List SymInfo) (hf : f name = .ok syms) :
    inspectSymAddr f name = .ok none ↔ ∀ s ∈ syms, s.name ≠ name := by
  unfold inspectSymAddr
  simp only [hf]
  rw [Except.ok.injEq, Option.map_eq_none_iff, List.find?_eq_none]
  simp

/-- **C35** (`_stext`): without permission for the kernel core file, the offset is by how much the
running kernel's `_stext` exceeds the image's; there is none if one of them is missing or the
running kernel's is lower. -/
theorem C35_stext (k v : FindAddr) (ks vs : List SymInfo) (hk : k (ascii "_stext") = .ok ks)
    (hv : v (ascii "_stext") = .ok vs) :
    (∀ d, findKaslrOffset (.error .permissionDenied) (some k) (some v) = .ok (some d) ↔
      ∃ a b, FirstNamed ks (ascii "_stext") a ∧ FirstNamed vs (ascii "_stext") b ∧ b + d = a) ∧
    (∃ r, findKaslrOffset (.error .permissionDenied) (some k) (some v) = .ok r) := by
  have hred : findKaslrOffset (.error .permissionDenied) (some k) (some v) = findStextOffset k v := rfl
  rw [hred]
  unfold findStextOffset
  cases h1 : inspectSymAddr k (ascii "_stext") with
  | error e => unfold inspectSymAddr at h1; rw [hk] at h1; simp at h1
  | ok a =>
    cases h2 : inspectSymAddr v (ascii "_stext") with
    | error e => unfold inspectSymAddr at h2; rw [hv] at h2; simp at h2
    | ok b =>
      simp only [← inspect_some k _ ks hk, ← inspect_some v _ vs hv, h1, h2]
      cases a <;> cases b <;> simp
      intro d
      constructor
      · rintro ⟨h3, h4⟩; omega
      · intro h3; omega

/-- **C35** (errors): if the kernel core file cannot be opened for another reason than that it
does not exist, or cannot be read, the error is reported, except that without permission the
symbols are used when both are there; errors of the symbol lookups are reported. -/
theorem C35_errors (ksym vmlinux : Option FindAddr) (e : Err) :
    (e ≠ .permissionDenied → e ≠ .notFound → findKaslrOffset (.error e) ksym vmlinux = .error e) ∧
    (ksym = none ∨ vmlinux = none → findKaslrOffset (.error .permissionDenied) ksym vmlinux = .error .permissionDenied) ∧
    (∀ data, readKcoreOffset data = .error e → e ≠ .permissionDenied → e ≠ .notFound →
      findKaslrOffset (.ok data) ksym vmlinux = .error e) ∧
    (∀ k v, k (ascii "_stext") = .error e → findKaslrOffset (.error .permissionDenied) (some k) (some v) = .error e) ∧
    (∀ k v ks, k (ascii "_stext") = .ok ks → v (ascii "_stext") = .error e →
      findKaslrOffset (.error .permissionDenied) (some k) (some v) = .error e) := by
  refine ⟨?_, ?_, ?_, ?_, ?_⟩
  · intro h1 h2
    cases e <;> simp_all [findKaslrOffset, findKcoreOffset]
  · rintro (rfl | rfl)
    · simp [findKaslrOffset, findKcoreOffset]
    · cases ksym <;> simp [findKaslrOffset, findKcoreOffset]
  · intro data h h1 h2
    simp [findKaslrOffset, findKcoreOffset, h, h1, h2]
  · intro k v h
    simp [findKaslrOffset, findKcoreOffset, findStextOffset, inspectSymAddr, h]
  · intro k v ks h1 h2
    simp [findKaslrOffset, findKcoreOffset, findStextOffset, inspectSymAddr, h1, h2]

/-- **C35** (no kernel core file): if the file does not exist, no offset is detected, whatever the
addresses of `_stext` are: the comparison of symbols, meant to be the fallback also for that, is
never made.  So the claim that the offset is detected from the symbols when there is no kernel
core file is false. -/
theorem C35_missing_kcore (ksym vmlinux : Option FindAddr) :
    findKaslrOffset (.error .notFound) ksym vmlinux = .ok none := rfl

example : (findKaslrOffset (.error .notFound) (some fun _ => .ok [⟨ascii "_stext", 0x3000, none, .function, none⟩])
      (some fun _ => .ok [⟨ascii "_stext", 0x1000, none, .function, none⟩]) = .ok none) ∧
    (findKaslrOffset (.error .permissionDenied) (some fun _ => .ok [⟨ascii "_stext", 0x3000, none, .function, none⟩])
      (some fun _ => .ok [⟨ascii "_stext", 0x1000, none, .function, none⟩]) = .ok (some 0x2000)) := by
  decide +kernel

/-- **C35** (`_stext` of kallsyms): with symbols loaded from kallsyms, the address used is the
lowest of the symbols with exactly that name, although the lookup reports others, too. -/
theorem C35_kallsyms (syms : List Ksym) (name : Bytes) (addr : Nat) :
    (inspectSymAddr (fun n => .ok ((ksymFindAddr syms n .undefined).map KsymInfo.info)) name = .ok (some addr)) ↔
      (∃ k ∈ syms, k.name = name ∧ k.addr = addr) ∧ ∀ k ∈ syms, k.name = name → addr ≤ k.addr := by
  have hty : (SymType.undefined) ≠ .variable := by decide
  obtain ⟨hc, hs⟩ := C31_name_lookup_partial syms name .undefined hty
  have ho := C31_order syms name .undefined
  rw [inspect_some _ _ _ rfl]
  constructor
  · rintro ⟨before, s, after, h1, h2, h3, h4⟩
    obtain ⟨B, R, h5, rfl, h6⟩ := List.map_eq_append_iff.mp h1
    obtain ⟨x, A, rfl, rfl, rfl⟩ := List.map_eq_cons_iff.mp h6
    rw [h5] at ho hc hs
    refine ⟨?_, ?_⟩
    · obtain ⟨k, hk, hr⟩ := hs x (by simp)
      exact ⟨k, hk, by rw [← hr.1, h3], by rw [← hr.2.1, h4]⟩
    · intro k hk hn
      obtain ⟨r, hr, hrep⟩ := hc k hk hn
      rcases List.mem_append.mp hr with hr | hr
      · exact absurd (hrep.1.trans hn) (h2 _ (List.mem_map_of_mem hr))
      · rcases List.mem_cons.mp hr with rfl | hr
        · rw [← hrep.2.1, h4]
        · have := (List.pairwise_cons.mp (List.pairwise_append.mp ho).2.1).1 r hr
          rcases this with h7 | h7
          · rw [h3, hrep.1, hn] at h7
            exact absurd h7 (lt_irrefl _)
          · rw [← h4, ← hrep.2.1]; exact h7.2
  · rintro ⟨⟨k, hk, hn, ha⟩, hmin⟩
    obtain ⟨r, hr, hrep⟩ := hc k hk hn
    cases hf : ((ksymFindAddr syms name .undefined).map KsymInfo.info).find? (fun s => s.name == name) with
    | none =>
      have := List.find?_eq_none.mp hf r.info (List.mem_map_of_mem hr)
      simp [hrep.1, hn] at this
    | some s =>
      obtain ⟨h3, before, after, h4, h5⟩ := List.find?_eq_some_iff_append.mp hf
      refine ⟨before, s, after, h4, fun x hx => by simpa using h5 x hx, by simpa using h3, ?_⟩
      obtain ⟨B, R, h6, rfl, h7⟩ := List.map_eq_append_iff.mp h4
      obtain ⟨x, A, rfl, rfl, rfl⟩ := List.map_eq_cons_iff.mp h7
      have h3 : x.info.name = name := by simpa using h3
      rw [h6] at ho hs hr
      apply Nat.le_antisymm
      · rcases List.mem_append.mp hr with hr | hr
        · have := h5 _ (List.mem_map_of_mem hr)
          simp [hrep.1, hn] at this
        · rcases List.mem_cons.mp hr with rfl | hr
          · rw [hrep.2.1, ha]
          · have := (List.pairwise_cons.mp (List.pairwise_append.mp ho).2.1).1 r hr
            rcases this with h7 | h7
            · rw [h3, hrep.1, hn] at h7
              exact absurd h7 (lt_irrefl _)
            · rw [← ha, ← hrep.2.1]; exact h7.2
      · obtain ⟨k', hk', hr'⟩ := hs x (by simp)
        rw [hr'.2.1]
        exact hmin k' hk' (by rw [← hr'.1, h3])

/-- **C35** (detected once): over any history of requests, those before the first successful
detection report their error, and all from then on report the offset detected there (zero if none
was), whatever a detection would result in later. -/
theorem C35_once (failed : List Err) (r : Option Nat) (later : List (Except Err (Option Nat))) :
    kaslrHistory none (failed.map .error ++ .ok r :: later) =
      failed.map .error ++ List.replicate (later.length + 1) (.ok (r.getD 0)) := by
  have key : ∀ (l : List (Except Err (Option Nat))) (v : Nat), kaslrHistory (some v) l = List.replicate l.length (.ok v) := by
    intro l v
    induction l with
    | nil => rfl
    | cons d t ih => rw [kaslrHistory]; simp only [kaslrOffset, ih]; rfl
  induction failed with
  | nil =>
    rw [List.map_nil, List.nil_append, kaslrHistory]
    simp only [kaslrOffset, key]
    rfl
  | cons e t ih =>
    rw [List.map_cons, List.cons_append, kaslrHistory]
    simp only [kaslrOffset, ih]
    rfl

theorem C35_once_failed (failed : List Err) : kaslrHistory none (failed.map .error) = failed.map .error := by
  induction failed with
  | nil => rfl
  | cons e t ih =>
    rw [List.map_cons, kaslrHistory]
    simp only [kaslrOffset, ih]
    rfl

example : kaslrHistory none [.error .permissionDenied, .ok (some 5), .ok (some 7), .error .other] =
    [.error .permissionDenied, .ok 5, .ok 5, .ok 5] := by decide

/-- A note without a name, then kernel core information. -/
def kcoreNotes : Bytes :=
  [0, 0, 0, 0, 1, 0, 0, 0, 5, 0, 0, 0, 9, 0, 0, 0] ++
  [11, 0, 0, 0, 29, 0, 0, 0, 0, 0, 0, 0] ++ ascii "VMCOREINFO" ++ [0, 0] ++
  ascii "PAGESIZE=4096\nKERNELOFFSET=1a\n"

/-- A kernel core file with one note segment of the given size in its header. -/
def kcoreFile (filesz : UInt8) : Bytes :=
  [0x7f, 0x45, 0x4c, 0x46, 2, 1, 1, 0, 0, 0, 0, 0, 0, 0, 0, 0, 4, 0, 62, 0, 1, 0, 0, 0] ++
  List.replicate 8 0 ++ [64, 0, 0, 0, 0, 0, 0, 0] ++ List.replicate 8 0 ++
  [0, 0, 0, 0, 64, 0, 56, 0, 1, 0, 64, 0, 0, 0, 0, 0] ++
  [4, 0, 0, 0, 0, 0, 0, 0, 120, 0, 0, 0, 0, 0, 0, 0] ++ List.replicate 16 0 ++ [filesz, 0, 0, 0, 0, 0, 0, 0] ++
  List.replicate 16 0 ++ kcoreNotes

/-- The notes are 70 bytes, at offset 120 of the file.  They are ignored unless the size in the
header is 148 or more: the offset of the second note (and its header) in the file. -/
example : kcoreNotes.length = 70 ∧ readKcoreOffset (kcoreFile 70) = .ok none ∧ readKcoreOffset (kcoreFile 147) = .ok none ∧
    readKcoreOffset (kcoreFile 148) = .ok (some 0x1a) := by decide +kernel

/-- The hypotheses of the theorems about found information hold of that file. -/
example : VmcoreAt (kcoreFile 148) 120 [(5, [], [9])] 136 (ascii "PAGESIZE=4096\nKERNELOFFSET=1a") ∧
    FirstEntry (ascii "PAGESIZE=4096\nKERNELOFFSET=1a") (ascii "KERNELOFFSET") (ascii "1a") := by
  refine ⟨⟨(kcoreFile 148).drop 136, 0, ascii "\n", by decide +kernel, ?_, ?_, ?_, by decide +kernel, by decide +kernel⟩, ?_⟩
  · refine .cons _ 5 [] [9] [0, 0, 0] ((kcoreFile 148).drop 136) _ [] ?_ (by decide) (.nil _)
    refine (noteHead_iff ..).mpr ?_
    decide +kernel
  · intro n hn
    simp only [List.mem_singleton] at hn
    subst hn
    rintro ⟨h, _⟩
    exact absurd h (by decide +kernel)
  · refine (noteHead_iff ..).mpr ?_
    decide +kernel
  · exact ⟨[ascii "PAGESIZE=4096"], [], by decide +kernel, by
      intro l hl v
      simp only [List.mem_singleton] at hl
      subst hl
      intro h
      have := congrArg List.head? h
      exact absurd this (by simp [ascii])⟩

end Blazesym.Kernel
