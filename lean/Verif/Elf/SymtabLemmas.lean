import Verif.Elf.SymtabSpec
import Verif.Util.SearchProps
import Verif.Util.ReaderProps

/-! Lemmas about the ELF symbol table model. -/

set_option autoImplicit false

namespace Blazesym.Elf
open Blazesym.Util Blazesym.Spec Blazesym.Spec.Elf

theorem type_eq (s : Sym) : s.type = s.info % 16 := by
  unfold Sym.type
  exact Nat.and_two_pow_sub_one_eq_mod s.info 4

theorem matches_iff (s : Sym) (ty : SymType) : s.matches ty = true ↔ HasKind s ty := by
  unfold Sym.matches elfTypeMatches
  rw [type_eq]
  cases ty <;>
    simp [HasKind, Supported, STT_FUNC, STT_GNU_IFUNC, STT_NOTYPE, STT_OBJECT] <;> omega

theorem hasKind_supported {s : Sym} {ty : SymType} (h : HasKind s ty) : Supported s := by
  cases ty <;> simp only [HasKind, Supported] at * <;> omega

theorem tryFrom_some (s : Sym) (h : Supported s) :
    ∃ ty, tryFromElfType s.type = some ty ∧ HasKind s ty := by
  rw [type_eq]
  unfold Supported at h
  rcases h with h | h | h | h <;> rw [h] <;>
    simp [tryFromElfType, STT_FUNC, STT_GNU_IFUNC, STT_NOTYPE, STT_OBJECT, HasKind, Supported, h]

theorem cstrAt_ok (strs : Bytes) (off : Nat) (name : Bytes) :
    cstrAt strs off = .ok name ↔ NameAt strs off name := by
  unfold cstrAt NameAt
  constructor
  · intro h
    split at h
    · rename_i hle
      by_cases hz : ∀ b ∈ strs.drop off, b ≠ 0
      · rw [(C11_read_cstr ⟨off, strs.drop off⟩).2 hz] at h; simp at h
      · push_neg at hz
        cases hp : position (fun b => b == 0) (strs.drop off) with
        | none =>
          obtain ⟨b, hb, h0⟩ := hz
          have := position_none.mp hp b hb
          simp [h0] at this
        | some i =>
          obtain ⟨a, h1, h2, h3, h4⟩ := position_some hp
          have ha : a = 0 := by simpa using h2
          subst ha
          have h3' : ∀ b ∈ (strs.drop off).take i, b ≠ 0 := by
            intro b hb; have := h3 b hb; simpa using this
          rw [(C11_read_cstr ⟨off, strs.drop off⟩).1 _ _ h1 h3'] at h
          simp only at h
          cases h
          exact ⟨_, h1, h3'⟩
    · simp at h
  · rintro ⟨rest, h1, h2⟩
    have hle : off ≤ strs.length := by
      by_contra hcon
      rw [List.drop_eq_nil_of_le (by omega)] at h1
      simp at h1
    rw [if_pos hle, (C11_read_cstr ⟨off, strs.drop off⟩).1 _ _ h1 h2]

theorem cstrAt_error (strs : Bytes) (off : Nat) (e : Err) (h : cstrAt strs off = .error e) :
    e = .invalidInput ∧ ∀ name, ¬ NameAt strs off name := by
  refine ⟨?_, fun name hn => ?_⟩
  · unfold cstrAt at h
    split at h
    · split at h
      · simp at h
      · cases h; rfl
    · cases h; rfl
  · rw [(cstrAt_ok _ _ _).mpr hn] at h; simp at h

theorem nameAt_unique {strs : Bytes} {off : Nat} {a b : Bytes} (ha : NameAt strs off a)
    (hb : NameAt strs off b) : a = b := by
  have h1 := (cstrAt_ok _ _ _).mpr ha
  have h2 := (cstrAt_ok _ _ _).mpr hb
  rw [h1] at h2; exact Except.ok.inj h2

theorem matchesAddr_ok {table : Table} {addr : Nat} {s : Sym} (hv : s.value ≤ addr)
    (h : s.value + s.size < 2 ^ 64) :
    ∃ b, matchesAddr table addr s = .ok b ∧ (b = true ↔ Covers table s addr) := by
  unfold matchesAddr Covers
  by_cases h0 : s.size = 0
  · cases table <;> simp [h0, hv]
  · rw [if_neg h0, addU64, if_pos (by unfold u64Size; omega)]
    exact ⟨_, rfl, by simp [h0, hv]⟩

theorem matchesAddr_true {table : Table} {addr : Nat} {s : Sym} (hv : s.value ≤ addr)
    (h : matchesAddr table addr s = .ok true) : Covers table s addr := by
  unfold matchesAddr at h
  unfold Covers
  by_cases h0 : s.size = 0
  · cases table <;> simp_all
  · rw [if_neg h0, addU64] at h
    split at h
    · rename_i l hl
      split at hl
      · cases hl; simp_all
      · simp at hl
    · simp at h

theorem matchesAddr_false {table : Table} {addr : Nat} {s : Sym}
    (h : matchesAddr table addr s = .ok false) : ¬ Covers table s addr := by
  unfold matchesAddr at h
  unfold Covers
  by_cases h0 : s.size = 0
  · cases table <;> simp_all
  · rw [if_neg h0, addU64] at h
    split at h
    · rename_i l hl
      split at hl
      · cases hl; simp_all
      · simp at hl
    · simp at h

theorem matchesAddr_error {table : Table} {addr : Nat} {s : Sym} {e : Err}
    (h : matchesAddr table addr s = .error e) : e = .panic ∧ 2 ^ 64 ≤ s.value + s.size := by
  unfold matchesAddr at h
  split at h
  · cases table <;> simp at h
  · rw [addU64] at h
    split at h
    · simp at h
    · rename_i l hl
      split at hl
      · simp at hl
      · rename_i hge
        cases hl; cases h
        refine ⟨rfl, ?_⟩
        unfold u64Size at hge; omega

/-- A symbol the lookup may report. -/
def Good (table : Table) (addr : Nat) (ty : SymType) (s : Sym) : Prop :=
  Defined s ∧ HasKind s ty ∧ Covers table s addr

theorem good_test {table : Table} {addr : Nat} {ty : SymType} {s : Sym} {m : Bool}
    (hv : s.value ≤ addr) (h : matchesAddr table addr s = .ok m) :
    (s.matches ty && s.shndx != SHN_UNDEF && m) = true ↔ Good table addr ty s := by
  unfold Good Defined
  rw [← matches_iff]
  cases m with
  | true => have := matchesAddr_true hv h; simp [SHN_UNDEF, this]; tauto
  | false => have := matchesAddr_false h; simp [this]

theorem loop_some {syms : List Sym} {strtab : Bytes} {table : Table} {addr : Nat}
    {ty : SymType} {l : List Nat} {r : ResolvedSym}
    (h : findSymLoop syms strtab table addr ty l = .ok (some r)) :
    ∃ pre i post s, l = pre ++ i :: post ∧ syms[i]? = some s ∧ Good table addr ty s ∧
      symbolName strtab s = .ok r.name ∧ r.addr = s.value ∧
      r.size = (if s.size = 0 then none else some s.size) ∧
      ∀ j ∈ pre, ∃ s', syms[j]? = some s' ∧ s'.value ≤ addr ∧ ¬ Good table addr ty s' := by
  induction l with
  | nil => simp [findSymLoop] at h
  | cons i rest ih =>
    unfold findSymLoop at h
    split at h
    · simp at h
    · rename_i s hs
      split at h
      · simp at h
      · rename_i hv
        have hv : s.value ≤ addr := by omega
        split at h
        · simp at h
        · rename_i m hm
          have hg := good_test (ty := ty) hv hm
          split at h
          · rename_i hc
            split at h
            · simp at h
            · rename_i n hn
              cases h
              exact ⟨[], i, rest, s, rfl, hs, hg.mp hc, hn, rfl, rfl, by simp⟩
          · rename_i hc
            obtain ⟨pre, j, post, s', h1, h2, h3, h4, h5, h6, h7⟩ := ih h
            refine ⟨i :: pre, j, post, s', by rw [h1]; rfl, h2, h3, h4, h5, h6, ?_⟩
            intro k hk
            rcases List.mem_cons.mp hk with rfl | hk
            · exact ⟨s, hs, hv, fun hcon => hc (hg.mpr hcon)⟩
            · exact h7 k hk

theorem loop_none {syms : List Sym} {strtab : Bytes} {table : Table} {addr : Nat}
    {ty : SymType} {l : List Nat} (hsort : SortedBy l (valueAt syms))
    (h : findSymLoop syms strtab table addr ty l = .ok none) :
    ∀ i ∈ l, ∀ s, syms[i]? = some s → ¬ Good table addr ty s := by
  induction l with
  | nil => simp
  | cons i rest ih =>
    have hsort' := List.pairwise_cons.mp hsort
    unfold findSymLoop at h
    split at h
    · simp at h
    · rename_i s hs
      split at h
      · rename_i hv
        intro j hj s' hs' hgood
        have hle : s.value ≤ s'.value := by
          rcases List.mem_cons.mp hj with rfl | hj
          · rw [hs] at hs'; cases hs'; exact le_refl _
          · have := hsort'.1 j hj
            simpa [valueAt, hs, hs'] using this
        have := hgood.2.2.1
        omega
      · rename_i hv
        have hv : s.value ≤ addr := by omega
        split at h
        · simp at h
        · rename_i m hm
          have hg := good_test (ty := ty) hv hm
          split at h
          · split at h <;> simp at h
          · rename_i hc
            intro j hj s' hs'
            rcases List.mem_cons.mp hj with rfl | hj
            · rw [hs] at hs'; cases hs'; exact fun hcon => hc (hg.mpr hcon)
            · exact ih hsort'.2 h j hj s' hs'

theorem loop_error {syms : List Sym} {strtab : Bytes} {table : Table} {addr : Nat}
    {ty : SymType} {l : List Nat} {e : Err} (hin : ∀ i ∈ l, ∃ s, syms[i]? = some s)
    (h : findSymLoop syms strtab table addr ty l = .error e) :
    ∃ i ∈ l, ∃ s, syms[i]? = some s ∧ s.value ≤ addr ∧
      ((e = .panic ∧ 2 ^ 64 ≤ s.value + s.size) ∨
       (Good table addr ty s ∧ symbolName strtab s = .error e)) := by
  induction l with
  | nil => simp [findSymLoop] at h
  | cons i rest ih =>
    unfold findSymLoop at h
    split at h
    · rename_i hs
      obtain ⟨s, hs'⟩ := hin i (by simp)
      rw [hs] at hs'; simp at hs'
    · rename_i s hs
      split at h
      · simp at h
      · rename_i hv
        have hv : s.value ≤ addr := by omega
        split at h
        · rename_i e' hm
          cases h
          obtain ⟨h1, h2⟩ := matchesAddr_error hm
          exact ⟨i, by simp, s, hs, hv, Or.inl ⟨h1, h2⟩⟩
        · rename_i m hm
          have hg := good_test (ty := ty) hv hm
          split at h
          · rename_i hc
            split at h
            · rename_i e' hn
              cases h
              exact ⟨i, by simp, s, hs, hv, Or.inr ⟨hg.mp hc, hn⟩⟩
            · simp at h
          · obtain ⟨j, hj, s', h1⟩ := ih (fun j hj => hin j (by simp [hj])) h
            exact ⟨j, by simp [hj], s', h1⟩

theorem mem_supportedIdx (syms : List Sym) (i : Nat) :
    i ∈ supportedIdx syms ↔ ∃ s, syms[i]? = some s ∧ Supported s := by
  unfold supportedIdx
  simp only [List.mem_map, List.mem_filter, matches_iff, HasKind]
  constructor
  · rintro ⟨⟨s, j⟩, ⟨h1, h2⟩, rfl⟩
    exact ⟨s, by simpa using List.mem_zipIdx_iff_getElem?.mp h1, h2⟩
  · rintro ⟨s, h1, h2⟩
    exact ⟨(s, i), ⟨List.mem_zipIdx_iff_getElem?.mpr (by simpa using h1), h2⟩, rfl⟩

theorem mem_byAddrIdx (σ : Sorter) (syms : List Sym) (i : Nat) :
    i ∈ createByAddrIdx σ syms ↔ ∃ s, syms[i]? = some s ∧ Supported s := by
  unfold createByAddrIdx
  rw [(σ.perm _ _).mem_iff, mem_supportedIdx]

/-- Indexes in the address index are in bounds (the `unwrap`s never panic). -/
theorem byAddrIdx_lt (σ : Sorter) (syms : List Sym) (i : Nat) (h : i ∈ createByAddrIdx σ syms) :
    i < syms.length := by
  obtain ⟨s, h, _⟩ := (mem_byAddrIdx σ syms i).mp h
  exact (List.getElem?_eq_some_iff.mp h).1

theorem byAddrIdx_pairwise (σ : Sorter) (syms : List Sym) :
    (createByAddrIdx σ syms).Pairwise (fun i j => addrLe syms i j = true) := by
  unfold createByAddrIdx
  apply σ.sorted
  · intro a b c h1 h2
    simp only [addrLe, decide_eq_true_eq] at *
    omega
  · intro a b
    simp only [addrLe, Bool.or_eq_true, decide_eq_true_eq]
    omega

theorem byAddrIdx_sorted (σ : Sorter) (syms : List Sym) :
    SortedBy (createByAddrIdx σ syms) (valueAt syms) := by
  refine (byAddrIdx_pairwise σ syms).imp ?_
  intro a b h
  simp only [addrLe, decide_eq_true_eq] at h
  omega

theorem byAddrIdx_nodup (σ : Sorter) (syms : List Sym) : (createByAddrIdx σ syms).Nodup := by
  unfold createByAddrIdx
  rw [(σ.perm _ _).nodup_iff]
  unfold supportedIdx
  have h : (syms.zipIdx.map Prod.snd).Nodup := by
    rw [List.zipIdx_map_snd]; exact List.nodup_range' 
  exact h.sublist (List.Sublist.map _ List.filter_sublist)

theorem valueAt_some {syms : List Sym} {i : Nat} {s : Sym} (h : syms[i]? = some s) :
    valueAt syms i = s.value := by simp [valueAt, h]

theorem sizeAt_some {syms : List Sym} {i : Nat} {s : Sym} (h : syms[i]? = some s) :
    sizeAt syms i = s.size := by simp [sizeAt, h]

/-- Greatest key of the index = nearest start. -/
theorem greatestKey_nearest (σ : Sorter) (syms : List Sym) (addr k : Nat) :
    IsGreatestKeyLE (createByAddrIdx σ syms) (valueAt syms) addr k ↔
      NearestStart syms addr k := by
  unfold IsGreatestKeyLE NearestStart
  constructor
  · rintro ⟨h1, ⟨i, hi, hk⟩, h3⟩
    obtain ⟨s, hs, hsup⟩ := (mem_byAddrIdx σ syms i).mp hi
    refine ⟨h1, ⟨s, List.mem_of_getElem? hs, hsup, by rw [← hk, valueAt_some hs]⟩, ?_⟩
    intro s' hs' hsup' hle
    obtain ⟨j, hj⟩ := List.mem_iff_getElem?.mp hs'
    have := h3 j ((mem_byAddrIdx σ syms j).mpr ⟨s', hj, hsup'⟩) (by rw [valueAt_some hj]; exact hle)
    rwa [valueAt_some hj] at this
  · rintro ⟨h1, ⟨s, hs, hsup, hk⟩, h3⟩
    obtain ⟨i, hi⟩ := List.mem_iff_getElem?.mp hs
    refine ⟨h1, ⟨i, (mem_byAddrIdx σ syms i).mpr ⟨s, hi, hsup⟩, by rw [valueAt_some hi, hk]⟩, ?_⟩
    intro j hj hle
    obtain ⟨s', hs', hsup'⟩ := (mem_byAddrIdx σ syms j).mp hj
    rw [valueAt_some hs'] at hle ⊢
    exact h3 s' (List.mem_of_getElem? hs') hsup' hle

end Blazesym.Elf
