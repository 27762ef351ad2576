import Verif.Elf.SymtabLemmas

/-! Property theorems C04 and C05. -/

set_option autoImplicit false

namespace Blazesym.Elf
open Blazesym.Util Blazesym.Spec Blazesym.Spec.Elf

/-- What part of the address index a lookup scans. -/
theorem lookup_start (σ : Sorter) (syms : List Sym) (addr : Nat) :
    (findMatchOrLowerBoundByKey (createByAddrIdx σ syms) addr (valueAt syms) = none ∧
      ∀ s ∈ syms, Supported s → addr < s.value) ∨
    (∃ n k, findMatchOrLowerBoundByKey (createByAddrIdx σ syms) addr (valueAt syms) = some n ∧
      NearestStart syms addr k ∧
      (∀ i ∈ (createByAddrIdx σ syms).drop n, valueAt syms i ≤ addr → valueAt syms i = k) ∧
      ((k = addr ∨ ∃ s ∈ syms, Supported s ∧ s.value < k) →
        ∀ i ∈ createByAddrIdx σ syms, valueAt syms i = k → i ∈ (createByAddrIdx σ syms).drop n) ∧
      (¬ (k = addr ∨ ∃ s ∈ syms, Supported s ∧ s.value < k) →
        ∀ i ∈ (createByAddrIdx σ syms).drop n, valueAt syms i = k →
          ∀ j ∈ createByAddrIdx σ syms, valueAt syms j = k →
            sizeAt syms i ≤ sizeAt syms j) ∧
      (∃ i ∈ (createByAddrIdx σ syms).drop n, valueAt syms i = k ∧
        (¬ (k = addr ∨ ∃ s ∈ syms, Supported s ∧ s.value < k) →
          ∀ j ∈ (createByAddrIdx σ syms).drop n, valueAt syms j = k → j = i))) := by
  have hmemL := mem_byAddrIdx σ syms
  have hsort := byAddrIdx_sorted σ syms
  have hpw := byAddrIdx_pairwise σ syms
  have hgk := greatestKey_nearest σ syms addr
  generalize createByAddrIdx σ syms = L at *
  have hpw' := List.pairwise_iff_getElem.mp hpw
  have hso' := List.pairwise_iff_getElem.mp hsort
  rcases findMatchOrLowerBound_char L (valueAt syms) hsort addr with ⟨h1, h2⟩ | ⟨n, k, h1, h2, h3, h4⟩
  · left
    refine ⟨h1, ?_⟩
    intro s hs hsup
    obtain ⟨i, hi⟩ := List.mem_iff_getElem?.mp hs
    have := h2 i ((hmemL i).mpr ⟨s, hi, hsup⟩)
    rwa [valueAt_some hi] at this
  · right
    -- the condition under which the run is scanned from its first element
    have hcond : (k = addr ∨ ¬ IsFirstIdx L (fun e => valueAt syms e = k) 0) ↔
        (k = addr ∨ ∃ s ∈ syms, Supported s ∧ s.value < k) := by
      constructor
      · rintro (h | h)
        · exact Or.inl h
        · right
          obtain ⟨_, ⟨i, hi, hik⟩, _⟩ := h2
          have hpos : 0 < L.length := List.length_pos_of_mem hi
          have h0 : valueAt syms L[0] ≠ k := by
            intro hcon
            exact h ⟨⟨L[0], List.getElem?_eq_getElem hpos, hcon⟩, by intro j e hj; omega⟩
          obtain ⟨s, hs, hsup⟩ := (hmemL L[0]).mp (List.getElem_mem hpos)
          refine ⟨s, List.mem_of_getElem? hs, hsup, ?_⟩
          rw [← valueAt_some hs]
          obtain ⟨j, hjl, hj⟩ := List.mem_iff_getElem.mp hi
          rcases Nat.eq_zero_or_pos j with hz | hz
          · subst hz; rw [hj] at h0; exact absurd hik h0
          · have := hso' 0 j hpos hjl hz
            rw [hj, hik] at this
            exact lt_of_le_of_ne this h0
      · rintro (h | ⟨s, hs, hsup, hlt⟩)
        · exact Or.inl h
        · right
          rintro ⟨⟨e, he, hek⟩, _⟩
          obtain ⟨i, hi⟩ := List.mem_iff_getElem?.mp hs
          obtain ⟨j, hjl, hj⟩ := List.mem_iff_getElem.mp ((hmemL i).mpr ⟨s, hi, hsup⟩)
          have hpos : 0 < L.length := by omega
          have he0 : L[0] = e := by
            rw [List.getElem?_eq_getElem hpos] at he; exact Option.some.inj he
          have hle : valueAt syms L[0] ≤ valueAt syms L[j] := by
            rcases Nat.eq_zero_or_pos j with hz | hz
            · simp [hz]
            · exact hso' 0 j hpos hjl hz
          rw [he0, hek, hj, valueAt_some hi] at hle
          omega
    rw [hcond] at h3
    rw [hcond] at h4
    have hn : ∃ e, L[n]? = some e ∧ valueAt syms e = k := by
      by_cases hc : k = addr ∨ ∃ s ∈ syms, Supported s ∧ s.value < k
      · exact (h3 hc).1
      · exact (h4 hc).1
    obtain ⟨e, he, hek⟩ := hn
    have hnl : n < L.length := (List.getElem?_eq_some_iff.mp he).1
    have hen : L[n] = e := by
      rw [List.getElem?_eq_getElem hnl] at he; exact Option.some.inj he
    have hdrop : ∀ i, i ∈ L.drop n ↔ ∃ j, n ≤ j ∧ ∃ h : j < L.length, L[j] = i := by
      intro i
      rw [List.mem_iff_getElem]
      constructor
      · rintro ⟨j, hj, hij⟩
        simp only [List.length_drop] at hj
        refine ⟨n + j, by omega, by omega, ?_⟩
        rw [List.getElem_drop] at hij; exact hij
      · rintro ⟨j, hnj, hj, hij⟩
        refine ⟨j - n, by simp; omega, ?_⟩
        rw [List.getElem_drop]
        simp only [show n + (j - n) = j by omega]; exact hij
    refine ⟨n, k, h1, (hgk k).mp h2, ?_, ?_, ?_, ?_⟩
    · intro i hi hle
      obtain ⟨j, hnj, hj, hij⟩ := (hdrop i).mp hi
      have hge : k ≤ valueAt syms i := by
        rcases Nat.lt_or_ge n j with h | h
        · have := hso' n j hnl hj h
          rwa [hen, hek, hij] at this
        · have : n = j := by omega
          subst this
          rw [← hij, hen, hek]
      have := h2.2.2 i (List.mem_of_mem_drop hi) hle
      omega
    · intro hc i hi hik
      obtain ⟨j, hj, hij⟩ := List.mem_iff_getElem.mp hi
      rw [hdrop]
      refine ⟨j, ?_, hj, hij⟩
      by_contra hcon
      exact (h3 hc).2 j i (by omega) (by rw [List.getElem?_eq_getElem hj, hij]) hik
    · intro hc i hi hik j' hj' hjk
      obtain ⟨j, hnj, hj, hij⟩ := (hdrop i).mp hi
      have hjn : j = n := by
        by_contra hcon
        exact (h4 hc).2 j i (by omega) (by rw [List.getElem?_eq_getElem hj, hij]) hik
      obtain ⟨m, hm, hmj⟩ := List.mem_iff_getElem.mp hj'
      have hmn : m ≤ n := by
        by_contra hcon
        exact (h4 hc).2 m j' (by omega) (by rw [List.getElem?_eq_getElem hm, hmj]) hjk
      rcases Nat.lt_or_ge m n with h | h
      · have := hpw' m n hm hnl h
        subst hjn
        rw [hmj, hij] at this
        simp only [addrLe, decide_eq_true_eq] at this
        omega
      · have : m = n := by omega
        subst this
        subst hjn
        rw [← hij, ← hmj]
    · refine ⟨e, (hdrop e).mpr ⟨n, le_refl _, hnl, hen⟩, hek, ?_⟩
      intro hc j' hj' hjk
      obtain ⟨m, hnm, hm, hmj⟩ := (hdrop j').mp hj'
      have hmn : m = n := by
        by_contra hcon
        exact (h4 hc).2 m j' (by omega) (by rw [List.getElem?_eq_getElem hm, hmj]) hjk
      subst hmn
      rw [← hmj, hen]

theorem drop_sorted {syms : List Sym} (σ : Sorter) (n : Nat) :
    SortedBy ((createByAddrIdx σ syms).drop n) (valueAt syms) :=
  (byAddrIdx_sorted σ syms).sublist (List.drop_sublist _ _)

/-- **C04** soundness of address lookup: a reported symbol is a defined symbol of the table,
of the requested kind, that covers the address, with its own name, start and size; and it
starts at the greatest start address (of any symbol of a supported type) not above the
address. -/
theorem C04_lookup_sound (σ : Sorter) (t : SymTab) (table : Table) (addr : Nat) (ty : SymType)
    (r : ResolvedSym) (h : t.lookup σ table addr ty = .ok (some r)) :
    (∃ s ∈ t.syms, Defined s ∧ HasKind s ty ∧ Covers table s addr ∧ NameAt t.strs s.name r.name ∧
      isUtf8 r.name = true ∧ r.addr = s.value ∧ (s.size = 0 → r.size = none) ∧
      (s.size ≠ 0 → r.size = some s.size)) ∧
    NearestStart t.syms addr r.addr := by
  unfold SymTab.lookup findSym at h
  rcases lookup_start σ t.syms addr with ⟨h1, _⟩ | ⟨n, k, h1, h2, h3, _, _, _⟩
  · rw [h1] at h; simp at h
  · rw [h1] at h
    simp only at h
    obtain ⟨pre, i, post, s, g1, g2, g3, g4, g5, g6, g7⟩ := loop_some h
    have hi : i ∈ (createByAddrIdx σ t.syms).drop n := by rw [g1]; simp
    have hik := h3 i hi (by rw [valueAt_some g2]; exact g3.2.2.1)
    rw [valueAt_some g2] at hik
    unfold symbolName at g4
    refine ⟨⟨s, List.mem_of_getElem? g2, g3.1, g3.2.1, g3.2.2, ?_, ?_, g5, ?_, ?_⟩, ?_⟩
    · split at g4
      · simp at g4
      · rename_i c hc
        split at g4
        · cases g4; exact (cstrAt_ok _ _ _).mp hc
        · simp at g4
    · split at g4
      · simp at g4
      · split at g4
        · rename_i hu; cases g4; exact hu
        · simp at g4
    · intro h0; rw [g6, if_pos h0]
    · intro h0; rw [g6, if_neg h0]
    · rw [g5, hik]; exact h2

/-- **C04** of several symbols at the reported start that could have been reported, one with
the greatest size is (provided the scan starts at the first of them, see C05). -/
theorem C04_lookup_largest (σ : Sorter) (t : SymTab) (table : Table) (addr : Nat) (ty : SymType)
    (r : ResolvedSym) (h : t.lookup σ table addr ty = .ok (some r))
    (hrun : r.addr = addr ∨ ∃ s ∈ t.syms, Supported s ∧ s.value < r.addr)
    (s' : Sym) (hs' : s' ∈ t.syms) (hd : Defined s') (hk : HasKind s' ty)
    (hc : Covers table s' addr) (hv : s'.value = r.addr) :
    s'.size ≤ r.size.getD 0 := by
  unfold SymTab.lookup findSym at h
  rcases lookup_start σ t.syms addr with ⟨h1, _⟩ | ⟨n, k, h1, h2, h3, h4, _, _⟩
  · rw [h1] at h; simp at h
  · rw [h1] at h
    simp only at h
    obtain ⟨pre, i, post, s, g1, g2, g3, g4, g5, g6, g7⟩ := loop_some h
    have hi : i ∈ (createByAddrIdx σ t.syms).drop n := by rw [g1]; simp
    have hik := h3 i hi (by rw [valueAt_some g2]; exact g3.2.2.1)
    rw [valueAt_some g2, ← g5] at hik
    rw [hik] at hrun
    obtain ⟨j, hj⟩ := List.mem_iff_getElem?.mp hs'
    have hjL := (mem_byAddrIdx σ t.syms j).mpr ⟨s', hj, hasKind_supported hk⟩
    have hjd := h4 hrun j hjL (by rw [valueAt_some hj, hv, hik])
    rw [g1] at hjd
    have hres : r.size.getD 0 = s.size := by
      rw [g6]; split
      · rename_i h0; simp [h0]
      · rfl
    rw [hres]
    have hpw : (pre ++ i :: post).Pairwise (fun a b => addrLe t.syms a b = true) := by
      rw [← g1]; exact (byAddrIdx_pairwise σ t.syms).sublist (List.drop_sublist _ _)
    rcases List.mem_append.mp hjd with hp | hp
    · obtain ⟨s'', e1, _, e3⟩ := g7 j hp
      rw [hj] at e1; cases e1
      exact absurd ⟨hd, hk, hc⟩ e3
    · rcases List.mem_cons.mp hp with rfl | hp
      · rw [g2] at hj; cases hj; exact le_refl _
      · have := (List.pairwise_cons.mp (List.pairwise_append.mp hpw).2.1).1 j hp
        simp only [addrLe, decide_eq_true_eq, valueAt_some g2, valueAt_some hj, sizeAt_some g2,
          sizeAt_some hj] at this
        omega

/-- **C04** a lookup fails (instead of answering) only because a symbol at the nearest start
ends beyond the 64 bit address space (which panics in a build with overflow checks), or
because the symbol to report has no valid name. -/
theorem C04_lookup_error (σ : Sorter) (t : SymTab) (table : Table) (addr : Nat) (ty : SymType)
    (e : Err) (h : t.lookup σ table addr ty = .error e) :
    ∃ s ∈ t.syms, Supported s ∧ NearestStart t.syms addr s.value ∧
      ((e = .panic ∧ 2 ^ 64 ≤ s.value + s.size) ∨
       (e = .invalidInput ∧ Defined s ∧ HasKind s ty ∧ Covers table s addr ∧
          ∀ n, ¬ NameAt t.strs s.name n) ∨
       (e = .invalidData ∧ Defined s ∧ HasKind s ty ∧ Covers table s addr ∧
          ∃ n, NameAt t.strs s.name n ∧ isUtf8 n = false)) := by
  unfold SymTab.lookup findSym at h
  rcases lookup_start σ t.syms addr with ⟨h1, _⟩ | ⟨n, k, h1, h2, h3, _, _, _⟩
  · rw [h1] at h; simp at h
  · rw [h1] at h
    simp only at h
    obtain ⟨i, hi, s, g1, g2, g3⟩ := loop_error (by
      intro i hi
      obtain ⟨s, hs, _⟩ := (mem_byAddrIdx σ t.syms i).mp (List.mem_of_mem_drop hi)
      exact ⟨s, hs⟩) h
    have hsup : Supported s := by
      obtain ⟨s', hs', hsup⟩ := (mem_byAddrIdx σ t.syms i).mp (List.mem_of_mem_drop hi)
      rw [g1] at hs'; cases hs'; exact hsup
    have hik := h3 i hi (by rw [valueAt_some g1]; exact g2)
    rw [valueAt_some g1] at hik
    refine ⟨s, List.mem_of_getElem? g1, hsup, by rw [hik]; exact h2, ?_⟩
    rcases g3 with g3 | ⟨g3, g4⟩
    · exact Or.inl g3
    · right
      unfold symbolName at g4
      split at g4
      · rename_i e' he'
        cases g4
        obtain ⟨a, b⟩ := cstrAt_error _ _ _ he'
        exact Or.inl ⟨a, g3.1, g3.2.1, g3.2.2, b⟩
      · rename_i c hc
        split at g4
        · simp at g4
        · rename_i hu
          cases g4
          exact Or.inr ⟨rfl, g3.1, g3.2.1, g3.2.2, c, (cstrAt_ok _ _ _).mp hc, by simpa using hu⟩

/-- **C05** (the only miss): when nothing is found although a reportable symbol starts at the
nearest start address, then that start is not the queried address, it is the lowest start in
the table, and another symbol of a supported type at the same start, not larger and not
reportable itself, shadows it. -/
theorem C05_miss_condition (σ : Sorter) (t : SymTab) (table : Table) (addr : Nat) (ty : SymType)
    (h : t.lookup σ table addr ty = .ok none) (i : Nat) (s : Sym) (hi : t.syms[i]? = some s)
    (hnear : NearestStart t.syms addr s.value) (hd : Defined s) (hk : HasKind s ty)
    (hc : Covers table s addr) :
    s.value ≠ addr ∧ (∀ s' ∈ t.syms, Supported s' → s.value ≤ s'.value) ∧
    ∃ j s', j ≠ i ∧ t.syms[j]? = some s' ∧ Supported s' ∧ s'.value = s.value ∧
      s'.size ≤ s.size ∧ ¬ (Defined s' ∧ HasKind s' ty ∧ Covers table s' addr) := by
  unfold SymTab.lookup findSym at h
  rcases lookup_start σ t.syms addr with ⟨_, h2⟩ | ⟨n, k, h1, h2, h3, h4, h5, h6⟩
  · have := h2 s (List.mem_of_getElem? hi) (hasKind_supported hk)
    have := hnear.1
    omega
  · rw [h1] at h
    simp only at h
    have hnone := loop_none (drop_sorted σ n) h
    have hkk : k = s.value := by
      obtain ⟨a1, ⟨s1, b1, c1, d1⟩, e1⟩ := h2
      obtain ⟨a2, ⟨s2, b2, c2, d2⟩, e2⟩ := hnear
      have := e1 s2 b2 c2 (by omega)
      have := e2 s1 b1 c1 (by omega)
      omega
    subst hkk
    have hiL := (mem_byAddrIdx σ t.syms i).mpr ⟨s, hi, hasKind_supported hk⟩
    by_cases hcond : s.value = addr ∨ ∃ s' ∈ t.syms, Supported s' ∧ s'.value < s.value
    · exact absurd ⟨hd, hk, hc⟩ (hnone i (h4 hcond i hiL (valueAt_some hi)) s hi)
    · obtain ⟨j, hj, hjk, _⟩ := h6
      obtain ⟨s', hs', hsup'⟩ := (mem_byAddrIdx σ t.syms j).mp (List.mem_of_mem_drop hj)
      refine ⟨fun hcon => hcond (Or.inl hcon), ?_, j, s', ?_, hs', hsup', ?_, ?_, ?_⟩
      · intro s'' hs'' hsup''
        by_contra hcon
        exact hcond (Or.inr ⟨s'', hs'', hsup'', by omega⟩)
      · rintro rfl
        exact absurd ⟨hd, hk, hc⟩ (hnone j hj s hi)
      · rw [← valueAt_some hs']; exact hjk
      · have := h5 hcond j hj hjk i hiL (valueAt_some hi)
        rwa [sizeAt_some hs', sizeAt_some hi] at this
      · exact hnone j hj s' hs'

/-- **C05** completeness for the nearest start (what holds): if a reportable symbol starts at
the nearest start and that start is the queried address itself, or not the lowest start of the
table, or no other symbol of a supported type starts there, then the lookup does not come back
empty.  (By C04 what is then reported covers the address and has that start.)  The full claim,
without the disjunction `hrun`, is false: `C05_fails`. -/
theorem C05_complete_partial (σ : Sorter) (t : SymTab) (table : Table) (addr : Nat)
    (ty : SymType) (i : Nat) (s : Sym) (hi : t.syms[i]? = some s)
    (hnear : NearestStart t.syms addr s.value) (hd : Defined s) (hk : HasKind s ty)
    (hc : Covers table s addr)
    (hrun : s.value = addr ∨ (∃ s' ∈ t.syms, Supported s' ∧ s'.value < s.value) ∨
      ∀ j s', j ≠ i → t.syms[j]? = some s' → Supported s' → s'.value ≠ s.value) :
    t.lookup σ table addr ty ≠ .ok none := by
  intro h
  obtain ⟨h1, h2, j, s', h3, h4, h5, h6, _⟩ :=
    C05_miss_condition σ t table addr ty h i s hi hnear hd hk hc
  rcases hrun with hr | ⟨s'', hs'', hsup, hlt⟩ | hr
  · exact h1 hr
  · have := h2 s'' hs'' hsup; omega
  · exact hr j s' h3 h4 h5 h6

/-- **C05** (and with valid names and no wrap-around the answer is a symbol). -/
theorem C05_found_partial (σ : Sorter) (t : SymTab) (table : Table) (addr : Nat)
    (ty : SymType) (i : Nat) (s : Sym) (hi : t.syms[i]? = some s)
    (hnear : NearestStart t.syms addr s.value) (hd : Defined s) (hk : HasKind s ty)
    (hc : Covers table s addr)
    (hrun : s.value = addr ∨ (∃ s' ∈ t.syms, Supported s' ∧ s'.value < s.value) ∨
      ∀ j s', j ≠ i → t.syms[j]? = some s' → Supported s' → s'.value ≠ s.value)
    (hwrap : NoWrap t.syms)
    (hnames : ∀ s ∈ t.syms, ∃ n, NameAt t.strs s.name n ∧ isUtf8 n = true) :
    ∃ r, t.lookup σ table addr ty = .ok (some r) ∧ r.addr = s.value := by
  cases hr : t.lookup σ table addr ty with
  | error e =>
    obtain ⟨s', hs', hsup, _, h⟩ := C04_lookup_error σ t table addr ty e hr
    obtain ⟨n, hn1, hn2⟩ := hnames s' hs'
    rcases h with ⟨_, h⟩ | ⟨_, _, _, _, h⟩ | ⟨_, _, _, _, n', h1, h2⟩
    · have := hwrap s' hs' hsup; omega
    · exact absurd hn1 (h n)
    · rw [nameAt_unique h1 hn1, hn2] at h2; simp at h2
  | ok o =>
    cases o with
    | none => exact absurd hr (C05_complete_partial σ t table addr ty i s hi hnear hd hk hc hrun)
    | some r =>
      refine ⟨r, rfl, ?_⟩
      have h2 := (C04_lookup_sound σ t table addr ty r hr).2
      obtain ⟨a1, ⟨s1, b1, c1, d1⟩, e1⟩ := h2
      obtain ⟨a2, ⟨s2, b2, c2, d2⟩, e2⟩ := hnear
      have := e1 s2 b2 c2 (by omega)
      have := e2 s1 b1 c1 (by omega)
      omega

/-- **C05** (the unrestricted claim fails): in every table whose lowest start address `k` is
the nearest start for `addr ≠ k` and whose smallest symbols at `k` are not reportable, the
lookup finds nothing — whatever larger symbols at `k` cover `addr`. -/
theorem C05_fails (σ : Sorter) (t : SymTab) (table : Table) (addr k : Nat) (ty : SymType)
    (hwrap : NoWrap t.syms) (hnear : NearestStart t.syms addr k) (hne : k ≠ addr)
    (hlow : ∀ s ∈ t.syms, Supported s → k ≤ s.value)
    (hmin : ∀ s ∈ t.syms, Supported s → s.value = k →
      (∀ s' ∈ t.syms, Supported s' → s'.value = k → s.size ≤ s'.size) →
      ¬ (Defined s ∧ HasKind s ty ∧ Covers table s addr)) :
    t.lookup σ table addr ty = .ok none := by
  have key : ∀ n, (∀ i ∈ (createByAddrIdx σ t.syms).drop n, ∀ s, t.syms[i]? = some s →
      Good table addr ty s → False) →
      findMatchOrLowerBoundByKey (createByAddrIdx σ t.syms) addr (valueAt t.syms) = some n →
      t.lookup σ table addr ty = .ok none := by
    intro n hgood h1
    unfold SymTab.lookup findSym
    rw [h1]
    simp only
    cases hr : findSymLoop t.syms t.strs table addr ty ((createByAddrIdx σ t.syms).drop n) with
    | error e =>
      obtain ⟨i, hi, s, g1, g2, g3⟩ := loop_error (by
        intro i hi
        obtain ⟨s, hs, _⟩ := (mem_byAddrIdx σ t.syms i).mp (List.mem_of_mem_drop hi)
        exact ⟨s, hs⟩) hr
      rcases g3 with ⟨_, g3⟩ | ⟨g3, _⟩
      · obtain ⟨s', hs', hsup⟩ := (mem_byAddrIdx σ t.syms i).mp (List.mem_of_mem_drop hi)
        rw [g1] at hs'; cases hs'
        have := hwrap s (List.mem_of_getElem? g1) hsup
        omega
      · exact absurd g3 (fun h => hgood i hi s g1 h)
    | ok o =>
      cases o with
      | none => rfl
      | some r =>
        obtain ⟨pre, i, post, s, g1, g2, g3, _⟩ := loop_some hr
        exact absurd g3 (fun h => hgood i (by rw [g1]; simp) s g2 h)
  rcases lookup_start σ t.syms addr with ⟨_, h2⟩ | ⟨n, k', h1, h2, h3, _, h5, _⟩
  · obtain ⟨s, hs, hsup, hv⟩ := hnear.2.1
    have := h2 s hs hsup
    have := hnear.1
    omega
  · have hkk : k' = k := by
      obtain ⟨a1, ⟨s1, b1, c1, d1⟩, e1⟩ := h2
      obtain ⟨a2, ⟨s2, b2, c2, d2⟩, e2⟩ := hnear
      have := e1 s2 b2 c2 (by omega)
      have := e2 s1 b1 c1 (by omega)
      omega
    subst hkk
    refine key n ?_ h1
    intro i hi s hs hgood
    have hcond : ¬ (k' = addr ∨ ∃ s ∈ t.syms, Supported s ∧ s.value < k') := by
      rintro (h | ⟨s, hs, hsup, hlt⟩)
      · exact hne h
      · have := hlow s hs hsup; omega
    have hik := h3 i hi (by rw [valueAt_some hs]; exact hgood.2.2.1)
    refine hmin s (List.mem_of_getElem? hs) (hasKind_supported hgood.2.1)
      (by rw [← valueAt_some hs]; exact hik) ?_ hgood
    intro s' hs' hsup' hv'
    obtain ⟨j, hj⟩ := List.mem_iff_getElem?.mp hs'
    have := h5 hcond i hi hik j ((mem_byAddrIdx σ t.syms j).mpr ⟨s', hj, hsup'⟩)
      (by rw [valueAt_some hj, hv'])
    rwa [sizeAt_some hs, sizeAt_some hj] at this

/-- Two functions at `0x1000`, of sizes 16 and 4 (an alias for a prefix of the first). -/
def aliasTab : SymTab where
  syms := [⟨1, 2, 0, 1, 0x1000, 16⟩, ⟨5, 2, 0, 1, 0x1000, 4⟩, ⟨9, 2, 0, 1, 0x2000, 8⟩]
  strs := [0, 102, 111, 111, 0, 98, 97, 114, 0, 98, 97, 122, 0]

/-- **C05** (concrete witness of the miss): the function of size 16 at `0x1000` covers
`0x1008`, but nothing is reported — for every order of equal elements. -/
theorem C05_fails_witness (σ : Sorter) :
    aliasTab.lookup σ .symtab 0x1008 .undefined = .ok none ∧
    ∃ s ∈ aliasTab.syms, Defined s ∧ HasKind s .undefined ∧ Covers .symtab s 0x1008 ∧
      NearestStart aliasTab.syms 0x1008 s.value := by
  have hnear : NearestStart aliasTab.syms 0x1008 0x1000 := by
    refine ⟨by norm_num, ⟨_, by simp [aliasTab]; left; rfl, by simp [Supported], rfl⟩, ?_⟩
    simp [aliasTab]
  constructor
  · refine C05_fails σ aliasTab .symtab 0x1008 0x1000 .undefined ?_ hnear (by norm_num) ?_ ?_
    · simp [NoWrap, aliasTab]
    · simp [aliasTab]
    · simp [aliasTab, Supported, Covers]
  · refine ⟨⟨1, 2, 0, 1, 0x1000, 16⟩, by simp [aliasTab], by simp [Defined],
      by simp [HasKind, Supported], by simp [Covers], hnear⟩

/-- **C05** (nearest start only): a symbol that covers the address but is followed by another
one starting at or before the address is never reported.  Here a function of 0x1000 bytes with
a label of 4 bytes inside: addresses behind the label are attributed to nothing. -/
theorem C05_nested_not_found (σ : Sorter) (t : SymTab) (table : Table) (addr : Nat)
    (ty : SymType) (r : ResolvedSym) (h : t.lookup σ table addr ty = .ok (some r)) (s : Sym)
    (hs : s ∈ t.syms) (hsup : Supported s) (hle : s.value ≤ addr) : s.value ≤ r.addr :=
  (C04_lookup_sound σ t table addr ty r h).2.2.2 s hs hsup hle

/-- The hypotheses of `C05_found_partial` are met by a non-trivial table: the last symbol. -/
example (σ : Sorter) : ∃ r, aliasTab.lookup σ .symtab 0x2004 .function = .ok (some r) ∧
    r.addr = 0x2000 := by
  have hn : ∀ s ∈ aliasTab.syms, ∃ n, NameAt aliasTab.strs s.name n ∧ isUtf8 n = true := by
    intro s hs
    simp only [aliasTab, List.mem_cons, List.not_mem_nil, or_false] at hs
    rcases hs with rfl | rfl | rfl
    · exact ⟨[102, 111, 111], ⟨_, rfl, by decide⟩, by decide⟩
    · exact ⟨[98, 97, 114], ⟨_, rfl, by decide⟩, by decide⟩
    · exact ⟨[98, 97, 122], ⟨_, rfl, by decide⟩, by decide⟩
  exact C05_found_partial σ aliasTab .symtab 0x2004 .function 2 ⟨9, 2, 0, 1, 0x2000, 8⟩ rfl
    ⟨by norm_num, ⟨_, by simp [aliasTab], by simp [Supported], rfl⟩, by simp [aliasTab]⟩
    (by simp [Defined]) (by simp [HasKind]) (by simp [Covers])
    (Or.inr (Or.inl ⟨⟨1, 2, 0, 1, 0x1000, 16⟩, by simp [aliasTab], by simp [Supported], by norm_num⟩))
    (by simp [NoWrap, aliasTab]) hn

/-- **C04** at the level of a file: `.symtab` is searched first, `.dynsym` only if that found
nothing, and the reason for finding nothing is `MissingSyms` exactly if there is no symbol in
`.symtab` at all. -/
theorem C04_file_find_sym (σ : Sorter) (file : File) (symtab dynsym : SymTab)
    (h1 : file.symtab = .ok symtab) (h2 : file.dynsym = .ok dynsym) (addr : Nat) :
    (∀ r, symtab.lookup σ .symtab addr .undefined = .ok (some r) →
      file.findSym σ addr = .ok (.ok r)) ∧
    (∀ e, symtab.lookup σ .symtab addr .undefined = .error e →
      file.findSym σ addr = .error e) ∧
    (symtab.lookup σ .symtab addr .undefined = .ok none →
      (∀ r, dynsym.lookup σ .dynsym addr .undefined = .ok (some r) →
        file.findSym σ addr = .ok (.ok r)) ∧
      (∀ e, dynsym.lookup σ .dynsym addr .undefined = .error e →
        file.findSym σ addr = .error e) ∧
      (dynsym.lookup σ .dynsym addr .undefined = .ok none →
        (symtab.syms = [] → file.findSym σ addr = .ok (.error .missingSyms)) ∧
        (symtab.syms ≠ [] → file.findSym σ addr = .ok (.error .unknownAddr)))) := by
  unfold File.findSym
  rw [h1, h2]
  refine ⟨fun r hr => ?_, fun e he => ?_, fun hn => ⟨fun r hr => ?_, fun e he => ?_, fun hn' => ⟨fun h0 => ?_, fun h0 => ?_⟩⟩⟩
  · simp [bind, Except.bind, hr, pure, Except.pure]
  · simp [bind, Except.bind, he]
  · simp [bind, Except.bind, hn, hr, pure, Except.pure]
  · simp [bind, Except.bind, hn, he]
  · simp [bind, Except.bind, hn, hn', pure, Except.pure, h0]
  · simp [bind, Except.bind, hn, hn', pure, Except.pure, h0]

end Blazesym.Elf
