import Verif.Breakpad.ParserProps
import Verif.Breakpad.Resolver
import Verif.Util.SearchProps

/-! Lemmas about looking up records by address. -/

set_option autoImplicit false

namespace Blazesym.Breakpad
open Blazesym.Util Blazesym.Spec Blazesym.Spec.Breakpad

variable {α : Type}

/-- The common form of `findLine` and `findFunction`. -/
def coverLookup (start size : α → Nat) (l : List α) (addr : Nat) : Except Err (Option α) :=
  match findMatchOrLowerBoundByKey l addr start with
  | none => .ok none
  | some idx => coverScan start size addr (l.drop idx)

theorem findLine_eq (f : Function) (addr : Nat) :
    f.findLine addr = coverLookup (fun l => l.addr) (fun l => l.size) f.lines addr := rfl

theorem findFunction_eq (file : SymbolFile) (addr : Nat) :
    file.findFunction addr = coverLookup (fun f => f.addr) (fun f => f.size) file.functions addr := rfl

theorem covers_true {s n addr : Nat} (h : covers s n addr = .ok true) : Covers s n addr := by
  unfold covers at h
  unfold Covers
  split at h
  · rename_i h1; exact Or.inl h1
  · split at h
    · rename_i h2
      unfold addU64 at h
      split at h
      · rename_i heq; split at heq <;> cases h
      · rename_i heq
        split at heq
        · cases heq
          simp only [Except.ok.injEq, decide_eq_true_eq] at h
          exact Or.inr ⟨h2, h⟩
        · cases heq
    · cases h

theorem covers_ok {s n addr : Nat} (h : s ≤ addr → s + n < u64Size) :
    (Covers s n addr ∧ covers s n addr = .ok true) ∨ (¬ Covers s n addr ∧ covers s n addr = .ok false) := by
  unfold covers Covers
  by_cases h1 : s = addr ∧ n = 0
  · left; exact ⟨Or.inl h1, if_pos h1⟩
  · rw [if_neg h1]
    by_cases h2 : s ≤ addr
    · rw [if_pos h2]
      unfold addU64
      rw [if_pos (h h2)]
      simp only
      by_cases h3 : addr < s + n
      · left; exact ⟨Or.inr ⟨h2, h3⟩, by simp [h3]⟩
      · right
        refine ⟨?_, by simp [h3]⟩
        rintro (h | h)
        · exact h1 h
        · exact h3 h.2
    · rw [if_neg h2]
      right
      refine ⟨?_, rfl⟩
      rintro (h | h)
      · exact h1 h
      · exact h2 h.1

theorem covers_panic {s n addr : Nat} (h1 : s ≤ addr) (h2 : ¬ (s = addr ∧ n = 0)) (h3 : u64Size ≤ s + n) :
    covers s n addr = .error .panic := by
  unfold covers addU64
  rw [if_neg h2, if_pos h1, if_neg (by omega)]

theorem coverScan_some {start size : α → Nat} {addr : Nat} {l : List α} {e : α}
    (h : coverScan start size addr l = .ok (some e)) :
    ∃ pre post, l = pre ++ e :: post ∧ Covers (start e) (size e) addr ∧
      ∀ x ∈ pre, start x ≤ addr ∧ covers (start x) (size x) addr = .ok false := by
  induction l with
  | nil => cases h
  | cons a t ih =>
    unfold coverScan at h
    split at h
    · cases h
    · rename_i hs
      split at h
      · cases h
      · rename_i hc
        cases h
        exact ⟨[], t, rfl, covers_true hc, by simp⟩
      · rename_i hc
        obtain ⟨pre, post, rfl, h1, h2⟩ := ih h
        refine ⟨a :: pre, post, rfl, h1, ?_⟩
        intro x hx
        rcases List.mem_cons.mp hx with rfl | hx
        · exact ⟨by omega, hc⟩
        · exact h2 x hx

theorem coverScan_ok {start size : α → Nat} {addr : Nat} (l : List α)
    (ho : ∀ e ∈ l, start e ≤ addr → start e + size e < u64Size) (hs : SortedBy l start) :
    (∃ e pre post, coverScan start size addr l = .ok (some e) ∧ l = pre ++ e :: post ∧
      Covers (start e) (size e) addr ∧ ∀ x ∈ pre, ¬ Covers (start x) (size x) addr) ∨
    (coverScan start size addr l = .ok none ∧ ∀ e ∈ l, ¬ Covers (start e) (size e) addr) := by
  induction l with
  | nil => right; exact ⟨rfl, by simp⟩
  | cons a t ih =>
    unfold SortedBy at hs
    rw [List.pairwise_cons] at hs
    unfold coverScan
    by_cases ha : start a > addr
    · right
      rw [if_pos ha]
      refine ⟨rfl, ?_⟩
      intro e he
      have : addr < start e := by
        rcases List.mem_cons.mp he with rfl | he
        · exact ha
        · exact lt_of_lt_of_le ha (hs.1 e he)
      unfold Covers; omega
    · rw [if_neg ha]
      rcases covers_ok (s := start a) (n := size a) (addr := addr) (ho a (List.mem_cons_self ..)) with
        ⟨h1, h2⟩ | ⟨h1, h2⟩
      · left
        rw [h2]
        exact ⟨a, [], t, rfl, rfl, h1, by simp⟩
      · rw [h2]
        simp only
        rcases ih (fun e he => ho e (List.mem_cons_of_mem _ he)) hs.2 with ⟨e, pre, post, g1, g2, g3, g4⟩ | ⟨g1, g2⟩
        · left
          refine ⟨e, a :: pre, post, g1, by rw [g2]; rfl, g3, ?_⟩
          intro x hx
          rcases List.mem_cons.mp hx with rfl | hx
          · exact h1
          · exact g4 x hx
        · right
          refine ⟨g1, ?_⟩
          intro e he
          rcases List.mem_cons.mp he with rfl | he
          · exact h1
          · exact g2 e he

/-- Sorted by start, and by size among those of the same start. -/
theorem sorted_start {start size : α → Nat} {l : List α} (h : SortedBy l (fun e => pairKey (start e) (size e))) :
    SortedBy l start := by
  refine List.Pairwise.imp ?_ h
  intro a b hab
  rw [pairKey_le] at hab
  omega

/-- What a lookup finds covers the address, and nothing starts after it and not after the address. -/
theorem coverLookup_some {start size : α → Nat} {l : List α} {addr : Nat} {e : α}
    (hs : SortedBy l (fun e => pairKey (start e) (size e)))
    (h : coverLookup start size l addr = .ok (some e)) :
    e ∈ l ∧ Covers (start e) (size e) addr ∧ IsLastStart start l addr (start e) := by
  unfold coverLookup at h
  rcases findMatchOrLowerBound_char l start (sorted_start hs) addr with ⟨h1, _⟩ | ⟨i, k, h1, hk, hA, hB⟩
  · rw [h1] at h; cases h
  · rw [h1] at h
    simp only at h
    obtain ⟨pre, post, h2, h3, h4⟩ := coverScan_some h
    have hmem : e ∈ l.drop i := by rw [h2]; simp
    have hel : e ∈ l := List.mem_of_mem_drop hmem
    have hle : start e ≤ addr := by
      rcases h3 with h3 | h3 <;> omega
    refine ⟨hel, h3, hle, ?_⟩
    -- `e` is not before index `i`, whose key is the greatest
    obtain ⟨x, hx, hxk⟩ : ∃ x, l[i]? = some x ∧ start x = k := by
      by_cases hc : k = addr ∨ ¬ IsFirstIdx l (fun e => start e = k) 0
      · exact (hA hc).1
      · exact (hB hc).1
    have hxe : k ≤ start e := by
      obtain ⟨j, hj⟩ := List.mem_iff_getElem?.mp hmem
      rw [List.getElem?_drop] at hj
      have hpw := List.pairwise_iff_getElem.mp (sorted_start hs)
      have hil := (List.getElem?_eq_some_iff.mp hx)
      have hjl := (List.getElem?_eq_some_iff.mp hj)
      obtain ⟨hi1, hi2⟩ := hil
      obtain ⟨hj1, hj2⟩ := hjl
      rcases Nat.eq_zero_or_pos j with h0 | h0
      · subst h0
        have : x = e := by
          have h5 := hj
          rw [Nat.add_zero, hx] at h5
          exact Option.some.inj h5
        rw [← this, hxk]
      · have := hpw i (i + j) hi1 hj1 (by omega)
        rw [hi2, hj2, hxk] at this
        exact this
    intro y hy hya
    exact le_trans (hk.2.2 y hy hya) hxe

/-- Without overflow, a lookup finds something exactly if a record with the last start covers
the address. -/
theorem coverLookup_ok {start size : α → Nat} {l : List α} {addr : Nat}
    (hs : SortedBy l (fun e => pairKey (start e) (size e)))
    (ho : ∀ e ∈ l, start e ≤ addr → start e + size e < u64Size) :
    (∃ e, coverLookup start size l addr = .ok (some e)) ∨
    (coverLookup start size l addr = .ok none ∧
      ∀ e ∈ l, IsLastStart start l addr (start e) → ¬ Covers (start e) (size e) addr) := by
  unfold coverLookup
  rcases findMatchOrLowerBound_char l start (sorted_start hs) addr with ⟨h1, h2⟩ | ⟨i, k, h1, hk, hA, hB⟩
  · rw [h1]
    right
    refine ⟨rfl, ?_⟩
    intro e he _
    have := h2 e he
    unfold Covers; omega
  · rw [h1]
    simp only
    have hsub : ∀ e ∈ l.drop i, e ∈ l := fun e he => List.mem_of_mem_drop he
    have hsd : SortedBy (l.drop i) start :=
      List.Pairwise.sublist (List.drop_sublist i l) (sorted_start hs)
    rcases coverScan_ok (l.drop i) (fun e he => ho e (hsub e he)) hsd with ⟨e, _, _, g1, _⟩ | ⟨g1, g2⟩
    · left; exact ⟨e, g1⟩
    · right
      refine ⟨g1, ?_⟩
      intro e he hlast hcov
      have hek : start e = k := by
        have h3 : k ≤ start e := by
          obtain ⟨x, hx, hxk⟩ := hk.2.1
          rw [← hxk]
          exact hlast.2 x hx (by rw [hxk]; exact hk.1)
        have h4 := hk.2.2 e he hlast.1
        exact le_antisymm h4 h3
      obtain ⟨j, hj⟩ := List.mem_iff_getElem?.mp he
      by_cases hc : k = addr ∨ ¬ IsFirstIdx l (fun e => start e = k) 0
      · have hfi := hA hc
        have hij : i ≤ j := by
          by_contra hlt
          exact hfi.2 j e (by omega) hj hek
        have : e ∈ l.drop i := by
          rw [List.mem_iff_getElem?]
          exact ⟨j - i, by rw [List.getElem?_drop, Nat.add_sub_cancel' hij]; exact hj⟩
        exact g2 e this hcov
      · -- the last of the run covers all that the others cover
        obtain ⟨⟨x, hx, hxk⟩, hlastIdx⟩ := hB hc
        have hne : k ≠ addr := fun h => hc (Or.inl h)
        have hij : j ≤ i := by
          by_contra hlt
          exact hlastIdx j e (by omega) hj hek
        have hx' : x ∈ l.drop i := by
          rw [List.mem_iff_getElem?]
          exact ⟨0, by rw [List.getElem?_drop, Nat.add_zero]; exact hx⟩
        apply g2 x hx'
        have hsz : size e ≤ size x := by
          rcases Nat.lt_or_ge j i with h | h
          · have hpw := List.pairwise_iff_getElem.mp hs
            obtain ⟨hj1, hj2⟩ := List.getElem?_eq_some_iff.mp hj
            obtain ⟨hi1, hi2⟩ := List.getElem?_eq_some_iff.mp hx
            have := hpw j i hj1 hi1 h
            rw [hi2, hj2, pairKey_le, hek, hxk] at this
            omega
          · have hij' : i = j := by omega
            subst hij'
            rw [hx] at hj
            rw [Option.some.inj hj]
        rcases hcov with h | h
        · exact absurd (hek.symm.trans h.1) hne
        · right; rw [hxk]; rw [hek] at h; omega

/-- Which of several records with the last start is found: the first (smallest) that covers the
address, if they are not the first records or start at the address; otherwise the last one. -/
theorem coverLookup_which {start size : α → Nat} {l : List α} {addr : Nat} {e : α}
    (hs : SortedBy l (fun e => pairKey (start e) (size e)))
    (ho : ∀ e ∈ l, start e ≤ addr → start e + size e < u64Size)
    (h : coverLookup start size l addr = .ok (some e)) :
    ((start e = addr ∨ ∃ x ∈ l, start x < start e) →
      ∃ pre post, l = pre ++ e :: post ∧ ∀ x ∈ pre, start x = start e → ¬ Covers (start x) (size x) addr) ∧
    (¬ (start e = addr ∨ ∃ x ∈ l, start x < start e) →
      ∃ pre post, l = pre ++ e :: post ∧ ∀ x ∈ post, start e < start x) := by
  obtain ⟨hmem, hcov, hlast⟩ := coverLookup_some hs h
  have hstart := sorted_start hs
  unfold coverLookup at h
  rcases findMatchOrLowerBound_char l start hstart addr with ⟨h1, h2⟩ | ⟨i, k, h1, hk, hA, hB⟩
  · rw [h1] at h; cases h
  rw [h1] at h
  simp only at h
  have hek : start e = k := by
    have h3 : k ≤ start e := by
      obtain ⟨x, hx, hxk⟩ := hk.2.1
      rw [← hxk]
      exact hlast.2 x hx (by rw [hxk]; exact hk.1)
    exact le_antisymm (hk.2.2 e hmem hlast.1) h3
  have hcond : (k = addr ∨ ¬ IsFirstIdx l (fun e => start e = k) 0) ↔
      (start e = addr ∨ ∃ x ∈ l, start x < start e) := by
    rw [hek]
    apply or_congr Iff.rfl
    constructor
    · intro hn
      by_contra hno
      apply hn
      cases l with
      | nil => simp at hmem
      | cons a t =>
        refine ⟨⟨a, rfl, ?_⟩, by intro j e hj; omega⟩
        have h3 : k ≤ start a := by
          by_contra hlt
          exact hno ⟨a, List.mem_cons_self .., by omega⟩
        have h4 : start a ≤ start e := by
          rcases List.mem_cons.mp hmem with rfl | hm
          · exact le_refl _
          · exact (List.pairwise_cons.mp hstart).1 e hm
        exact le_antisymm (hek ▸ h4) h3
    · rintro ⟨x, hx, hlt⟩ ⟨⟨y, hy, hyk⟩, _⟩
      cases l with
      | nil => simp at hmem
      | cons a t =>
        have hya : a = y := by simpa using hy
        subst hya
        have : start a ≤ start x := by
          rcases List.mem_cons.mp hx with rfl | hm
          · exact le_refl _
          · exact (List.pairwise_cons.mp hstart).1 x hm
        omega
  obtain ⟨pre, post, g1, g2, g3⟩ := coverScan_some h
  have hl : l = l.take i ++ (pre ++ e :: post) := by rw [← g1, List.take_append_drop]
  constructor
  · intro hc
    have hfi := hA (hcond.mpr hc)
    refine ⟨l.take i ++ pre, post, by rw [List.append_assoc]; exact hl, ?_⟩
    intro x hx hxe hcx
    rcases List.mem_append.mp hx with hx | hx
    · obtain ⟨j, hj⟩ := List.mem_iff_getElem?.mp hx
      rw [List.getElem?_take] at hj
      split at hj
      · exact hfi.2 j x (by assumption) hj (hxe.trans hek)
      · cases hj
    · have hxl : x ∈ l := by rw [hl]; simp [hx]
      rcases covers_ok (s := start x) (n := size x) (addr := addr) (ho x hxl) with ⟨_, g⟩ | ⟨g, _⟩
      · rw [(g3 x hx).2] at g; cases g
      · exact g hcx
  · intro hc
    obtain ⟨⟨y, hy, hyk⟩, hlastIdx⟩ := hB (fun h => hc (hcond.mp h))
    -- what is found is at index `i`
    have hpre : pre = [] := by
      cases pre with
      | nil => rfl
      | cons a pre =>
        exfalso
        have hidx : l[i + (pre.length + 1)]? = some e := by
          rw [← List.getElem?_drop, g1]
          simp
        exact hlastIdx _ e (by omega) hidx hek
    subst hpre
    refine ⟨l.take i, post, hl, ?_⟩
    intro x hx
    obtain ⟨j, hj⟩ := List.mem_iff_getElem?.mp hx
    have hidx : l[i + (j + 1)]? = some x := by
      rw [← List.getElem?_drop, g1]
      simpa using hj
    have hne := hlastIdx _ x (by omega) hidx
    have hle : start e ≤ start x := by
      have := List.pairwise_append.mp (hl ▸ hstart)
      have h5 := this.2.1
      rw [List.nil_append, List.pairwise_cons] at h5
      exact h5.1 x hx
    rw [hek] at hle ⊢
    omega

/-- The first record examined whose end is beyond the address space makes a lookup panic. -/
theorem coverLookup_panic {start size : α → Nat} {l : List α} {addr : Nat} {e : α}
    (hs : SortedBy l (fun e => pairKey (start e) (size e))) (he : e ∈ l)
    (honly : ∀ x ∈ l, start x = start e → x = e) (hlast : IsLastStart start l addr (start e))
    (hov : u64Size ≤ start e + size e) (hz : ¬ (start e = addr ∧ size e = 0)) :
    coverLookup start size l addr = .error .panic := by
  unfold coverLookup
  rcases findMatchOrLowerBound_char l start (sorted_start hs) addr with ⟨h1, h2⟩ | ⟨i, k, h1, hk, hA, hB⟩
  · have := h2 e he
    have := hlast.1
    omega
  rw [h1]
  simp only
  have hek : start e = k := by
    have h3 : k ≤ start e := by
      obtain ⟨x, hx, hxk⟩ := hk.2.1
      rw [← hxk]
      exact hlast.2 x hx (by rw [hxk]; exact hk.1)
    exact le_antisymm (hk.2.2 e he hlast.1) h3
  obtain ⟨x, hx, hxk⟩ : ∃ x, l[i]? = some x ∧ start x = k := by
    by_cases hc : k = addr ∨ ¬ IsFirstIdx l (fun e => start e = k) 0
    · exact (hA hc).1
    · exact (hB hc).1
  have hxe : x = e := honly x (List.mem_of_getElem? hx) (hxk.trans hek.symm)
  subst hxe
  have hd : l.drop i = x :: l.drop (i + 1) := by
    obtain ⟨hi, hi2⟩ := List.getElem?_eq_some_iff.mp hx
    rw [List.drop_eq_getElem_cons hi, hi2]
  rw [hd]
  unfold coverScan
  rw [if_neg (by have := hlast.1; omega), covers_panic hlast.1 hz hov]

/-! ### Parsed files -/

/-- The data comes from a symbol file. -/
def Loaded (file : SymbolFile) : Prop := ∃ t, fromBytes t = .ok file

theorem loaded_functions {file : SymbolFile} (h : Loaded file) :
    SortedBy file.functions (fun f => pairKey f.addr f.size) := by
  obtain ⟨t, ht⟩ := h
  obtain ⟨rs, _, hd⟩ := C24_parse_sound ht
  obtain ⟨fs, _, h2⟩ := hd.functions
  exact h2.1

theorem loaded_function {file : SymbolFile} (h : Loaded file) {f : Function} (hf : f ∈ file.functions) :
    SortedBy f.lines (fun l => pairKey l.addr l.size) ∧
    SortedBy f.inlinees (fun i => pairKey i.depth i.addr) := by
  obtain ⟨t, ht⟩ := h
  obtain ⟨rs, _, hd⟩ := C24_parse_sound ht
  obtain ⟨fs, h1, h2⟩ := hd.functions
  have hmem : f ∈ fs := by
    have : f ∈ fs.filter (fun e => decide (pairKey e.addr e.size = pairKey f.addr f.size)) := by
      rw [← h2.2]
      exact List.mem_filter.mpr ⟨hf, by simp⟩
    exact (List.mem_filter.mp this).1
  clear h2
  generalize functions rs = l at h1
  induction h1 with
  | nil => simp at hmem
  | cons hab _ ih =>
    rcases List.mem_cons.mp hmem with rfl | hm
    · exact ⟨hab.2.2.2.2.1.1, hab.2.2.2.2.2.1⟩
    · exact ih hm

end Blazesym.Breakpad
