import Verif.Breakpad.LookupProps
import Mathlib.Data.List.Nodup
import Mathlib.Data.List.Perm.Subperm

/-! Lemmas about the inlined calls at an address. -/

set_option autoImplicit false

namespace Blazesym.Breakpad
open Blazesym.Util Blazesym.Spec Blazesym.Spec.Breakpad Blazesym.Symbolize

theorem compare_pair_lt {a b c d : Nat} : compare (pairKey a b) (pairKey c d) = .lt ↔ a < c ∨ (a = c ∧ b < d) := by
  rw [compare_lt_iff_lt]
  unfold pairKey
  rw [Prod.Lex.toLex_lt_toLex]

theorem compare_pair_gt {a b c d : Nat} : compare (pairKey a b) (pairKey c d) = .gt ↔ c < a ∨ (c = a ∧ d < b) := by
  rw [compare_gt_iff_gt]
  unfold pairKey
  rw [Prod.Lex.toLex_lt_toLex]

theorem compare_pair_eq {a b c d : Nat} : compare (pairKey a b) (pairKey c d) = .eq ↔ a = c ∧ b = d := by
  rw [compare_eq_iff_eq, pairKey_inj]

/-- The record the binary search comes up with: one with the greatest key not above the one
asked for; none if there is no such record. -/
theorem candidate_spec {f : Function} (hs : SortedBy f.inlinees (fun i => pairKey i.depth i.addr))
    (depth addr : Nat) :
    (∃ x, f.candidate depth addr = some x ∧ x ∈ f.inlinees ∧
      pairKey x.depth x.addr ≤ pairKey depth addr ∧
      ∀ y ∈ f.inlinees, pairKey y.depth y.addr ≤ pairKey depth addr →
        pairKey y.depth y.addr ≤ pairKey x.depth x.addr) ∨
    f.candidate depth addr = none ∧
      ∀ y ∈ f.inlinees, ¬ pairKey y.depth y.addr ≤ pairKey depth addr := by
  unfold Function.candidate
  generalize f.inlinees = l at hs ⊢
  have hc := binarySearchBy_contract l _ (cmpSorted_of_sortedBy l _ hs (pairKey depth addr))
  generalize binarySearchBy l (fun i => compare (pairKey i.depth i.addr) (pairKey depth addr)) = r at hc ⊢
  rcases r with i | i
  · obtain ⟨x, hx, hxe⟩ := hc
    rw [compare_pair_eq] at hxe
    left
    refine ⟨x, hx, List.mem_of_getElem? hx, ?_, ?_⟩
    · rw [hxe.1, hxe.2]
    · intro y _ hy
      rw [hxe.1, hxe.2]; exact hy
  · obtain ⟨h1, h2, h3⟩ := hc
    cases i with
    | zero =>
      right
      refine ⟨rfl, ?_⟩
      intro y hy hle
      obtain ⟨j, hj⟩ := List.mem_iff_getElem?.mp hy
      have := h3 j y (Nat.zero_le _) hj
      rw [compare_gt_iff_gt] at this
      exact absurd hle (not_le_of_gt this)
    | succ i =>
      left
      have hil : i < l.length := by omega
      refine ⟨l[i], List.getElem?_eq_getElem hil, List.getElem_mem _, ?_, ?_⟩
      · have := h2 i _ (by omega) (List.getElem?_eq_getElem hil)
        rw [compare_lt_iff_lt] at this
        exact le_of_lt this
      · intro y hy hle
        obtain ⟨j, hj⟩ := List.mem_iff_getElem?.mp hy
        have hji : j ≤ i := by
          by_contra hlt
          have := h3 j y (by omega) hj
          rw [compare_gt_iff_gt] at this
          exact absurd hle (not_le_of_gt this)
        obtain ⟨hj1, hj2⟩ := List.getElem?_eq_some_iff.mp hj
        rcases Nat.lt_or_ge j i with h | h
        · have := List.pairwise_iff_getElem.mp hs j i hj1 hil h
          rw [hj2] at this
          exact this
        · have : i = j := by omega
          subst this
          rw [hj2]

theorem findInlineeAtDepth_some {f : Function} (hs : SortedBy f.inlinees (fun i => pairKey i.depth i.addr))
    {depth addr : Nat} {e : Inlinee} (h : f.findInlineeAtDepth depth addr = some e) :
    e ∈ f.inlinees ∧ e.depth = depth ∧ Contains e addr ∧ e.addr + e.size < 2 ^ 64 ∧
    ∀ e' ∈ f.inlinees, e'.depth = depth → e'.addr ≤ addr → e'.addr ≤ e.addr := by
  unfold Function.findInlineeAtDepth at h
  rcases candidate_spec hs depth addr with ⟨x, hx, hm, hle, hmax⟩ | ⟨hx, _⟩
  · rw [hx] at h
    simp only at h
    split at h
    · cases h
    · rename_i hd
      have hd : x.depth = depth := by simpa using hd
      split at h
      · rename_i hf
        split at h
        · rename_i hlt
          have h' : x = e := by simpa using h
          subst h'
          rw [pairKey_le] at hle
          refine ⟨hm, hd, ⟨by omega, hlt⟩, hf, ?_⟩
          intro e' he' hd' ha'
          have := hmax e' he' (by rw [pairKey_le]; omega)
          rw [pairKey_le] at this
          omega
        · cases h
      · cases h
  · rw [hx] at h; cases h

/-- If the record is not found, then none that contains the address has the nearest start of its
depth and is the only one to do so. -/
theorem findInlineeAtDepth_complete {f : Function} (hs : SortedBy f.inlinees (fun i => pairKey i.depth i.addr))
    {addr : Nat} {e : Inlinee} (he : e ∈ f.inlinees) (hc : Contains e addr)
    (hfit : e.addr + e.size < 2 ^ 64)
    (honly : ∀ e' ∈ f.inlinees, e'.depth = e.depth → e.addr ≤ e'.addr → e'.addr ≤ addr → e' = e) :
    f.findInlineeAtDepth e.depth addr = some e := by
  unfold Function.findInlineeAtDepth
  have hle : pairKey e.depth e.addr ≤ pairKey e.depth addr := by
    rw [pairKey_le]; exact Or.inr ⟨rfl, hc.1⟩
  rcases candidate_spec hs e.depth addr with ⟨x, hx, hm, hxle, hmax⟩ | ⟨_, hno⟩
  · have h1 := hmax e he hle
    rw [pairKey_le] at h1 hxle
    have hxe : x = e := honly x hm (by omega) (by omega) (by omega)
    rw [hx, hxe]
    simp only [ne_eq, not_true_eq_false, if_false]
    rw [if_pos (show e.addr + e.size < u64Size from hfit), if_pos hc.2]
  · exact absurd hle (hno e he)

theorem nodup_depths_le {l m : List Inlinee} (hsub : ∀ e ∈ l, e ∈ m)
    (hd : ∀ (i : Nat) e, l[i]? = some e → e.depth = i) : l.length ≤ m.length := by
  have hn : l.Nodup := by
    rw [List.Nodup, List.pairwise_iff_getElem]
    intro i j hi hj hij heq
    have h1 := hd i _ (List.getElem?_eq_getElem hi)
    have h2 := hd j _ (List.getElem?_eq_getElem hj)
    rw [heq] at h1
    omega
  exact (List.subperm_of_subset hn hsub).length_le

/-- The loop from a chain found so far on. -/
theorem findInlineesLoop_spec {f : Function} (hs : SortedBy f.inlinees (fun i => pairKey i.depth i.addr))
    (addr : Nat) (fuel : Nat) (acc : List Inlinee) (hlen : f.inlinees.length < 2 ^ 32)
    (hacc : ∀ (i : Nat) e, acc[i]? = some e → f.findInlineeAtDepth i addr = some e)
    (hfuel : f.inlinees.length < fuel + acc.length) :
    ∃ out, f.findInlineesLoop addr fuel acc = out ∧
      (∀ (i : Nat) e, out[i]? = some e → f.findInlineeAtDepth i addr = some e) ∧
      f.findInlineeAtDepth out.length addr = none := by
  have hle : acc.length ≤ f.inlinees.length := by
    apply nodup_depths_le
    · intro e he
      obtain ⟨j, hj⟩ := List.mem_iff_getElem?.mp he
      exact (findInlineeAtDepth_some hs (hacc j e hj)).1
    · intro i e hi
      exact (findInlineeAtDepth_some hs (hacc i e hi)).2.1
  induction fuel generalizing acc with
  | zero => omega
  | succ fuel ih =>
    unfold Function.findInlineesLoop
    have hmod : acc.length % u32Size = acc.length := Nat.mod_eq_of_lt (by
      unfold u32Size
      omega)
    rw [hmod]
    cases hd : f.findInlineeAtDepth acc.length addr with
    | none => exact ⟨acc, rfl, hacc, hd⟩
    | some e =>
      simp only
      have hacc' : ∀ (i : Nat) x, (acc ++ [e])[i]? = some x → f.findInlineeAtDepth i addr = some x := by
        intro i x hx
        rcases Nat.lt_trichotomy i acc.length with h | h | h
        · rw [List.getElem?_append_left h] at hx
          exact hacc i x hx
        · subst h
          rw [List.getElem?_append_right (le_refl _)] at hx
          simp only [Nat.sub_self, List.getElem?_cons_zero, Option.some.injEq] at hx
          rw [← hx]; exact hd
        · rw [List.getElem?_eq_none (by simp; omega)] at hx
          cases hx
      apply ih (acc ++ [e]) hacc' (by simp; omega)
      apply nodup_depths_le
      · intro x hx
        obtain ⟨j, hj⟩ := List.mem_iff_getElem?.mp hx
        exact (findInlineeAtDepth_some hs (hacc' j x hj)).1
      · intro i x hi
        exact (findInlineeAtDepth_some hs (hacc' i x hi)).2.1

/-- The chain consists of what is found at depths 0, 1, ..., up to the first depth at which nothing
is found.  In particular, the loop ends by itself, not for lack of fuel. -/
theorem findInlinees_spec {f : Function} (hs : SortedBy f.inlinees (fun i => pairKey i.depth i.addr))
    (addr : Nat) (hlen : f.inlinees.length < 2 ^ 32) :
    (∀ (i : Nat) e, (f.findInlinees addr)[i]? = some e → f.findInlineeAtDepth i addr = some e) ∧
      f.findInlineeAtDepth (f.findInlinees addr).length addr = none := by
  obtain ⟨out, h1, h2, h3⟩ := findInlineesLoop_spec hs addr (f.inlinees.length + 1) [] hlen
    (by simp) (by simp)
  unfold Function.findInlinees
  rw [h1]
  exact ⟨h2, h3⟩

/-- More fuel does not change the chain. -/
theorem findInlineesLoop_fuel {f : Function} (hs : SortedBy f.inlinees (fun i => pairKey i.depth i.addr))
    (addr : Nat) (hlen : f.inlinees.length < 2 ^ 32) (more : Nat) :
    f.findInlineesLoop addr (f.inlinees.length + 1 + more) [] = f.findInlinees addr := by
  obtain ⟨out, h1, h2, h3⟩ := findInlineesLoop_spec hs addr (f.inlinees.length + 1 + more) [] hlen
    (by simp) (by simp; omega)
  obtain ⟨g2, g3⟩ := findInlinees_spec hs addr hlen
  rw [h1]
  apply List.ext_getElem?
  intro i
  by_contra hne
  have key : ∀ (a b : List Inlinee),
      (∀ (i : Nat) e, a[i]? = some e → f.findInlineeAtDepth i addr = some e) →
      (∀ (i : Nat) e, b[i]? = some e → f.findInlineeAtDepth i addr = some e) →
      f.findInlineeAtDepth a.length addr = none → b.length ≤ a.length := by
    intro a b ha hb hn
    by_contra hlt
    have hlt : a.length < b.length := by omega
    have := hb a.length _ (List.getElem?_eq_getElem hlt)
    rw [hn] at this
    cases this
  have hlen1 := key _ _ h2 g2 h3
  have hlen2 := key _ _ g2 h2 g3
  apply hne
  cases ho : out[i]? with
  | none =>
    rw [List.getElem?_eq_none_iff] at ho
    rw [eq_comm, List.getElem?_eq_none_iff]
    omega
  | some x =>
    have hi := (List.getElem?_eq_some_iff.mp ho).1
    have hi' : i < (f.findInlinees addr).length := by omega
    have e1 := h2 i x ho
    have e2 := g2 i _ (List.getElem?_eq_getElem hi')
    rw [List.getElem?_eq_getElem hi', ← e1, ← e2]

/-- The exchange of locations along the chain, from an already processed part on. -/
theorem inlinedLoop_eq (file : SymbolFile) (chain : List Inlinee) {names : List Bytes} {sites : List CodeInfo}
    (hn : List.Forall₂ (fun i n => file.findInlineeName i.originId = .ok n) chain names)
    (hs : List.Forall₂ (fun i ci => file.codeInfo i.callFile i.callLine = .ok ci) chain sites)
    (direct : CodeInfo) (inlined : List InlinedFn)
    (before : List CodeInfo) (here : CodeInfo)
    (hb : some direct :: inlined.map InlinedFn.codeInfo = (before ++ [here]).map some) :
    ∃ direct' inlined', file.inlinedLoop chain direct inlined = .ok (direct', inlined') ∧
      inlined'.map InlinedFn.name = inlined.map InlinedFn.name ++ names ∧
      some direct' :: inlined'.map InlinedFn.codeInfo = (before ++ sites ++ [here]).map some := by
  induction hn generalizing sites direct inlined before with
  | nil =>
    cases hs
    exact ⟨direct, inlined, rfl, by simp, by simpa using hb⟩
  | @cons i n chain names hi hrest ih =>
    cases hs with
    | @cons _ ci _ sites hci hs =>
      unfold SymbolFile.inlinedLoop
      rw [hi]
      simp only
      rw [hci]
      simp only
      cases hl : inlined.getLast? with
      | none =>
        simp only
        rw [List.getLast?_eq_none_iff] at hl
        subst hl
        obtain ⟨d', i', g1, g2, g3⟩ := ih hs ci ([] ++ [⟨n, some direct⟩]) (before ++ [ci]) (by
          have : before = [] ∧ here = direct := by
            cases before with
            | nil => simpa [eq_comm] using hb
            | cons a t => simp at hb
          obtain ⟨rfl, rfl⟩ := this
          rfl)
        exact ⟨d', i', g1, by simpa using g2, by simpa using g3⟩
      | some last =>
        simp only
        have hsplit : inlined = inlined.dropLast ++ [last] :=
          (List.dropLast_append_getLast? last hl).symm
        generalize inlined.dropLast = init at hsplit ⊢
        subst hsplit
        have hb' : some direct :: init.map InlinedFn.codeInfo = before.map some ∧
            last.codeInfo = some here := by
          rw [List.map_append, List.map_append, ← List.cons_append] at hb
          have := List.append_inj' hb rfl
          exact ⟨this.1, by simpa using this.2⟩
        obtain ⟨d', i', g1, g2, g3⟩ := ih hs direct
          (init ++ [{ last with codeInfo := some ci }, ⟨n, last.codeInfo⟩]) (before ++ [ci]) (by
            rw [List.map_append, ← List.cons_append, hb'.1]
            simp [hb'.2])
        exact ⟨d', i', g1, by simpa using g2, by simpa using g3⟩

end Blazesym.Breakpad
