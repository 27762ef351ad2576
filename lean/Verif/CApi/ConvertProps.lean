import Verif.CApi.ConvertLemmas

/-!
# C46: the result buffer of the C interface is exactly filled
-/

set_option autoImplicit false

namespace Blazesym.CApi

open Blazesym.Symbolize

theorem convertResults_spec (alloc : Nat → Option Nat) (ha : GoodAlloc alloc) (results : List Symbolized)
    (hf : ∀ (sym : Sym), .sym sym ∈ results → Sym.Fits sym) (hlayout : bufSize results ≤ 2 ^ 63 - 8) (base : Nat)
    (hb : alloc (bufSize results) = some base) :
    ∃ (m : Mem) (i c : Nat), convertResults alloc results
        = .ok (some (base + 8, ⟨⟨base, bufSize results, m⟩, base + bufSize results, c⟩))
      ∧ NumAt m base 8 (bufSize results) ∧ NumAt m (base + 8) 8 results.length
      ∧ i = base + 8 + 8 + 104 * results.length
      ∧ SymArray m (base + 8 + 8) i c c (base + bufSize results) results := by
  obtain ⟨h0, hpos, hend⟩ := ha _ _ hb
  have hsize : bufSize results = 8 + (sums results).1 + 8 + 104 * results.length + 48 * (sums results).2 := by
    rw [bufSize, totals_eq]
  generalize hbs : bufSize results = bs at *
  obtain ⟨m0, hm0⟩ : ∃ (m : Mem), m = Mem.set (fun _ => none) base (leBytes 8 bs) := ⟨_, rfl⟩
  obtain ⟨m1, hm1⟩ : ∃ (m : Mem), m = m0.set (base + 8) (leBytes 8 results.length) := ⟨_, rfl⟩
  have n0 : NumAt m0 base 8 bs := hm0 ▸ numAt_set _ base 8 bs (by omega)
  have n1 : NumAt m1 (base + 8) 8 results.length := hm1 ▸ numAt_set _ (base + 8) 8 results.length (by omega)
  have s1 (b b' : Nat) (h : b' ≤ base + 8 ∨ base + 16 ≤ b) : Same m0 m1 b b' := hm1 ▸ same_num _ _ _ _ _ _ (by omega)
  obtain ⟨m2, e2, t2, s2⟩ := convertLoop_spec
    (st := ⟨⟨base, bs, m1⟩, base + 8 + (8 + 104 * results.length + 48 * (sums results).2),
            base + 8 + (8 + 104 * results.length)⟩) (last := base + 8 + 8) results
    (by omega) (by simp only; omega) (by simp only; omega) (by simp only; omega) (by simp only; omega)
    (by simp only; omega) hend hf
  simp only at e2 t2 s2
  have hc : base + 8 + (8 + 104 * results.length + 48 * (sums results).2) + (sums results).1 = base + bs := by omega
  have hi : base + 8 + (8 + 104 * results.length) + 48 * (sums results).2
      = base + 8 + (8 + 104 * results.length + 48 * (sums results).2) := by omega
  rw [hc, hi] at e2 t2
  refine ⟨m2, _, _, ?_, ?_, ?_, Nat.add_assoc _ _ _ ▸ rfl, t2⟩
  · rw [convertResults, hbs, allocate, if_neg (by omega), hb]
    simp only [bind, Except.bind, Option.map_some]
    rw [storeNum_eq _ h0 (by simp only; omega) (by simp only; omega)]
    simp only [← hm0]
    rw [storeNum_eq _ (by omega) (by simp only; omega) (by simp only; omega)]
    simp only [totals_eq, ← hm1]
    rw [show symsSize = 8 from rfl, show symSize = 104 from rfl, show inlinedSize = 48 from rfl, e2]
    rfl
  · exact (n0.same (s1 _ _ (by omega))).same (s2 _ _ (by omega) (by omega) (by omega))
  · exact n1.same (s2 _ _ (by omega) (by omega) (by omega))

theorem SymArray.cursors {m : Mem} {results : List Symbolized} {a i i' c c' : Nat}
    (h : SymArray m a i i' c c' results) :
    ∃ (is cs : Nat → Nat), is 0 = i ∧ is results.length = i' ∧ cs 0 = c ∧ cs results.length = c'
      ∧ ∀ (k : Nat), (∀ (sym : Sym), results[k]? = some (.sym sym) →
            SymAt m (a + 104 * k) sym (is k) (cs k) (cs (k + 1)) ∧ is (k + 1) = is k + 48 * sym.inlined.length
              ∧ cs k ≤ cs (k + 1))
          ∧ ∀ (r : Reason), results[k]? = some (.unknown r) →
            UnknownAt m (a + 104 * k) r ∧ is (k + 1) = is k ∧ cs (k + 1) = cs k := by
  induction results generalizing a i c with
  | nil => exact ⟨fun _ => i, fun _ => c, rfl, h.1.symm, rfl, h.2.symm, fun k => ⟨by simp, by simp⟩⟩
  | cons r rest ih =>
    cases r with
    | sym sym =>
      obtain ⟨c₁, h1, h2⟩ := h
      obtain ⟨is, cs, e1, e2, e3, e4, hk⟩ := ih h2
      refine ⟨fun k => if k = 0 then i else is (k - 1), fun k => if k = 0 then c else cs (k - 1), rfl, by simpa using e2,
        rfl, by simpa using e4, fun k => ?_⟩
      cases k with
      | zero =>
        refine ⟨fun s hs => ?_, fun r hr => ?_⟩
        · simp only [List.getElem?_cons_zero, Option.some.injEq, Symbolized.sym.injEq] at hs
          subst hs
          simpa [e1, e3] using ⟨h1, h1.le⟩
        · simp at hr
      | succ k =>
        have := hk k
        simp only [List.getElem?_cons_succ, Nat.add_one_ne_zero, if_false, Nat.add_sub_cancel]
        rw [show a + 104 * (k + 1) = a + 104 + 104 * k by omega]
        exact this
    | unknown r =>
      obtain ⟨h1, h2⟩ := h
      obtain ⟨is, cs, e1, e2, e3, e4, hk⟩ := ih h2
      refine ⟨fun k => if k = 0 then i else is (k - 1), fun k => if k = 0 then c else cs (k - 1), rfl, by simpa using e2,
        rfl, by simpa using e4, fun k => ?_⟩
      cases k with
      | zero =>
        refine ⟨fun s hs => ?_, fun r' hr => ?_⟩
        · simp at hs
        · simp only [List.getElem?_cons_zero, Option.some.injEq, Symbolized.unknown.injEq] at hr
          subst hr
          simpa [e1, e3] using h1
      | succ k =>
        have := hk k
        simp only [List.getElem?_cons_succ, Nat.add_one_ne_zero, if_false, Nat.add_sub_cancel]
        rw [show a + 104 * (k + 1) = a + 104 + 104 * k by omega]
        exact this

/-- **C46**.  Unless memory runs out, converting results neither writes outside the allocation nor through
a misaligned pointer.  In memory there are then the count and, for every result in order, its structure.
The arrays of inlined functions follow the structures one after the other without overlap (`is`), then
come the strings one after the other without overlap (`cs`), and the last string ends where the allocation
ends.
Partial: reserved members are not written (`C46_reserved_wrong`). -/
theorem C46_results_partial (alloc : Nat → Option Nat) (ha : GoodAlloc alloc) (results : List Symbolized)
    (hf : ∀ (sym : Sym), .sym sym ∈ results → Sym.Fits sym) (hlayout : bufSize results ≤ 2 ^ 63 - 8) (base : Nat)
    (hb : alloc (bufSize results) = some base) :
    ∃ (st : Cur), convertResults alloc results = .ok (some (base + 8, st))
      ∧ NumAt st.heap.mem (base + 8) 8 results.length
      ∧ ∃ (is cs : Nat → Nat), is 0 = base + 16 + 104 * results.length ∧ is results.length = cs 0
        ∧ cs results.length = base + bufSize results
        ∧ ∀ (k : Nat), (∀ (sym : Sym), results[k]? = some (.sym sym) →
              SymAt st.heap.mem (base + 16 + 104 * k) sym (is k) (cs k) (cs (k + 1))
                ∧ is (k + 1) = is k + 48 * sym.inlined.length ∧ cs k ≤ cs (k + 1))
            ∧ ∀ (r : Reason), results[k]? = some (.unknown r) →
              UnknownAt st.heap.mem (base + 16 + 104 * k) r ∧ is (k + 1) = is k ∧ cs (k + 1) = cs k := by
  obtain ⟨m, i, c, he, _, hcnt, hi, harr⟩ := convertResults_spec alloc ha results hf hlayout base hb
  obtain ⟨is, cs, e1, e2, e3, e4, hk⟩ := harr.cursors
  exact ⟨_, he, hcnt, is, cs, by rw [e1, hi], by rw [e2, e3], e4, hk⟩

/-- **C46**.  The two ways a conversion can go otherwise: the allocator fails, and `NULL` is returned, or
the buffer would exceed the address space, which is a panic. -/
theorem C46_otherwise (alloc : Nat → Option Nat) (results : List Symbolized) :
    (bufSize results ≤ 2 ^ 63 - 8 → alloc (bufSize results) = none → convertResults alloc results = .ok none)
      ∧ (2 ^ 63 - 8 < bufSize results → convertResults alloc results = .error .badLayout) := by
  constructor
  · intro h hn
    rw [convertResults, allocate, if_neg (by omega), hn]; rfl
  · intro h
    rw [convertResults, allocate, if_pos (by omega)]; rfl

/-- **C46**.  Freeing the result gives back exactly what was allocated; freeing `NULL` does nothing. -/
theorem C46_free (alloc : Nat → Option Nat) (ha : GoodAlloc alloc) (results : List Symbolized)
    (hf : ∀ (sym : Sym), .sym sym ∈ results → Sym.Fits sym) (hlayout : bufSize results ≤ 2 ^ 63 - 8) (base p : Nat)
    (st : Cur) (hb : alloc (bufSize results) = some base) (h : convertResults alloc results = .ok (some (p, st))) :
    symsFree st.heap.mem p = some (some (base, bufSize results)) ∧ symsFree st.heap.mem 0 = some none := by
  obtain ⟨m, i, c, he, hsz, _⟩ := convertResults_spec alloc ha results hf hlayout base hb
  rw [he] at h
  simp only [Except.ok.injEq, Option.some.injEq, Prod.mk.injEq] at h
  obtain ⟨rfl, rfl⟩ := h
  refine ⟨?_, rfl⟩
  simp only [symsFree]
  rw [if_neg (by omega), Nat.add_sub_cancel, show m.num base 8 = some (bufSize results) from hsz]
  rfl

theorem takeWhile_no_nul (s : Bytes) : 0 ∉ s.takeWhile (· != 0) := by
  intro h
  have := List.all_takeWhile (p := fun (b : UInt8) => b != 0) (l := s)
  rw [List.all_eq_true] at this
  simpa using this 0 h

/-- **C46**.  What a C program makes of a string is the original string up to its first NUL, so it is the
original string if that has none. -/
theorem C46_string (m : Mem) (s : Bytes) (c c' : Nat) (h : StrAt m s c c') :
    CString m c (s.takeWhile (· != 0)) ∧ (0 ∉ s → CString m c s) := by
  refine ⟨⟨?_, takeWhile_no_nul s⟩, fun hn => ⟨h.1, hn⟩⟩
  have hd : ∃ (t : Bytes), s ++ [0] = s.takeWhile (· != 0) ++ 0 :: t := by
    cases hdr : s.dropWhile (· != 0) with
    | nil =>
      have := List.takeWhile_append_dropWhile (p := fun (b : UInt8) => b != 0) (l := s)
      rw [hdr, List.append_nil] at this
      exact ⟨[], by rw [this]⟩
    | cons b t =>
      have hb := List.head?_dropWhile_not (fun (b : UInt8) => b != 0) s
      rw [hdr] at hb
      have hb : b = 0 := by simpa using hb
      have := List.takeWhile_append_dropWhile (p := fun (b : UInt8) => b != 0) (l := s)
      rw [hdr, hb] at this
      exact ⟨t ++ [0], by rw [← List.cons_append, ← List.append_assoc, this]⟩
  obtain ⟨t, ht⟩ := hd
  have h1 := h.1
  rw [ht] at h1
  intro i hi
  rw [List.length_append, List.length_singleton] at hi
  rw [h1 i (by rw [List.length_append, List.length_cons]; omega), show s.takeWhile (· != 0) ++ 0 :: t
    = (s.takeWhile (· != 0) ++ [0]) ++ t by simp, List.getElem?_append_left (by simpa using hi)]

/-- A symbol with an inlined function, and an address without symbol. -/
def demoResults : List Symbolized :=
  [.sym ⟨ascii "main", some (ascii "/bin/x"), 0x1000, 4, some 16, some ⟨none, ascii "a.c", some 7, none⟩,
      [⟨ascii "f", none⟩]⟩, .unknown .unmapped]

/-- An allocator whose memory starts at address 64. -/
def demoAlloc (size : Nat) : Option Nat := if 64 + size ≤ 2 ^ 64 then some 64 else none

theorem demoAlloc_good : GoodAlloc demoAlloc := by
  intro size base h
  simp only [demoAlloc] at h
  split at h
  · simp only [Option.some.injEq] at h; omega
  · cases h

/-- The hypotheses of the theorems above are met. -/
example : (∀ (sym : Sym), .sym sym ∈ demoResults → Sym.Fits sym) ∧ bufSize demoResults ≤ 2 ^ 63 - 8
    ∧ demoAlloc (bufSize demoResults) = some 64 := by
  refine ⟨fun sym hs => ?_, by decide +kernel, by decide +kernel⟩
  simp only [demoResults, List.mem_cons, Symbolized.sym.injEq, List.not_mem_nil, or_false, reduceCtorEq] at hs
  subst hs
  refine ⟨by decide, by decide, fun info hi => ?_, fun fn hfn info hi => ?_⟩
  · simp only [Option.some.injEq] at hi; subst hi
    exact ⟨by simp, by simp⟩
  · simp only [List.mem_singleton] at hfn; subst hfn; simp at hi

/-- **C46**, negation for reserved members (finding F45): not every byte of the allocation is written.
The reserved bytes of the structure of a symbol keep whatever the allocator left there. -/
theorem C46_reserved_wrong : ∃ (alloc : Nat → Option Nat) (results : List Symbolized) (p x : Nat) (st : Cur),
    GoodAlloc alloc ∧ convertResults alloc results = .ok (some (p, st))
      ∧ st.heap.base ≤ x ∧ x < st.heap.base + st.heap.size ∧ st.heap.mem x = none := by
  have h : (match convertResults demoAlloc demoResults with
      | .ok (some (_, st)) => decide (st.heap.base ≤ 64 + 16 + 89) && decide (64 + 16 + 89 < st.heap.base + st.heap.size)
          && (st.heap.mem (64 + 16 + 89)).isNone
      | _ => false) = true := by decide +kernel
  split at h
  · rename_i p st he
    simp only [Bool.and_eq_true, decide_eq_true_eq, Option.isNone_iff_eq_none] at h
    exact ⟨demoAlloc, demoResults, p, _, st, demoAlloc_good, he, h.1.1, h.1.2, h.2⟩
  · cases h

end Blazesym.CApi
