import Verif.CApi.InspectSpec
import Verif.CApi.ConvertLemmas

/-!
# C46: the result buffers of symbol lookup and of normalization
-/

set_option autoImplicit false

namespace Blazesym.CApi

open Blazesym.Symbolize

theorem Holds.left {m : Mem} {a : Nat} {bs bs' : Bytes} (h : Holds m a (bs ++ bs')) : Holds m a bs := by
  intro i hi
  rw [h i (by rw [List.length_append]; omega), List.getElem?_append_left hi]

theorem Holds.right {m : Mem} {a : Nat} {bs bs' : Bytes} (h : Holds m a (bs ++ bs')) :
    Holds m (a + bs.length) bs' := by
  intro i hi
  rw [Nat.add_assoc, h (bs.length + i) (by rw [List.length_append]; omega),
    List.getElem?_append_right (by omega), Nat.add_sub_cancel_left]

theorem symInfoBytes_length (a b c d e f : Nat) : (symInfoBytes a b c d e f).length = 64 := by
  simp [symInfoBytes, leBytes_length]

theorem symInfoBytes_fields {m : Mem} {x a b c d e f : Nat} (h : Holds m x (symInfoBytes a b c d e f))
    (ha : a < 256 ^ 8) (hb : b < 256 ^ 8) (hc : c < 256 ^ 8) (hd : d < 256 ^ 8) (he : e < 256 ^ 8) (hf : f < 256 ^ 1) :
    NumAt m x 8 a ∧ NumAt m (x + 8) 8 b ∧ NumAt m (x + 16) 8 c ∧ NumAt m (x + 24) 8 d ∧ NumAt m (x + 32) 8 e
      ∧ NumAt m (x + 40) 1 f ∧ Holds m (x + 41) (List.replicate 23 0) := by
  unfold symInfoBytes at h
  have h7 := h.right
  have h6 := h.left.right
  have h5 := h.left.left.right
  have h4 := h.left.left.left.right
  have h3 := h.left.left.left.left.right
  have h2 := h.left.left.left.left.left.right
  have h1 := h.left.left.left.left.left.left
  simp only [List.length_append, leBytes_length] at h2 h3 h4 h5 h6 h7
  exact ⟨num_of_holds _ _ _ _ ha h1, num_of_holds _ _ _ _ hb h2, num_of_holds _ _ _ _ hc h3,
    num_of_holds _ _ _ _ hd h4, num_of_holds _ _ _ _ he h5, num_of_holds _ _ _ _ hf h6, h7⟩

theorem putAll_eq {st : Cur} {a : Nat} {bs : Bytes} (h0 : a % 8 = 0) (h1 : st.heap.base ≤ a)
    (h2 : a + bs.length ≤ st.heap.base + st.heap.size) :
    putAll st a bs = .ok { st with heap := { st.heap with mem := st.heap.mem.set a bs } } := by
  rw [putAll, if_neg (by simpa using h0), store_eq h1 h2]; rfl

theorem SymInfoAt.le {m : Mem} {a : Nat} {info : SymInfo} {c c' : Nat} (h : SymInfoAt m a info c c') : c ≤ c' := by
  obtain ⟨c₁, _, _, h1, _, _, _, _, h2, _⟩ := h
  have := h1.2.2
  have := h2.le
  omega

theorem SymInfoAt.same {m m' : Mem} {a : Nat} {info : SymInfo} {c c' : Nat} (h : SymInfoAt m a info c c')
    (ha : Same m m' a (a + 64)) (hs : Same m m' c c') : SymInfoAt m' a info c c' := by
  obtain ⟨c₁, size, code, h1, h2, h3, h4, h5, h6, h7, h8, h9⟩ := h
  have := h1.2.2
  have := h6.le
  exact ⟨c₁, size, code, h1.same (ha.sub (by omega) (by omega)) (hs.sub (by omega) (by omega)),
    h2.same (ha.sub (by omega) (by omega)), h3.same (ha.sub (by omega) (by omega)), h4,
    h5.same (ha.sub (by omega) (by omega)), h6.same (ha.sub (by omega) (by omega)) (hs.sub (by omega) (by omega)),
    h7.same (ha.sub (by omega) (by omega)), h8, h9.same (ha.sub (by omega) (by simp))⟩

theorem SymInfoArray.le {m : Mem} {infos : List SymInfo} {a a' c c' : Nat} (h : SymInfoArray m a a' c c' infos) :
    c ≤ c' ∧ a ≤ a' := by
  induction infos generalizing a c with
  | nil => exact ⟨le_of_eq h.2.2.symm, by have := h.2.1; omega⟩
  | cons info infos ih =>
    obtain ⟨c₁, h1, h2⟩ := h
    have := ih h2
    exact ⟨h1.le.trans this.1, by omega⟩

theorem SymInfoArray.same {m m' : Mem} {infos : List SymInfo} {a a' c c' : Nat} (h : SymInfoArray m a a' c c' infos)
    (ha : Same m m' a a') (hs : Same m m' c c') : SymInfoArray m' a a' c c' infos := by
  induction infos generalizing a c with
  | nil => exact ⟨h.1.same (ha.sub le_rfl (by have := h.2.1; simp; omega)), h.2⟩
  | cons info infos ih =>
    obtain ⟨c₁, h1, h2⟩ := h
    have h2l := h2.le
    exact ⟨c₁, h1.same (ha.sub le_rfl (by omega)) (hs.sub le_rfl h2l.1),
      ih h2 (ha.sub (by omega) le_rfl) (hs.sub h1.le le_rfl)⟩

theorem typeCode (t : Elf.SymType) : TypeCode t (symTypeCode t) ∧ symTypeCode t < 256 ^ 1 := by
  cases t <;> simp [TypeCode, symTypeCode]

theorem convertInfos_spec {st : Cur} (infos : List SymInfo) (h0 : st.inl % 8 = 0) (h1 : st.heap.base ≤ st.inl)
    (h2 : st.inl + 64 * (infos.length + 1) ≤ st.cstr)
    (h3 : st.cstr + (infos.map symInfoStrSize).sum ≤ st.heap.base + st.heap.size)
    (h4 : st.heap.base + st.heap.size ≤ 2 ^ 64) (hf : ∀ (info : SymInfo), info ∈ infos → SymInfo.Fits info) :
    ∃ (m : Mem), (do
        let st ← convertInfos st infos
        putAll st st.inl (symInfoBytes 0 0 0 0 0 (symTypeCode .undefined)))
        = .ok { heap := { st.heap with mem := m }, cstr := st.cstr + (infos.map symInfoStrSize).sum,
                inl := st.inl + 64 * infos.length }
      ∧ SymInfoArray m st.inl (st.inl + 64 * (infos.length + 1)) st.cstr (st.cstr + (infos.map symInfoStrSize).sum) infos
      ∧ ∀ (b b' : Nat), b' ≤ st.inl ∨ st.inl + 64 * (infos.length + 1) ≤ b →
          b' ≤ st.cstr ∨ st.cstr + (infos.map symInfoStrSize).sum ≤ b → Same st.heap.mem m b b' := by
  induction infos generalizing st with
  | nil =>
    simp only [List.map_nil, List.sum_nil, List.length_nil, Nat.add_zero, Nat.zero_add, Nat.mul_one] at *
    refine ⟨st.heap.mem.set st.inl (symInfoBytes 0 0 0 0 0 (symTypeCode .undefined)), ?_, ⟨?_, rfl, rfl⟩, ?_⟩
    · simp only [convertInfos, bind, Except.bind]
      rw [putAll_eq h0 h1 (by rw [symInfoBytes_length]; omega)]
      simp
    · have := holds_set st.heap.mem st.inl (symInfoBytes 0 0 0 0 0 (symTypeCode .undefined))
      have hz : symInfoBytes 0 0 0 0 0 (symTypeCode .undefined) = List.replicate 64 0 := by decide
      rw [hz] at this ⊢
      exact this
    · intro b b' hb _
      exact same_set _ _ _ _ _ (by rw [symInfoBytes_length]; omega)
  | cons info infos ih =>
    rw [List.map_cons, List.sum_cons, List.length_cons] at *
    have hsz : symInfoStrSize info = strSize info.name + optSize strSize info.module := rfl
    obtain ⟨hfa, hfo⟩ := hf info (by simp)
    obtain ⟨m1, e1, t1, s1⟩ := makeCStr_spec (st := st) info.name (by omega) (by omega)
    have hpos : 0 < strSize info.name := by simp [strSize]
    generalize strSize info.name = n1 at *
    obtain ⟨m2, p2, e2, l2, r2, s2⟩ := makeOptCStr_spec
      (st := { st with heap := { st.heap with mem := m1 }, cstr := st.cstr + n1 }) info.module
      (by simp only; omega) (by simp only; omega) h4
    generalize optSize strSize info.module = n2 at *
    simp only at e2 r2 s2
    obtain ⟨hsize, hsize'⟩ := cSize_spec info.size
    generalize hcs : cSize info.size = sz at *
    obtain ⟨hcode, hcode'⟩ := typeCode info.symType
    generalize hct : symTypeCode info.symType = code at *
    have hoff : info.fileOffset.getD 0 < 256 ^ 8 := by
      cases ho : info.fileOffset with
      | none => simp
      | some n => have := hfo n ho; simp only [Option.getD_some]; omega
    generalize hot : info.fileOffset.getD 0 = off at *
    obtain ⟨m3, hm3⟩ : ∃ (m : Mem), m = m2.set st.inl (symInfoBytes st.cstr info.addr sz off p2 code) := ⟨_, rfl⟩
    have S3 (b b' : Nat) (h : b' ≤ st.inl ∨ st.inl + 64 ≤ b) : Same m2 m3 b b' :=
      hm3 ▸ same_set _ _ _ _ _ (by rw [symInfoBytes_length]; exact h)
    obtain ⟨f1, f2, f3, f4, f5, f6, f7⟩ := symInfoBytes_fields (hm3 ▸ holds_set m2 st.inl _) (by omega) (by omega)
      hsize' hoff l2 hcode'
    obtain ⟨m5, e5, t5, s5⟩ := ih
      (st := { heap := { st.heap with mem := m3 }, cstr := st.cstr + n1 + n2, inl := st.inl + 64 })
      (by simp only; omega) (by simp only; omega) (by simp only; omega) (by simp only; omega) h4
      (fun g hg => hf g (by simp [hg]))
    simp only at e5 t5 s5
    refine ⟨m5, ?_, ⟨st.cstr + n1 + n2, ?_, ?_⟩, ?_⟩
    · rw [convertInfos]
      simp only [bind, Except.bind] at e5 ⊢
      rw [e1]
      simp only
      rw [e2]
      simp only [hcs, hct, hot]
      rw [putAll_eq h0 (by simp only; omega) (by rw [symInfoBytes_length]; simp only; omega)]
      simp only [← hm3]
      rw [show symInfoSize = 64 from rfl, e5]
      simp only [Except.ok.injEq, Cur.mk.injEq, true_and]
      omega
    · refine SymInfoAt.same (m := m3) ⟨st.cstr + n1, sz, code, ⟨f1, t1.same ?_⟩, f2, f3, hsize, ?_, ?_, f6, hcode, f7⟩
        (s5 _ _ (by omega) (by omega)) (s5 _ _ (by omega) (by omega))
      · exact (s2 _ _ (by omega)).trans (S3 _ _ (by omega))
      · rw [hot]; exact f4
      · exact r2 _ _ f5 (S3 _ _ (by omega))
    · rw [show st.cstr + (symInfoStrSize info + (infos.map symInfoStrSize).sum)
        = st.cstr + n1 + n2 + (infos.map symInfoStrSize).sum by omega,
        show st.inl + 64 * (infos.length + 1 + 1) = st.inl + 64 + 64 * (infos.length + 1) by omega]
      exact t5
    · intro b b' hb hb'
      exact (((s1 _ _ (by omega)).trans (s2 _ _ (by omega))).trans (S3 _ _ (by omega))).trans
        (s5 _ _ (by omega) (by omega))

theorem convertLists_spec {st : Cur} {ptr : Nat} (lists : List (List SymInfo)) (hp : ptr % 8 = 0)
    (hp1 : st.heap.base ≤ ptr) (hp2 : ptr + 8 * lists.length ≤ st.inl)
    (h0 : st.inl % 8 = 0) (h2 : st.inl + 64 * infoCount lists ≤ st.cstr)
    (h3 : st.cstr + listsStrSize lists ≤ st.heap.base + st.heap.size)
    (h4 : st.heap.base + st.heap.size ≤ 2 ^ 64)
    (hf : ∀ (infos : List SymInfo), infos ∈ lists → ∀ (info : SymInfo), info ∈ infos → SymInfo.Fits info) :
    ∃ (m : Mem), convertLists st ptr lists
        = .ok { heap := { st.heap with mem := m }, cstr := st.cstr + listsStrSize lists,
                inl := st.inl + 64 * infoCount lists }
      ∧ ListArray m ptr st.inl (st.inl + 64 * infoCount lists) st.cstr (st.cstr + listsStrSize lists) lists
      ∧ ∀ (b b' : Nat), b' ≤ ptr ∨ ptr + 8 * lists.length ≤ b → b' ≤ st.inl ∨ st.inl + 64 * infoCount lists ≤ b →
          b' ≤ st.cstr ∨ st.cstr + listsStrSize lists ≤ b → Same st.heap.mem m b b' := by
  induction lists generalizing st ptr with
  | nil => exact ⟨st.heap.mem, rfl, ⟨rfl, rfl⟩, fun b b' _ _ _ => Same.refl _ _ _⟩
  | cons infos rest ih =>
    have hc : infoCount (infos :: rest) = infos.length + 1 + infoCount rest := rfl
    have hs : listsStrSize (infos :: rest) = (infos.map symInfoStrSize).sum + listsStrSize rest := rfl
    rw [List.length_cons] at *
    rw [hc] at h2 ⊢
    rw [hs] at h3 ⊢
    obtain ⟨m1, hm1⟩ : ∃ (m : Mem), m = st.heap.mem.set ptr (leBytes 8 st.inl) := ⟨_, rfl⟩
    have N1 : NumAt m1 ptr 8 st.inl := hm1 ▸ numAt_set _ _ _ _ (by omega)
    have S1 (b b' : Nat) (h : b' ≤ ptr ∨ ptr + 8 ≤ b) : Same st.heap.mem m1 b b' := hm1 ▸ same_num _ _ _ _ _ _ h
    obtain ⟨m2, e2, t2, s2⟩ := convertInfos_spec (st := { st with heap := { st.heap with mem := m1 } }) infos h0
      (by simp only; omega) (by simp only; omega) (by simp only; omega) h4 (hf infos (by simp))
    simp only at e2 t2 s2
    generalize (infos.map symInfoStrSize).sum = n at *
    obtain ⟨m3, e3, t3, s3⟩ := ih
      (st := { heap := { st.heap with mem := m2 }, cstr := st.cstr + n, inl := st.inl + 64 * (infos.length + 1) })
      (ptr := ptr + 8) (by omega) (by simp only; omega) (by simp only; omega) (by simp only; omega) (by simp only; omega)
      (by simp only; omega) h4 (fun g hg => hf g (by simp [hg]))
    simp only at e3 t3 s3
    refine ⟨m3, ?_, ⟨st.inl + 64 * (infos.length + 1), st.cstr + n, ?_, ?_, ?_⟩, ?_⟩
    · rw [convertLists, put_eq _ hp hp1 (by omega)]
      simp only [bind, Except.bind] at e2 ⊢
      simp only [← hm1]
      cases hi : convertInfos { st with heap := { st.heap with mem := m1 } } infos with
      | error e => rw [hi] at e2; simp at e2
      | ok st' =>
        rw [hi] at e2
        simp only at e2 ⊢
        rw [e2]
        simp only
        rw [show st.inl + 64 * infos.length + symInfoSize = st.inl + 64 * (infos.length + 1) by simp only [symInfoSize]; omega, e3]
        simp only [Except.ok.injEq, Cur.mk.injEq, true_and]
        omega
    · exact N1.same ((s2 _ _ (by omega) (by omega)).trans (s3 _ _ (by omega) (by omega) (by omega)))
    · exact t2.same (s3 _ _ (by omega) (by omega) (by omega)) (s3 _ _ (by omega) (by omega) (by omega))
    · rw [show st.inl + 64 * (infos.length + 1 + infoCount rest)
        = st.inl + 64 * (infos.length + 1) + 64 * infoCount rest by omega, ← Nat.add_assoc]
      exact t3
    · intro b b' hb hb' hb''
      exact ((S1 _ _ (by omega)).trans (s2 _ _ (by omega) (by omega))).trans (s3 _ _ (by omega) (by omega) (by omega))

/-- **C46**.  Unless memory runs out, converting looked up symbols neither writes outside the allocation
nor through a misaligned pointer.  For every name in order there is then a pointer to an array of its
symbols that ends with zeros.  The arrays follow the pointers one after the other, then come the strings
one after the other, and the last string ends where the allocation ends.  Freeing the result gives back
exactly what was allocated. -/
theorem C46_symbol_lists (alloc : Nat → Option Nat) (ha : GoodAlloc alloc) (lists : List (List SymInfo))
    (hf : ∀ (infos : List SymInfo), infos ∈ lists → ∀ (info : SymInfo), info ∈ infos → SymInfo.Fits info)
    (hlayout : listsBufSize lists ≤ 2 ^ 63 - 8) (base : Nat) (hb : alloc (listsBufSize lists) = some base) :
    ∃ (st : Cur) (c : Nat), convertSymLists alloc lists = .ok (some (base + 8, st))
      ∧ ListArray st.heap.mem (base + 8) (base + 8 + 8 * lists.length) c c (base + listsBufSize lists) lists
      ∧ symsFree st.heap.mem (base + 8) = some (some (base, listsBufSize lists)) := by
  obtain ⟨h0, hpos, hend⟩ := ha _ _ hb
  have harr : arraySize lists = 8 * lists.length := by simp only [arraySize]; omega
  have hsize : listsBufSize lists = 8 + 8 * lists.length + 64 * infoCount lists + listsStrSize lists := by
    rw [listsBufSize, harr]
  generalize hbs : listsBufSize lists = bs at *
  obtain ⟨m0, hm0⟩ : ∃ (m : Mem), m = Mem.set (fun _ => none) base (leBytes 8 bs) := ⟨_, rfl⟩
  have n0 : NumAt m0 base 8 bs := hm0 ▸ numAt_set _ base 8 bs (by omega)
  obtain ⟨m2, e2, t2, s2⟩ := convertLists_spec
    (st := ⟨⟨base, bs, m0⟩, base + 8 + (8 * lists.length + 64 * infoCount lists), base + 8 + 8 * lists.length⟩)
    (ptr := base + 8) lists
    (by omega) (by simp only; omega) (by simp only; omega) (by simp only; omega) (by simp only; omega)
    (by simp only; omega) hend hf
  simp only at e2 t2 s2
  refine ⟨⟨⟨base, bs, m2⟩, base + bs, base + 8 + (8 * lists.length + 64 * infoCount lists)⟩,
    base + 8 + (8 * lists.length + 64 * infoCount lists), ?_, ?_, ?_⟩
  · rw [convertSymLists, hbs, allocate, if_neg (by omega), hb]
    simp only [bind, Except.bind, Option.map_some]
    rw [storeNum_eq _ h0 (by simp only; omega) (by simp only; omega)]
    simp only [← hm0, harr]
    rw [show symInfoSize = 64 from rfl, e2]
    simp only [pure, Except.pure, Except.ok.injEq, Option.some.injEq, Prod.mk.injEq, Cur.mk.injEq, true_and]
    omega
  · rw [show base + 8 + (8 * lists.length + 64 * infoCount lists) + listsStrSize lists = base + bs by omega,
      show base + 8 + 8 * lists.length + 64 * infoCount lists = base + 8 + (8 * lists.length + 64 * infoCount lists) by omega] at t2
    exact t2
  · have hn : NumAt m2 base 8 bs := n0.same (s2 _ _ (by omega) (by omega) (by omega))
    simp only [symsFree]
    rw [if_neg (by omega), Nat.add_sub_cancel, show m2.num base 8 = some bs from hn]
    rfl

/-- **C46**.  The two ways this can go otherwise. -/
theorem C46_symbol_lists_otherwise (alloc : Nat → Option Nat) (lists : List (List SymInfo)) :
    (listsBufSize lists ≤ 2 ^ 63 - 8 → alloc (listsBufSize lists) = none → convertSymLists alloc lists = .ok none)
      ∧ (2 ^ 63 - 8 < listsBufSize lists → convertSymLists alloc lists = .error .badLayout) := by
  constructor
  · intro h hn
    rw [convertSymLists, allocate, if_neg (by omega), hn]; rfl
  · intro h
    rw [convertSymLists, allocate, if_pos (by omega)]; rfl

/-- **C46**.  The same for the symbol that normalization reports for an address in the vDSO. -/
theorem C46_single_symbol (alloc : Nat → Option Nat) (ha : GoodAlloc alloc) (sym : Sym) (hf : Sym.Fits sym)
    (hlayout : metaSymSize sym ≤ 2 ^ 63 - 8) (base : Nat) (hb : alloc (metaSymSize sym) = some base) :
    ∃ (st : Cur) (i c : Nat), convertMetaSym alloc sym = .ok (some (base + 8, st))
      ∧ st.heap.base = base ∧ st.heap.size = metaSymSize sym
      ∧ SymAt st.heap.mem (base + 8) sym i c (base + metaSymSize sym) ∧ i = base + 8 + 104
      ∧ c = i + 48 * sym.inlined.length
      ∧ symsFree st.heap.mem (base + 8) = some (some (base, metaSymSize sym)) := by
  obtain ⟨h0, hpos, hend⟩ := ha _ _ hb
  have hsize : metaSymSize sym = 8 + 104 + 48 * sym.inlined.length + symStrSize sym := by
    rw [metaSymSize, Nat.mul_comm]
  generalize hbs : metaSymSize sym = bs at *
  obtain ⟨m0, hm0⟩ : ∃ (m : Mem), m = Mem.set (fun _ => none) base (leBytes 8 bs) := ⟨_, rfl⟩
  have n0 : NumAt m0 base 8 bs := hm0 ▸ numAt_set _ base 8 bs (by omega)
  obtain ⟨m2, e2, t2, s2⟩ := convertSymTo_spec
    (st := ⟨⟨base, bs, m0⟩, base + 8 + 104 + 48 * sym.inlined.length, base + 8 + 104⟩) sym (base + 8)
    (by omega) (by simp only; omega) (by simp only; omega) (by simp only; omega) (by simp only; omega)
    (by simp only; omega) hend hf
  simp only at e2 t2 s2
  refine ⟨⟨⟨base, bs, m2⟩, base + 8 + 104 + 48 * sym.inlined.length + symStrSize sym,
    base + 8 + 104 + 48 * sym.inlined.length⟩, base + 8 + 104, base + 8 + 104 + 48 * sym.inlined.length, ?_, rfl, rfl, ?_, rfl, rfl, ?_⟩
  · rw [convertMetaSym, hbs, allocate, if_neg (by omega), hb]
    simp only [bind, Except.bind, Option.map_some]
    rw [storeNum_eq _ h0 (by simp only; omega) (by simp only; omega)]
    simp only [← hm0]
    rw [refMut_eq (by omega) (by simp only; omega) (by simp only [symSize]; omega)]
    simp only
    rw [show symSize = 104 from rfl, show inlinedSize = 48 from rfl, e2]
    rfl
  · rw [show base + bs = base + 8 + 104 + 48 * sym.inlined.length + symStrSize sym by omega]
    exact t2
  · have hn : NumAt m2 base 8 bs := n0.same (s2 _ _ (by omega) (by omega) (by omega))
    simp only [symsFree]
    rw [if_neg (by omega), Nat.add_sub_cancel, show m2.num base 8 = some bs from hn]
    rfl

/-- Lookup results for three names, one of which is unknown. -/
def demoLists : List (List SymInfo) :=
  [[⟨ascii "a", 16, some 4, .function, some 32, some (ascii "/bin/x")⟩, ⟨ascii "a", 48, none, .variable, none, none⟩], [],
   [⟨ascii "b", 64, some 8, .undefined, none, none⟩]]

/-- The hypotheses of the theorems above are met. -/
example : (∀ (infos : List SymInfo), infos ∈ demoLists → ∀ (info : SymInfo), info ∈ infos → SymInfo.Fits info)
    ∧ listsBufSize demoLists ≤ 2 ^ 63 - 8 := by
  refine ⟨fun infos hi info hinfo => ?_, by decide +kernel⟩
  simp only [demoLists, List.mem_cons, List.not_mem_nil, or_false] at hi
  rcases hi with rfl | rfl | rfl
  · simp only [List.mem_cons, List.not_mem_nil, or_false] at hinfo
    rcases hinfo with rfl | rfl
    · exact ⟨by decide, fun off ho => by simp only [Option.some.injEq] at ho; omega⟩
    · exact ⟨by decide, fun off ho => by simp at ho⟩
  · cases hinfo
  · simp only [List.mem_cons, List.not_mem_nil, or_false] at hinfo
    subst hinfo
    exact ⟨by decide, fun off ho => by simp at ho⟩

end Blazesym.CApi
