import Verif.CApi.ConvertSpec
import Mathlib.Tactic.Ring

/-! Lemmas about raw memory and the conversion of results. -/

set_option autoImplicit false

namespace Blazesym.CApi

open Blazesym.Symbolize

/-! ## Memory -/

theorem leBytes_length (k n : Nat) : (leBytes k n).length = k := by
  induction k generalizing n with
  | zero => rfl
  | succ k ih => simp [leBytes, ih]

/-- The memory from `a` to `a'` is the same. -/
def Same (m m' : Mem) (a a' : Nat) : Prop := ∀ (x : Nat), a ≤ x → x < a' → m' x = m x

theorem Same.refl (m : Mem) (a a' : Nat) : Same m m a a' := fun _ _ _ => rfl

theorem Same.trans {m m' m'' : Mem} {a a' : Nat} (h : Same m m' a a') (h' : Same m' m'' a a') : Same m m'' a a' :=
  fun x hx hx' => (h' x hx hx').trans (h x hx hx')

theorem Same.sub {m m' : Mem} {a a' b b' : Nat} (h : Same m m' a a') (hb : a ≤ b) (hb' : b' ≤ a') : Same m m' b b' :=
  fun x hx hx' => h x (by omega) (by omega)

theorem same_set (m : Mem) (a : Nat) (bs : Bytes) (b b' : Nat) (h : b' ≤ a ∨ a + bs.length ≤ b) :
    Same m (m.set a bs) b b' := by
  intro x hx hx'
  simp only [Mem.set]
  rw [if_neg (by omega)]

theorem holds_set (m : Mem) (a : Nat) (bs : Bytes) : Holds (m.set a bs) a bs := by
  intro i hi
  simp only [Mem.set]
  rw [if_pos (by omega), Nat.add_sub_cancel_left]

theorem Holds.same {m m' : Mem} {a : Nat} {bs : Bytes} (h : Holds m a bs) (hs : Same m m' a (a + bs.length)) :
    Holds m' a bs := fun i hi => (hs (a + i) (by omega) (by omega)).trans (h i hi)

theorem Holds.append {m : Mem} {a : Nat} {bs bs' : Bytes} (h : Holds m a bs) (h' : Holds m (a + bs.length) bs') :
    Holds m a (bs ++ bs') := by
  intro i hi
  rw [List.length_append] at hi
  by_cases hb : i < bs.length
  · rw [h i hb, List.getElem?_append_left hb]
  · rw [List.getElem?_append_right (by omega), ← h' (i - bs.length) (by omega)]
    congr 1; omega

theorem num_same {m m' : Mem} {a k : Nat} (hs : Same m m' a (a + k)) : m'.num a k = m.num a k := by
  induction k generalizing a with
  | zero => rfl
  | succ k ih =>
    simp only [Mem.num]
    rw [hs a (by omega) (by omega), ih (hs.sub (by omega) (by omega))]

theorem NumAt.same {m m' : Mem} {a k n : Nat} (h : NumAt m a k n) (hs : Same m m' a (a + k)) : NumAt m' a k n := by
  rw [NumAt, num_same hs]; exact h

theorem num_of_holds (m : Mem) (a k n : Nat) (hn : n < 256 ^ k) (h : Holds m a (leBytes k n)) : NumAt m a k n := by
  induction k generalizing a n with
  | zero =>
    have : n = 0 := by simpa using hn
    subst this; rfl
  | succ k ih =>
    have h0 := h 0 (by simp [leBytes])
    have ht : Holds m (a + 1) (leBytes k (n / 256)) := by
      intro i hi
      have := h (i + 1) (by rw [leBytes_length] at hi ⊢; omega)
      rw [show a + 1 + i = a + (i + 1) by omega, this]
      simp [leBytes]
    have := ih (a + 1) (n / 256) (by rw [Nat.div_lt_iff_lt_mul (by norm_num), ← Nat.pow_succ]; exact hn) ht
    simp only [NumAt, Mem.num] at this ⊢
    simp only [leBytes, Nat.add_zero, List.getElem?_cons_zero] at h0
    rw [h0, this]
    have hb : (UInt8.ofNat (n % 256)).toNat = n % 256 := UInt8.toNat_ofNat_of_lt' (Nat.mod_lt _ (by norm_num))
    simp only [Option.bind_eq_bind, Option.bind_some, Option.pure_def, Option.some.injEq, hb]
    omega

theorem numAt_set (m : Mem) (a k n : Nat) (hn : n < 256 ^ k) : NumAt (m.set a (leBytes k n)) a k n :=
  num_of_holds _ a k n hn (holds_set m a _)

theorem store_eq {h : Heap} {a : Nat} {bs : Bytes} (h1 : h.base ≤ a) (h2 : a + bs.length ≤ h.base + h.size) :
    h.store a bs = .ok { h with mem := h.mem.set a bs } := by
  rw [Heap.store, if_pos ⟨h1, h2⟩]

theorem storeNum_eq {h : Heap} {a k : Nat} (n : Nat) (h0 : a % k = 0) (h1 : h.base ≤ a)
    (h2 : a + k ≤ h.base + h.size) :
    h.storeNum a k n = .ok { h with mem := h.mem.set a (leBytes k n) } := by
  rw [Heap.storeNum, if_neg (by simpa using h0), store_eq h1 (by rw [leBytes_length]; exact h2)]

theorem refMut_eq {h : Heap} {a size : Nat} (h0 : a % 8 = 0) (h1 : h.base ≤ a) (h2 : a + size ≤ h.base + h.size) :
    h.refMut a size = .ok () := by
  rw [Heap.refMut, if_neg (by simpa using h0), if_pos ⟨h1, h2⟩]

/-! ## Strings and fields -/

theorem put_eq {st : Cur} {a k : Nat} (n : Nat) (h0 : a % k = 0) (h1 : st.heap.base ≤ a)
    (h2 : a + k ≤ st.heap.base + st.heap.size) :
    put st a k n = .ok { st with heap := { st.heap with mem := st.heap.mem.set a (leBytes k n) } } := by
  rw [put, storeNum_eq n h0 h1 h2]; rfl

theorem makeCStr_spec {st : Cur} (s : Bytes) (h1 : st.heap.base ≤ st.cstr)
    (h2 : st.cstr + strSize s ≤ st.heap.base + st.heap.size) :
    ∃ (m : Mem), makeCStr st s = .ok (st.cstr, { st with heap := { st.heap with mem := m }, cstr := st.cstr + strSize s })
      ∧ StrAt m s st.cstr (st.cstr + strSize s)
      ∧ ∀ (b b' : Nat), b' ≤ st.cstr ∨ st.cstr + strSize s ≤ b → Same st.heap.mem m b b' := by
  unfold strSize at *
  refine ⟨(st.heap.mem.set st.cstr s).set (st.cstr + s.length) [0], ?_, ⟨?_, rfl⟩, ?_⟩
  · rw [makeCStr, store_eq h1 (by omega)]
    simp only [bind, Except.bind]
    rw [store_eq (by simp only; omega) (by simp only [List.length_singleton]; omega)]
    rfl
  · refine Holds.append ?_ (holds_set _ _ _)
    exact (holds_set _ _ _).same (same_set _ _ _ _ _ (Or.inl le_rfl))
  · intro b b' hb
    exact (same_set _ _ _ _ _ (by omega)).trans (same_set _ _ _ _ _ (by simp only [List.length_singleton]; omega))

theorem StrAt.same {m m' : Mem} {s : Bytes} {c c' : Nat} (h : StrAt m s c c') (hs : Same m m' c c') :
    StrAt m' s c c' :=
  ⟨h.1.same (by simp only [List.length_append, List.length_singleton]; rw [h.2, Nat.add_assoc] at hs; exact hs), h.2⟩

theorem PtrTo.same {m m' : Mem} {a : Nat} {s : Bytes} {c c' : Nat} (h : PtrTo m a s c c')
    (ha : Same m m' a (a + 8)) (hs : Same m m' c c') : PtrTo m' a s c c' :=
  ⟨h.1.same ha, h.2.same hs⟩

theorem OptPtrTo.same {m m' : Mem} {a : Nat} {s : Option Bytes} {c c' : Nat} (h : OptPtrTo m a s c c')
    (ha : Same m m' a (a + 8)) (hs : Same m m' c c') : OptPtrTo m' a s c c' := by
  cases s with
  | none => exact ⟨h.1.same ha, h.2⟩
  | some s => exact PtrTo.same h ha hs

/-- The size of an optional string. -/
theorem makeOptCStr_spec {st : Cur} (s : Option Bytes) (h1 : st.heap.base ≤ st.cstr)
    (h2 : st.cstr + optSize strSize s ≤ st.heap.base + st.heap.size) (h3 : st.heap.base + st.heap.size ≤ 2 ^ 64) :
    ∃ (m : Mem) (p : Nat),
      makeOptCStr st s = .ok (p, { st with heap := { st.heap with mem := m }, cstr := st.cstr + optSize strSize s })
      ∧ p < 256 ^ 8
      ∧ (∀ (m' : Mem) (a : Nat), NumAt m' a 8 p → Same m m' st.cstr (st.cstr + optSize strSize s) →
          OptPtrTo m' a s st.cstr (st.cstr + optSize strSize s))
      ∧ ∀ (b b' : Nat), b' ≤ st.cstr ∨ st.cstr + optSize strSize s ≤ b → Same st.heap.mem m b b' := by
  cases s with
  | none => exact ⟨st.heap.mem, 0, rfl, by norm_num, fun m' a h _ => ⟨h, rfl⟩, fun b b' _ => Same.refl _ _ _⟩
  | some s =>
    obtain ⟨m, hm, hs, hf⟩ := makeCStr_spec s h1 h2
    refine ⟨m, st.cstr, hm, ?_, fun m' a h hs' => ⟨h, hs.same hs'⟩, hf⟩
    have : 0 < strSize s := by simp [strSize]
    simp only [optSize, Option.map_some, Option.getD_some] at h2
    omega

/-! ## Structures -/

theorem same_num (m : Mem) (a k n : Nat) (b b' : Nat) (h : b' ≤ a ∨ a + k ≤ b) :
    Same m (m.set a (leBytes k n)) b b' := same_set _ _ _ _ _ (by rw [leBytes_length]; exact h)

theorem CodeInfoAt.same {m m' : Mem} {a : Nat} {info : Option CodeInfo} {c c' : Nat} (h : CodeInfoAt m a info c c')
    (ha : Same m m' a (a + 32)) (hs : Same m m' c c') : CodeInfoAt m' a info c c' := by
  obtain ⟨c₁, h1, h2, h3, h4⟩ := h
  have hle : c ≤ c₁ ∧ c₁ ≤ c' := by
    constructor
    · cases hd : info.bind CodeInfo.dir with
      | none => rw [hd] at h1; exact le_of_eq h1.2.symm
      | some s => rw [hd] at h1; have := h1.2.2; omega
    · cases hd : info.map CodeInfo.file with
      | none => rw [hd] at h2; exact le_of_eq h2.2.symm
      | some s => rw [hd] at h2; have := h2.2.2; omega
  exact ⟨c₁, h1.same (ha.sub le_rfl (by omega)) (hs.sub le_rfl hle.2),
    h2.same (ha.sub (by omega) (by omega)) (hs.sub hle.1 le_rfl),
    h3.same (ha.sub (by omega) (by omega)), h4.same (ha.sub (by omega) (by omega))⟩

theorem codeInfoSize_eq (info : Option CodeInfo) :
    optSize codeInfoSize info
      = optSize strSize (info.bind CodeInfo.dir) + optSize strSize (info.map CodeInfo.file) := by
  cases info <;> rfl

theorem convertCodeInfo_spec {st : Cur} (info : Option CodeInfo) (out : Nat) (h0 : out % 8 = 0)
    (h1 : st.heap.base ≤ out) (h2 : out + 32 ≤ st.cstr)
    (h3 : st.cstr + optSize codeInfoSize info ≤ st.heap.base + st.heap.size)
    (h4 : st.heap.base + st.heap.size ≤ 2 ^ 64) (hf : ∀ (i : CodeInfo), info = some i → CodeInfo.Fits i) :
    ∃ (m : Mem), convertCodeInfo st info out
        = .ok { st with heap := { st.heap with mem := m }, cstr := st.cstr + optSize codeInfoSize info }
      ∧ CodeInfoAt m out info st.cstr (st.cstr + optSize codeInfoSize info)
      ∧ ∀ (b b' : Nat), b' ≤ out ∨ out + 32 ≤ b → b' ≤ st.cstr ∨ st.cstr + optSize codeInfoSize info ≤ b →
          Same st.heap.mem m b b' := by
  rw [codeInfoSize_eq] at *
  obtain ⟨m1, p1, e1, l1, r1, s1⟩ := makeOptCStr_spec (st := st) (info.bind CodeInfo.dir) (by omega) (by omega) h4
  generalize hd1 : optSize strSize (info.bind CodeInfo.dir) = d1 at *
  obtain ⟨m3, p3, e3, l3, r3, s3⟩ := makeOptCStr_spec
    (st := { st with heap := { st.heap with mem := m1.set out (leBytes 8 p1) }, cstr := st.cstr + d1 })
    (info.map CodeInfo.file) (by simp only; omega) (by simp only; omega) h4
  generalize hd3 : optSize strSize (info.map CodeInfo.file) = d3 at *
  simp only at e3 r3 s3
  have hline : (info.bind CodeInfo.line).getD 0 < 256 ^ 4 := by
    cases info with
    | none => norm_num
    | some i =>
      cases hl : i.line with
      | none => simp [hl]
      | some n => have := (hf i rfl).1 n hl; simp only [Option.bind_some, hl, Option.getD_some]; omega
  have hcol : (info.bind CodeInfo.column).getD 0 < 256 ^ 2 := by
    cases info with
    | none => norm_num
    | some i =>
      cases hl : i.column with
      | none => simp [hl]
      | some n => have := (hf i rfl).2 n hl; simp only [Option.bind_some, hl, Option.getD_some]; omega
  generalize hline' : (info.bind CodeInfo.line).getD 0 = line at *
  generalize hcol' : (info.bind CodeInfo.column).getD 0 = col at *
  refine ⟨((m3.set (out + 8) (leBytes 8 p3)).set (out + 16) (leBytes 4 line)).set (out + 20) (leBytes 2 col), ?_, ?_, ?_⟩
  · rw [convertCodeInfo, e1]
    simp only [bind, Except.bind]
    rw [put_eq _ h0 (by simp only; omega) (by simp only; omega)]
    simp only
    rw [e3]
    simp only
    rw [put_eq _ (by omega) (by simp only; omega) (by simp only; omega)]
    simp only
    rw [put_eq _ (by omega) (by simp only; omega) (by simp only; omega)]
    simp only
    rw [put_eq _ (by omega) (by simp only; omega) (by simp only; omega), hline', hcol']
    simp only [Nat.add_assoc]
  · have S (b b' : Nat) (hb : b' ≤ out + 8 ∨ out + 22 ≤ b) : Same m3
        (((m3.set (out + 8) (leBytes 8 p3)).set (out + 16) (leBytes 4 line)).set (out + 20) (leBytes 2 col)) b b' :=
      ((same_num _ _ _ _ _ _ (by omega)).trans (same_num _ _ _ _ _ _ (by omega))).trans (same_num _ _ _ _ _ _ (by omega))
    refine ⟨st.cstr + d1, ?_, ?_, ?_, ?_⟩
    · refine r1 _ _ ?_ ?_
      · refine NumAt.same (numAt_set m1 out 8 p1 l1) ?_
        exact (s3 _ _ (by omega)).trans (S _ _ (by omega))
      · exact ((same_num _ _ _ _ _ _ (by omega)).trans (s3 _ _ (by omega))).trans (S _ _ (by omega))
    · have := r3 (((m3.set (out + 8) (leBytes 8 p3)).set (out + 16) (leBytes 4 line)).set (out + 20) (leBytes 2 col))
        (out + 8) ?_ ?_
      · rw [Nat.add_assoc] at this; exact this
      · refine NumAt.same (numAt_set m3 (out + 8) 8 p3 l3) ?_
        exact (same_num _ _ _ _ _ _ (by omega)).trans (same_num _ _ _ _ _ _ (by omega))
      · exact S _ _ (by omega)
    · rw [hline']; exact NumAt.same (numAt_set _ (out + 16) 4 line hline) (same_num _ _ _ _ _ _ (by omega))
    · rw [hcol']; exact numAt_set _ (out + 20) 2 col hcol
  · intro b b' hb hb'
    exact (((((s1 _ _ (by omega)).trans (same_num _ _ _ _ _ _ (by omega))).trans (s3 _ _ (by omega))).trans
      (same_num _ _ _ _ _ _ (by omega))).trans (same_num _ _ _ _ _ _ (by omega))).trans (same_num _ _ _ _ _ _ (by omega))

theorem OptPtrTo.le {m : Mem} {a : Nat} {s : Option Bytes} {c c' : Nat} (h : OptPtrTo m a s c c') : c ≤ c' := by
  cases s with
  | none => exact le_of_eq h.2.symm
  | some s => have := h.2.2; omega

theorem CodeInfoAt.le {m : Mem} {a : Nat} {info : Option CodeInfo} {c c' : Nat} (h : CodeInfoAt m a info c c') :
    c ≤ c' := by
  obtain ⟨c₁, h1, h2, _⟩ := h
  exact h1.le.trans h2.le

theorem InlinedAt.le {m : Mem} {a : Nat} {fn : InlinedFn} {c c' : Nat} (h : InlinedAt m a fn c c') : c ≤ c' := by
  obtain ⟨c₁, h1, h2⟩ := h
  have := h1.2.2
  have := h2.le
  omega

theorem InlinedArray.le {m : Mem} {fns : List InlinedFn} {a c c' : Nat} (h : InlinedArray m a c c' fns) : c ≤ c' := by
  induction fns generalizing a c with
  | nil => exact le_of_eq h.symm
  | cons fn fns ih =>
    obtain ⟨c₁, h1, h2⟩ := h
    exact h1.le.trans (ih h2)

theorem InlinedAt.same {m m' : Mem} {a : Nat} {fn : InlinedFn} {c c' : Nat} (h : InlinedAt m a fn c c')
    (ha : Same m m' a (a + 48)) (hs : Same m m' c c') : InlinedAt m' a fn c c' := by
  obtain ⟨c₁, h1, h2⟩ := h
  have := h1.2.2
  exact ⟨c₁, h1.same (ha.sub (by omega) (by omega)) (hs.sub le_rfl h2.le),
    h2.same (ha.sub (by omega) (by omega)) (hs.sub (by omega) le_rfl)⟩

theorem InlinedArray.same {m m' : Mem} {fns : List InlinedFn} {a c c' : Nat} (h : InlinedArray m a c c' fns)
    (ha : Same m m' a (a + 48 * fns.length)) (hs : Same m m' c c') : InlinedArray m' a c c' fns := by
  induction fns generalizing a c with
  | nil => exact h
  | cons fn fns ih =>
    obtain ⟨c₁, h1, h2⟩ := h
    rw [List.length_cons] at ha
    exact ⟨c₁, h1.same (ha.sub (by omega) (by omega)) (hs.sub le_rfl h2.le),
      ih h2 (ha.sub (by omega) (by omega)) (hs.sub h1.le le_rfl)⟩

theorem convertInlined_spec {st : Cur} (fns : List InlinedFn) (h0 : st.inl % 8 = 0) (h1 : st.heap.base ≤ st.inl)
    (h2 : st.inl + 48 * fns.length ≤ st.cstr)
    (h3 : st.cstr + (fns.map inlinedStrSize).sum ≤ st.heap.base + st.heap.size)
    (h4 : st.heap.base + st.heap.size ≤ 2 ^ 64)
    (hf : ∀ (fn : InlinedFn), fn ∈ fns → ∀ (i : CodeInfo), fn.codeInfo = some i → CodeInfo.Fits i) :
    ∃ (m : Mem), convertInlined st fns
        = .ok { heap := { st.heap with mem := m }, cstr := st.cstr + (fns.map inlinedStrSize).sum,
                inl := st.inl + 48 * fns.length }
      ∧ InlinedArray m st.inl st.cstr (st.cstr + (fns.map inlinedStrSize).sum) fns
      ∧ ∀ (b b' : Nat), b' ≤ st.inl ∨ st.inl + 48 * fns.length ≤ b →
          b' ≤ st.cstr ∨ st.cstr + (fns.map inlinedStrSize).sum ≤ b → Same st.heap.mem m b b' := by
  induction fns generalizing st with
  | nil => exact ⟨st.heap.mem, rfl, rfl, fun b b' _ _ => Same.refl _ _ _⟩
  | cons fn fns ih =>
    rw [List.map_cons, List.sum_cons, List.length_cons] at *
    have hsz : inlinedStrSize fn = strSize fn.name + optSize codeInfoSize fn.codeInfo := rfl
    obtain ⟨m1, e1, t1, s1⟩ := makeCStr_spec (st := st) fn.name (by omega) (by omega)
    have hpos : 0 < strSize fn.name := by simp [strSize]
    generalize hn : strSize fn.name = n1 at *
    obtain ⟨m3, e3, t3, s3⟩ := convertCodeInfo_spec
      (st := { st with heap := { st.heap with mem := m1.set st.inl (leBytes 8 st.cstr) }, cstr := st.cstr + n1 })
      fn.codeInfo (st.inl + 8) (by omega) (by simp only; omega) (by simp only; omega) (by simp only; omega) h4
      (hf fn (by simp))
    generalize hd : optSize codeInfoSize fn.codeInfo = n3 at *
    simp only at e3 t3 s3
    obtain ⟨m5, e5, t5, s5⟩ := ih
      (st := { heap := { st.heap with mem := m3 }, cstr := st.cstr + n1 + n3, inl := st.inl + 48 })
      (by simp only; omega) (by simp only; omega) (by simp only; omega) (by simp only; omega) h4
      (fun g hg => hf g (by simp [hg]))
    simp only at e5 t5 s5
    refine ⟨m5, ?_, ⟨st.cstr + n1 + n3, ⟨st.cstr + n1, ⟨?_, ?_⟩, ?_⟩, ?_⟩, ?_⟩
    · rw [convertInlined, refMut_eq h0 h1 (by simp only [inlinedSize]; omega)]
      simp only [bind, Except.bind]
      rw [e1]
      simp only
      rw [put_eq _ h0 (by simp only; omega) (by simp only; omega)]
      simp only
      rw [e3]
      simp only
      rw [e5]
      simp only [Except.ok.injEq, Cur.mk.injEq, true_and]
      omega
    · refine NumAt.same (numAt_set m1 st.inl 8 st.cstr (by omega)) ?_
      exact (s3 _ _ (by omega) (by omega)).trans (s5 _ _ (by omega) (by omega))
    · refine t1.same ?_
      exact ((same_num _ _ _ _ _ _ (by omega)).trans (s3 _ _ (by omega) (by omega))).trans (s5 _ _ (by omega) (by omega))
    · refine t3.same ?_ ?_
      · exact s5 _ _ (by omega) (by omega)
      · exact s5 _ _ (by omega) (by omega)
    · rw [show st.cstr + (inlinedStrSize fn + (fns.map inlinedStrSize).sum)
        = st.cstr + n1 + n3 + (fns.map inlinedStrSize).sum by omega]
      exact t5
    · intro b b' hb hb'
      exact (((s1 _ _ (by omega)).trans (same_num _ _ _ _ _ _ (by omega))).trans
        (s3 _ _ (by omega) (by omega))).trans (s5 _ _ (by omega) (by omega))

theorem cSize_spec (size : Option Nat) : IsSize (cSize size) size ∧ cSize size < 256 ^ 8 := by
  cases size with
  | none => constructor <;> simp [IsSize, cSize, u64Size]
  | some n =>
    simp only [IsSize, cSize]
    split <;> constructor <;> omega

theorem convertSymTo_spec {st : Cur} (sym : Sym) (ref : Nat) (h0 : ref % 8 = 0) (h1 : st.heap.base ≤ ref)
    (hi0 : st.inl % 8 = 0) (h2 : ref + 104 ≤ st.inl) (h2' : st.inl + 48 * sym.inlined.length ≤ st.cstr)
    (h3 : st.cstr + symStrSize sym ≤ st.heap.base + st.heap.size)
    (h4 : st.heap.base + st.heap.size ≤ 2 ^ 64) (hf : Sym.Fits sym) :
    ∃ (m : Mem), convertSymTo st sym ref
        = .ok { heap := { st.heap with mem := m }, cstr := st.cstr + symStrSize sym,
                inl := st.inl + 48 * sym.inlined.length }
      ∧ SymAt m ref sym st.inl st.cstr (st.cstr + symStrSize sym)
      ∧ ∀ (b b' : Nat), b' ≤ ref ∨ ref + 104 ≤ b → b' ≤ st.inl ∨ st.inl + 48 * sym.inlined.length ≤ b →
          b' ≤ st.cstr ∨ st.cstr + symStrSize sym ≤ b → Same st.heap.mem m b b' := by
  obtain ⟨hfa, hfo, hfc, hfi⟩ := hf
  have hsz : symStrSize sym = strSize sym.name + optSize strSize sym.module + optSize codeInfoSize sym.codeInfo
    + (sym.inlined.map inlinedStrSize).sum := rfl
  have hpos : 0 < strSize sym.name := by simp [strSize]
  obtain ⟨m1, e1, t1, s1⟩ := makeCStr_spec (st := st) sym.name (by omega) (by omega)
  generalize strSize sym.name = n1 at *
  obtain ⟨m2, p2, e2, l2, r2, s2⟩ := makeOptCStr_spec
    (st := { st with heap := { st.heap with mem := m1 }, cstr := st.cstr + n1 }) sym.module
    (by simp only; omega) (by simp only; omega) h4
  generalize optSize strSize sym.module = n2 at *
  simp only at e2 r2 s2
  obtain ⟨hsize, hsize'⟩ := cSize_spec sym.size
  generalize hcs : cSize sym.size = sz at *
  obtain ⟨m3, hm3⟩ : ∃ (m : Mem), m = m2.set ref (leBytes 8 st.cstr) := ⟨_, rfl⟩
  obtain ⟨m4, hm4⟩ : ∃ (m : Mem), m = m3.set (ref + 8) (leBytes 8 p2) := ⟨_, rfl⟩
  obtain ⟨m5, hm5⟩ : ∃ (m : Mem), m = m4.set (ref + 16) (leBytes 8 sym.addr) := ⟨_, rfl⟩
  obtain ⟨m6, hm6⟩ : ∃ (m : Mem), m = m5.set (ref + 24) (leBytes 8 sym.offset) := ⟨_, rfl⟩
  obtain ⟨m7, hm7⟩ : ∃ (m : Mem), m = m6.set (ref + 32) (leBytes 8 sz) := ⟨_, rfl⟩
  have S3 (b b' : Nat) (h : b' ≤ ref ∨ ref + 8 ≤ b) : Same m2 m3 b b' := hm3 ▸ same_num _ _ _ _ _ _ h
  have S4 (b b' : Nat) (h : b' ≤ ref + 8 ∨ ref + 16 ≤ b) : Same m3 m4 b b' := hm4 ▸ same_num _ _ _ _ _ _ (by omega)
  have S5 (b b' : Nat) (h : b' ≤ ref + 16 ∨ ref + 24 ≤ b) : Same m4 m5 b b' := hm5 ▸ same_num _ _ _ _ _ _ (by omega)
  have S6 (b b' : Nat) (h : b' ≤ ref + 24 ∨ ref + 32 ≤ b) : Same m5 m6 b b' := hm6 ▸ same_num _ _ _ _ _ _ (by omega)
  have S7 (b b' : Nat) (h : b' ≤ ref + 32 ∨ ref + 40 ≤ b) : Same m6 m7 b b' := hm7 ▸ same_num _ _ _ _ _ _ (by omega)
  have N3 : NumAt m3 ref 8 st.cstr := hm3 ▸ numAt_set _ _ _ _ (by omega)
  have N4 : NumAt m4 (ref + 8) 8 p2 := hm4 ▸ numAt_set _ _ _ _ l2
  have N5 : NumAt m5 (ref + 16) 8 sym.addr := hm5 ▸ numAt_set _ _ _ _ (by omega)
  have N6 : NumAt m6 (ref + 24) 8 sym.offset := hm6 ▸ numAt_set _ _ _ _ (by omega)
  have N7 : NumAt m7 (ref + 32) 8 sz := hm7 ▸ numAt_set _ _ _ _ hsize'
  obtain ⟨m8, e8, t8, s8⟩ := convertCodeInfo_spec
    (st := { st with heap := { st.heap with mem := m7 }, cstr := st.cstr + n1 + n2 })
    sym.codeInfo (ref + 40) (by omega) (by simp only; omega) (by simp only; omega) (by simp only; omega) h4 hfc
  generalize optSize codeInfoSize sym.codeInfo = n8 at *
  simp only at e8 t8 s8
  obtain ⟨m9, hm9⟩ : ∃ (m : Mem), m = m8.set (ref + 72) (leBytes 8 sym.inlined.length) := ⟨_, rfl⟩
  obtain ⟨m10, hm10⟩ : ∃ (m : Mem), m = m9.set (ref + 80) (leBytes 8 st.inl) := ⟨_, rfl⟩
  obtain ⟨m11, hm11⟩ : ∃ (m : Mem), m = m10.set (ref + 88) (leBytes 1 0) := ⟨_, rfl⟩
  have S9 (b b' : Nat) (h : b' ≤ ref + 72 ∨ ref + 80 ≤ b) : Same m8 m9 b b' := hm9 ▸ same_num _ _ _ _ _ _ (by omega)
  have S10 (b b' : Nat) (h : b' ≤ ref + 80 ∨ ref + 88 ≤ b) : Same m9 m10 b b' := hm10 ▸ same_num _ _ _ _ _ _ (by omega)
  have S11 (b b' : Nat) (h : b' ≤ ref + 88 ∨ ref + 89 ≤ b) : Same m10 m11 b b' := hm11 ▸ same_num _ _ _ _ _ _ (by omega)
  have N9 : NumAt m9 (ref + 72) 8 sym.inlined.length := hm9 ▸ numAt_set _ _ _ _ (by omega)
  have N10 : NumAt m10 (ref + 80) 8 st.inl := hm10 ▸ numAt_set _ _ _ _ (by omega)
  have N11 : NumAt m11 (ref + 88) 1 0 := hm11 ▸ numAt_set _ _ _ _ (by norm_num)
  obtain ⟨m12, e12, t12, s12⟩ := convertInlined_spec
    (st := { st with heap := { st.heap with mem := m11 }, cstr := st.cstr + n1 + n2 + n8 }) sym.inlined
    hi0 (by simp only; omega) (by simp only; omega) (by simp only; omega) h4 hfi
  simp only at e12 t12 s12
  generalize (sym.inlined.map inlinedStrSize).sum = n12 at *
  have hend : st.cstr + symStrSize sym = st.cstr + n1 + n2 + n8 + n12 := by omega
  -- memory outside of the structure from some point on
  have T27 (b b' : Nat) (h : b' ≤ ref ∨ ref + 40 ≤ b) : Same m2 m7 b b' :=
    ((((S3 _ _ (by omega)).trans (S4 _ _ (by omega))).trans (S5 _ _ (by omega))).trans (S6 _ _ (by omega))).trans
      (S7 _ _ (by omega))
  have T712 (b b' : Nat) (h : b' ≤ ref + 40 ∨ ref + 104 ≤ b) (h' : b' ≤ st.inl ∨ st.inl + 48 * sym.inlined.length ≤ b)
      (h'' : b' ≤ st.cstr + n1 + n2 ∨ st.cstr + n1 + n2 + n8 + n12 ≤ b) : Same m7 m12 b b' :=
    ((((s8 _ _ (by omega) (by omega)).trans (S9 _ _ (by omega))).trans (S10 _ _ (by omega))).trans
      (S11 _ _ (by omega))).trans (s12 _ _ (by omega) (by omega))
  refine ⟨m12, ?_, ⟨st.cstr + n1, st.cstr + n1 + n2, st.cstr + n1 + n2 + n8, sz, ⟨?_, ?_⟩, ?_, ?_, ?_, ?_, hsize, ?_,
    ?_, ?_, ?_, ?_⟩, ?_⟩
  · rw [convertSymTo, e1]
    simp only [bind, Except.bind]
    rw [e2]
    simp only
    rw [put_eq _ h0 (by simp only; omega) (by simp only; omega)]
    simp only [← hm3]
    rw [put_eq _ (by omega) (by simp only; omega) (by simp only; omega)]
    simp only [← hm4]
    rw [put_eq _ (by omega) (by simp only; omega) (by simp only; omega)]
    simp only [← hm5]
    rw [put_eq _ (by omega) (by simp only; omega) (by simp only; omega)]
    simp only [← hm6]
    rw [put_eq _ (by omega) (by simp only; omega) (by simp only; omega)]
    simp only [hcs, ← hm7]
    rw [e8]
    simp only
    rw [put_eq _ (by omega) (by simp only; omega) (by simp only; omega)]
    simp only [← hm9]
    rw [put_eq _ (by omega) (by simp only; omega) (by simp only; omega)]
    simp only [← hm10]
    rw [put_eq _ (by omega) (by simp only; omega) (by simp only; omega)]
    simp only [← hm11]
    rw [e12, hend]
  · refine N3.same ?_
    exact ((((S4 _ _ (by omega)).trans (S5 _ _ (by omega))).trans (S6 _ _ (by omega))).trans (S7 _ _ (by omega))).trans
      (T712 _ _ (by omega) (by omega) (by omega))
  · refine t1.same ?_
    exact ((s2 _ _ (by omega)).trans (T27 _ _ (by omega))).trans (T712 _ _ (by omega) (by omega) (by omega))
  · refine r2 _ _ ?_ ?_
    · refine N4.same ?_
      exact (((S5 _ _ (by omega)).trans (S6 _ _ (by omega))).trans (S7 _ _ (by omega))).trans
        (T712 _ _ (by omega) (by omega) (by omega))
    · exact (T27 _ _ (by omega)).trans (T712 _ _ (by omega) (by omega) (by omega))
  · refine N5.same ?_
    exact ((S6 _ _ (by omega)).trans (S7 _ _ (by omega))).trans (T712 _ _ (by omega) (by omega) (by omega))
  · refine N6.same ?_
    exact (S7 _ _ (by omega)).trans (T712 _ _ (by omega) (by omega) (by omega))
  · exact N7.same (T712 _ _ (by omega) (by omega) (by omega))
  · refine t8.same ?_ ?_
    · exact (((S9 _ _ (by omega)).trans (S10 _ _ (by omega))).trans (S11 _ _ (by omega))).trans (s12 _ _ (by omega) (by omega))
    · exact (((S9 _ _ (by omega)).trans (S10 _ _ (by omega))).trans (S11 _ _ (by omega))).trans (s12 _ _ (by omega) (by omega))
  · refine N9.same ?_
    exact ((S10 _ _ (by omega)).trans (S11 _ _ (by omega))).trans (s12 _ _ (by omega) (by omega))
  · refine N10.same ?_
    exact (S11 _ _ (by omega)).trans (s12 _ _ (by omega) (by omega))
  · exact N11.same (s12 _ _ (by omega) (by omega))
  · rw [hend]; exact t12
  · intro b b' hb hb' hb''
    exact (((s1 _ _ (by omega)).trans (s2 _ _ (by omega))).trans (T27 _ _ (by omega))).trans
      (T712 _ _ (by omega) (by omega) (by omega))

theorem SymAt.le {m : Mem} {a : Nat} {sym : Sym} {i c c' : Nat} (h : SymAt m a sym i c c') : c ≤ c' := by
  obtain ⟨c₁, c₂, c₃, n, h1, h2, _, _, _, _, h3, _, _, _, h4⟩ := h
  have := h1.2.2
  have := h2.le
  have := h3.le
  have := h4.le
  omega

theorem SymAt.same {m m' : Mem} {a : Nat} {sym : Sym} {i c c' : Nat} (h : SymAt m a sym i c c')
    (ha : Same m m' a (a + 104)) (hi : Same m m' i (i + 48 * sym.inlined.length)) (hs : Same m m' c c') :
    SymAt m' a sym i c c' := by
  obtain ⟨c₁, c₂, c₃, n, h1, h2, h3, h4, h5, h6, h7, h8, h9, h10, h11⟩ := h
  have e1 := h1.2.2
  have e2 := h2.le
  have e3 := h7.le
  have e4 := h11.le
  exact ⟨c₁, c₂, c₃, n, h1.same (ha.sub (by omega) (by omega)) (hs.sub (by omega) (by omega)),
    h2.same (ha.sub (by omega) (by omega)) (hs.sub (by omega) (by omega)), h3.same (ha.sub (by omega) (by omega)),
    h4.same (ha.sub (by omega) (by omega)), h5.same (ha.sub (by omega) (by omega)), h6,
    h7.same (ha.sub (by omega) (by omega)) (hs.sub (by omega) (by omega)),
    h8.same (ha.sub (by omega) (by omega)), h9.same (ha.sub (by omega) (by omega)),
    h10.same (ha.sub (by omega) (by omega)), h11.same hi (hs.sub (by omega) (by omega))⟩

theorem UnknownAt.same {m m' : Mem} {a : Nat} {r : Reason} (h : UnknownAt m a r) (ha : Same m m' a (a + 104)) :
    UnknownAt m' a r := by
  obtain ⟨h1, n, h2, h3⟩ := h
  refine ⟨fun x hx hx' => ?_, n, h2.same (ha.sub (by omega) (by omega)), h3⟩
  rw [ha (a + x) (by omega) (by omega)]
  exact h1 x hx hx'

theorem reasonCode (r : Reason) : ReasonCode r (symbolizeReason r) ∧ symbolizeReason r < 256 ^ 1 := by
  cases r <;> simp [ReasonCode, symbolizeReason]

/-- The strings and the inlined functions of a list of results. -/
def sums : List Symbolized → Nat × Nat
  | [] => (0, 0)
  | .sym sym :: rest => (symStrSize sym + (sums rest).1, sym.inlined.length + (sums rest).2)
  | .unknown _ :: rest => sums rest

theorem totals_eq (results : List Symbolized) : totals results = sums results := by
  have h (acc : Nat × Nat) : results.foldl addTotals acc = (acc.1 + (sums results).1, acc.2 + (sums results).2) := by
    induction results generalizing acc with
    | nil => rfl
    | cons r rest ih =>
      cases r with
      | sym sym => rw [List.foldl_cons, ih]; simp only [sums, addTotals, Prod.mk.injEq]; omega
      | unknown r => rw [List.foldl_cons, ih]; rfl
  rw [totals, h]; simp

theorem convertLoop_spec {st : Cur} {last : Nat} (results : List Symbolized) (h0 : last % 8 = 0)
    (h1 : st.heap.base ≤ last) (hi0 : st.inl % 8 = 0) (h2 : last + 104 * results.length ≤ st.inl)
    (h2' : st.inl + 48 * (sums results).2 ≤ st.cstr)
    (h3 : st.cstr + (sums results).1 ≤ st.heap.base + st.heap.size)
    (h4 : st.heap.base + st.heap.size ≤ 2 ^ 64) (hf : ∀ (sym : Sym), .sym sym ∈ results → Sym.Fits sym) :
    ∃ (m : Mem), convertLoop st last results
        = .ok { heap := { st.heap with mem := m }, cstr := st.cstr + (sums results).1,
                inl := st.inl + 48 * (sums results).2 }
      ∧ SymArray m last st.inl (st.inl + 48 * (sums results).2) st.cstr (st.cstr + (sums results).1) results
      ∧ ∀ (b b' : Nat), b' ≤ last ∨ last + 104 * results.length ≤ b →
          b' ≤ st.inl ∨ st.inl + 48 * (sums results).2 ≤ b →
          b' ≤ st.cstr ∨ st.cstr + (sums results).1 ≤ b → Same st.heap.mem m b b' := by
  induction results generalizing st last with
  | nil => exact ⟨st.heap.mem, rfl, ⟨rfl, rfl⟩, fun b b' _ _ _ => Same.refl _ _ _⟩
  | cons r rest ih =>
    rw [List.length_cons] at *
    cases r with
    | sym sym =>
      have hs1 : (sums (.sym sym :: rest)).1 = symStrSize sym + (sums rest).1 := rfl
      have hs2 : (sums (.sym sym :: rest)).2 = sym.inlined.length + (sums rest).2 := rfl
      rw [hs1] at h3 ⊢
      rw [hs2] at h2' ⊢
      obtain ⟨m1, e1, t1, s1⟩ := convertSymTo_spec (st := st) sym last h0 h1 hi0 (by omega) (by omega) (by omega) h4
        (hf sym (by simp))
      obtain ⟨m2, e2, t2, s2⟩ := ih
        (st := { heap := { st.heap with mem := m1 }, cstr := st.cstr + symStrSize sym,
                 inl := st.inl + 48 * sym.inlined.length })
        (last := last + 104) (by omega) (by simp only; omega) (by simp only; omega) (by simp only; omega)
        (by simp only; omega) (by simp only; omega) h4 (fun s hs => hf s (by simp [hs]))
      simp only at e2 t2 s2
      refine ⟨m2, ?_, ⟨st.cstr + symStrSize sym, ?_, ?_⟩, ?_⟩
      · rw [convertLoop, refMut_eq h0 h1 (by simp only [symSize]; omega)]
        simp only [bind, Except.bind]
        rw [e1]
        simp only
        rw [show symSize = 104 from rfl, e2]
        simp only [Except.ok.injEq, Cur.mk.injEq, true_and]
        constructor <;> ring
      · exact t1.same (s2 _ _ (by omega) (by omega) (by omega)) (s2 _ _ (by omega) (by omega) (by omega))
          (s2 _ _ (by omega) (by omega) (by omega))
      · have g1 : st.inl + 48 * (sym.inlined.length + (sums rest).2)
            = st.inl + 48 * sym.inlined.length + 48 * (sums rest).2 := by ring
        rw [g1, ← Nat.add_assoc]
        exact t2
      · intro b b' hb hb' hb''
        exact (s1 _ _ (by omega) (by omega) (by omega)).trans (s2 _ _ (by omega) (by omega) (by omega))
    | unknown reason =>
      have hs : sums (.unknown reason :: rest) = sums rest := rfl
      rw [hs] at h3 h2' ⊢
      obtain ⟨hcode, hcode'⟩ := reasonCode reason
      let m0 := st.heap.mem.set last (List.replicate symSize 0)
      let m1 := m0.set (last + 88) (leBytes 1 (symbolizeReason reason))
      have S0 (b b' : Nat) (h : b' ≤ last ∨ last + 104 ≤ b) : Same st.heap.mem m0 b b' :=
        same_set _ _ _ _ _ (by simpa [symSize] using h)
      have S1 (b b' : Nat) (h : b' ≤ last + 88 ∨ last + 89 ≤ b) : Same m0 m1 b b' := same_num _ _ _ _ _ _ (by omega)
      obtain ⟨m2, e2, t2, s2⟩ := ih (st := { st with heap := { st.heap with mem := m1 } })
        (last := last + 104) (by omega) (by simp only; omega) (by simp only; omega) (by simp only; omega)
        (by simp only; omega) (by simp only; omega) h4 (fun s hs => hf s (by simp [hs]))
      simp only at e2 t2 s2
      refine ⟨m2, ?_, ⟨?_, t2⟩, ?_⟩
      · rw [convertLoop, refMut_eq h0 h1 (by simp only [symSize]; omega)]
        simp only [bind, Except.bind]
        rw [store_eq h1 (by simp only [List.length_replicate, symSize]; omega)]
        simp only
        rw [put_eq _ (by omega) (by simp only; omega) (by simp only; omega)]
        exact e2
      · refine UnknownAt.same (m := m1) ⟨fun x hx hx' => ?_, _, numAt_set _ _ _ _ hcode', hcode⟩
          (s2 _ _ (by omega) (by omega) (by omega))
        rw [S1 (last + x) (last + x + 1) (by omega) (last + x) le_rfl (by omega)]
        have := holds_set st.heap.mem last (List.replicate symSize 0) x (by simpa [symSize] using hx)
        refine this.trans ?_
        rw [List.getElem?_replicate, if_pos hx]
      · intro b b' hb hb' hb''
        exact ((S0 _ _ (by omega)).trans (S1 _ _ (by omega))).trans (s2 _ _ (by omega) (by omega) (by omega))

end Blazesym.CApi
