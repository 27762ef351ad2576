import Verif.Go.BindingsSpec
import Verif.CApi.OutputLemmas
import Verif.CApi.ConvertProps
import Verif.CApi.CallProps
import Mathlib.Data.List.Pairwise

/-! Lemmas about the model of the Go bindings. -/

set_option autoImplicit false

namespace Blazesym.Go

open Blazesym.CApi Blazesym.Error Blazesym.Symbolize

/-! ## Reading results -/

theorem lift_ok {α : Type} {x : Except Fault α} {a : α} (h : x = .ok a) : lift x = .ok a := by rw [h]; rfl

theorem readNum_lift {m : Mem} {a k n : Nat} (h : NumAt m a k n) : lift (readNum m a k) = .ok n :=
  lift_ok (readNum_at h)

theorem upToNul_length (s : Bytes) : (upToNul s).length ≤ s.length := (List.takeWhile_prefix _).length_le

theorem goString_of {m : Mem} {s : Bytes} {c c' : Nat} (h : StrAt m s c c') (h0 : 0 < c) (hc : c' ≤ 2 ^ 64) :
    goString m c = .ok (upToNul s) := by
  have hl := upToNul_length s
  have := h.2
  rw [goString, if_neg (by omega)]
  exact lift_ok (fromCStr_at (C46_string m s c c' h).1 (by
    have : (s.takeWhile (· != 0)).length ≤ s.length := hl
    omega))

theorem goString_ptr {m : Mem} {a : Nat} {s : Option Bytes} {c c' : Nat} (h : OptPtrTo m a s c c') (h0 : 0 < c)
    (hc : c' ≤ 2 ^ 64) :
    ∃ (p : Nat), lift (readNum m a 8) = .ok p ∧ goString m p = .ok (upToNul (s.getD [])) ∧ (p = 0 ↔ s = none) := by
  cases s with
  | none => exact ⟨0, readNum_lift h.1, rfl, by simp⟩
  | some s => exact ⟨c, readNum_lift h.1, goString_of h.2 h0 hc, by simp; omega⟩

theorem goCodeInfo_of {m : Mem} {a : Nat} {info : Option CodeInfo} {c c' : Nat} (h : CodeInfoAt m a info c c')
    (h0 : 0 < c) (hc : c' ≤ 2 ^ 64) : ∃ (g : Option GoCodeInfo), goCodeInfo m a = .ok g ∧ ShowsCode info g := by
  obtain ⟨c₁, h1, h2, h3, h4⟩ := h
  have e1 := h1.le
  have e2 := h2.le
  obtain ⟨p, p1, p2, p3⟩ := goString_ptr h1 h0 (by omega)
  obtain ⟨q, q1, q2, q3⟩ := goString_ptr h2 (by omega) hc
  cases info with
  | none =>
    refine ⟨none, ?_, trivial⟩
    have : q = 0 := q3.2 rfl
    rw [goCodeInfo, q1]
    simp only [bind, Except.bind, this, ne_eq, not_true_eq_false, if_false]
    rfl
  | some info =>
    refine ⟨some ⟨upToNul (info.dir.getD []), upToNul info.file, info.line.getD 0, info.column.getD 0⟩, ?_, rfl, rfl,
      rfl, rfl⟩
    have : q ≠ 0 := fun h => by simpa using q3.1 h
    rw [goCodeInfo, q1]
    simp only [bind, Except.bind, ne_eq, this, not_false_eq_true, if_true, p1, p2, q2, readNum_lift h3, readNum_lift h4]
    rfl

theorem goInlined_of {m : Mem} {fns : List InlinedFn} {a c c' : Nat} (h : InlinedArray m a c c' fns)
    (h0 : 0 < c) (hc : c' ≤ 2 ^ 64) :
    ∃ (gs : List GoInlined), goInlined m a fns.length = .ok gs ∧ List.Forall₂ ShowsInlined fns gs := by
  induction fns generalizing a c with
  | nil => exact ⟨[], rfl, .nil⟩
  | cons fn fns ih =>
    obtain ⟨c₁, ⟨c₂, h1, h2⟩, h3⟩ := h
    have e1 := h1.2.2
    have e2 := h2.le
    have e3 := h3.le
    obtain ⟨gs, g1, g2⟩ := ih h3 (by omega)
    obtain ⟨i, i1, i2⟩ := goCodeInfo_of h2 (by omega) (by omega)
    refine ⟨⟨upToNul fn.name, i⟩ :: gs, ?_, .cons ⟨rfl, i2⟩ g2⟩
    rw [List.length_cons, goInlined, readNum_lift h1.1]
    simp only [bind, Except.bind, goString_of h1.2 h0 (by omega), i1]
    rw [show a + inlinedSize = a + 48 from rfl, g1]
    rfl

theorem toInt64_of {n : Nat} {size : Option Nat} (h : IsSize n size) : ShowsSize size (toInt64 n) := by
  cases size with
  | none =>
    have h : n = 2 ^ 64 - 1 := h
    subst h
    rfl
  | some k =>
    have h : n = min k (2 ^ 63 - 1) := h
    rw [ShowsSize, toInt64, if_pos (by omega), h]

theorem goInlinedFns_of {m : Mem} {fns : List InlinedFn} {a c c' : Nat} (h : InlinedArray m a c c' fns)
    (h0 : 0 < c) (hc : c' ≤ 2 ^ 64) :
    (fns.length ≤ 2 ^ 30 → ∃ (gs : List GoInlined), goInlinedFns m a fns.length = .ok gs
        ∧ List.Forall₂ ShowsInlined fns gs)
      ∧ (2 ^ 30 < fns.length → goInlinedFns m a fns.length = .error .slice) := by
  obtain ⟨gs, g1, g2⟩ := goInlined_of h h0 hc
  refine ⟨fun hl => ⟨gs, ?_, g2⟩, fun hl => ?_⟩
  · rw [goInlinedFns]
    split
    · rw [if_neg (by omega), g1]
    · have : fns.length = 0 := by omega
      rw [this] at g1
      rw [← g1]; rfl
  · rw [goInlinedFns, if_pos (by omega), if_pos (by omega)]

theorem goSym_of {m : Mem} {a : Nat} {sym : Sym} {i c c' : Nat} (h : SymAt m a sym i c c') (h0 : 0 < c) (hc : c' ≤ 2 ^ 64) :
    (sym.inlined.length ≤ 2 ^ 30 → ∃ (g : GoSym), goSym m a = .ok g ∧ Shows (.sym sym) g)
      ∧ (2 ^ 30 < sym.inlined.length → goSym m a = .error .slice) := by
  obtain ⟨c₁, c₂, c₃, n, h1, h2, h3, h4, h5, h6, h7, h8, h9, h10, h11⟩ := h
  have e1 := h1.2.2
  have e2 := h2.le
  have e3 := h7.le
  have e4 := h11.le
  obtain ⟨p, p1, p2, _⟩ := goString_ptr h2 (by omega) (by omega)
  obtain ⟨info, i1, i2⟩ := goCodeInfo_of h7 (by omega) (by omega)
  obtain ⟨f1, f2⟩ := goInlinedFns_of h11 (by omega) hc
  rw [goSym, readNum_lift h1.1]
  simp only [bind, Except.bind, goString_of h1.2 h0 (by omega), p1, p2, readNum_lift h3, readNum_lift h4, readNum_lift h5,
    i1, readNum_lift h8, readNum_lift h9]
  refine ⟨fun hl => ?_, fun hl => ?_⟩
  · obtain ⟨gs, g1, g2⟩ := f1 hl
    rw [g1]
    simp only [readNum_lift h10]
    exact ⟨_, rfl, rfl, rfl, rfl, rfl, toInt64_of h6, i2, g2, rfl⟩
  · rw [f2 hl]

theorem numAt_zeros {m : Mem} {a k : Nat} (h : ∀ (x : Nat), x < k → m (a + x) = some 0) : NumAt m a k 0 := by
  induction k generalizing a with
  | zero => rfl
  | succ k ih =>
    have h1 := ih (a := a + 1) fun x hx => by rw [show a + 1 + x = a + (x + 1) by omega]; exact h _ (by omega)
    have h2 := h 0 (by omega)
    rw [Nat.add_zero] at h2
    simp only [NumAt, Mem.num, Option.bind_eq_bind] at h1 ⊢
    rw [h1, h2]
    rfl

theorem goSym_unknown {m : Mem} {a : Nat} {r : Reason} (h : UnknownAt m a r) :
    ∃ (g : GoSym), goSym m a = .ok g ∧ Shows (.unknown r) g := by
  obtain ⟨hz, n, hn, hr⟩ := h
  have z (off k : Nat) (hk : off + k ≤ 88) : NumAt m (a + off) k 0 := numAt_zeros fun x hx => by
    rw [Nat.add_assoc]; exact hz _ (by omega) (by omega)
  have z0 : NumAt m a 8 0 := z 0 8 (by omega)
  have hg : goCodeInfo m (a + 40) = .ok none := by
    rw [goCodeInfo, show a + 40 + 8 = a + 48 by omega, readNum_lift (z 48 8 (by omega))]
    rfl
  refine ⟨⟨[], [], 0, 0, 0, none, [], n⟩, ?_, hr, rfl⟩
  rw [goSym, readNum_lift z0]
  simp only [bind, Except.bind, show goString m 0 = .ok [] from rfl, readNum_lift (z 8 8 (by omega)),
    readNum_lift (z 16 8 (by omega)), readNum_lift (z 24 8 (by omega)), readNum_lift (z 32 8 (by omega)), hg,
    readNum_lift (z 72 8 (by omega)), readNum_lift (z 80 8 (by omega)), show goInlinedFns m 0 0 = .ok [] from rfl,
    readNum_lift hn]
  rfl

theorem goSyms_of {m : Mem} {results : List Symbolized} {a i i' c c' : Nat} (h : SymArray m a i i' c c' results)
    (h0 : 0 < c) (hc : c' ≤ 2 ^ 64) :
    c ≤ c' ∧ (FewInlined results → ∃ (gs : List GoSym), goSyms m a results.length = .ok gs ∧ List.Forall₂ Shows results gs)
      ∧ (¬FewInlined results → goSyms m a results.length = .error .slice) := by
  induction results generalizing a i c with
  | nil => exact ⟨le_of_eq h.2.symm, fun _ => ⟨[], rfl, .nil⟩, fun hf => absurd (fun _ hx => absurd hx (by simp)) hf⟩
  | cons r rest ih =>
    have hd : symSize = 104 := rfl
    cases r with
    | sym sym =>
      obtain ⟨c₁, h1, h2⟩ := h
      have e1 := h1.le
      obtain ⟨e2, t1, t2⟩ := ih h2 (by omega)
      obtain ⟨g1, g2⟩ := goSym_of h1 h0 (by omega)
      refine ⟨by omega, fun hf => ?_, fun hf => ?_⟩
      · obtain ⟨g, k1, k2⟩ := g1 (hf sym (by simp))
        obtain ⟨gs, k3, k4⟩ := t1 fun y hy => hf y (by simp [hy])
        refine ⟨g :: gs, ?_, .cons k2 k4⟩
        rw [List.length_cons, goSyms, k1]
        simp only [bind, Except.bind, hd, k3]
        rfl
      · rw [List.length_cons, goSyms]
        by_cases hl : sym.inlined.length ≤ 2 ^ 30
        · obtain ⟨g, k1, k2⟩ := g1 hl
          rw [k1]
          simp only [bind, Except.bind, hd]
          rw [t2]
          intro hr
          exact hf fun y hy => by
            rcases List.mem_cons.1 hy with hy | hy
            · simp only [Symbolized.sym.injEq] at hy; rw [hy]; exact hl
            · exact hr y hy
        · rw [g2 (by omega)]; rfl
    | unknown r =>
      obtain ⟨h1, h2⟩ := h
      obtain ⟨e2, t1, t2⟩ := ih h2 h0
      obtain ⟨g, k1, k2⟩ := goSym_unknown h1
      refine ⟨e2, fun hf => ?_, fun hf => ?_⟩
      · obtain ⟨gs, k3, k4⟩ := t1 fun y hy => hf y (by simp [hy])
        refine ⟨g :: gs, ?_, .cons k2 k4⟩
        rw [List.length_cons, goSyms, k1]
        simp only [bind, Except.bind, hd, k3]
        rfl
      · rw [List.length_cons, goSyms, k1]
        simp only [bind, Except.bind, hd]
        rw [t2]
        intro hr
        exact hf fun y hy => by
          rcases List.mem_cons.1 hy with hy | hy
          · cases hy
          · exact hr y hy

theorem symArray_same {m m' : Mem} {results : List Symbolized} {a i i' c c' b e : Nat}
    (h : SymArray m a i i' c c' results) (hs : Same m m' b e) (ha : b ≤ a) (ha' : a + 104 * results.length ≤ e)
    (hi : b ≤ i) (hi' : i' ≤ e) (hc : b ≤ c) (hc' : c' ≤ e) : i ≤ i' ∧ c ≤ c' ∧ SymArray m' a i i' c c' results := by
  induction results generalizing a i c with
  | nil => exact ⟨le_of_eq h.1.symm, le_of_eq h.2.symm, h⟩
  | cons r rest ih =>
    rw [List.length_cons] at ha'
    cases r with
    | sym sym =>
      obtain ⟨c₁, h1, h2⟩ := h
      have e1 := h1.le
      obtain ⟨k1, k2, k3⟩ := ih h2 (by omega) (by omega) (by omega) (by omega)
      exact ⟨by omega, by omega, c₁, h1.same (hs.sub (by omega) (by omega)) (hs.sub (by omega) (by omega))
        (hs.sub (by omega) (by omega)), k3⟩
    | unknown r =>
      obtain ⟨h1, h2⟩ := h
      obtain ⟨k1, k2, k3⟩ := ih h2 (by omega) (by omega) hi hc
      exact ⟨k1, k2, h1.same (hs.sub (by omega) (by omega)), k3⟩

/-! ## Memory -/

/-- An object that owns its memory: nothing was there before. -/
theorem new_spec {alloc : Allocator} (ha : GoodAllocator alloc) {s : Store} (hs : s.Valid) {align : Nat}
    {c : List (Option UInt8)} (hc : c ≠ []) :
    lift (s.box alloc align c) = .error (.c .outOfMemory)
      ∨ ∃ (p : Nat) (s' : Store), lift (s.box alloc align c) = .ok (p, s') ∧ Ext s s' [⟨p, c.length, align⟩]
        ∧ p % align = 0 ∧ 0 < p ∧ p + c.length ≤ 2 ^ 64 ∧ HoldsO s'.mem p c := by
  have he : c.isEmpty = false := by cases c with
    | nil => exact absurd rfl hc
    | cons x c => rfl
  rw [Store.box, he]
  simp only [Bool.false_eq_true, if_false]
  cases h : alloc s c.length align with
  | none => exact Or.inl rfl
  | some a =>
    obtain ⟨h1, h2, h3, _⟩ := ha _ _ _ _ h
    exact Or.inr ⟨a, _, rfl, alloc_ext ha hs hc h, h1, h2, h3, fill_holds _ _ _⟩

theorem goNew_spec {alloc : Allocator} (ha : GoodAllocator alloc) {s : Store} (hs : s.Valid) {bs : Bytes} (hb : bs ≠ []) :
    goNew alloc s bs = .error (.c .outOfMemory)
      ∨ ∃ (p : Nat) (s' : Store), goNew alloc s bs = .ok (p, s') ∧ Ext s s' [⟨p, bs.length, 8⟩]
        ∧ p % 8 = 0 ∧ 0 < p ∧ p + bs.length ≤ 2 ^ 64 ∧ Holds s'.mem p bs := by
  have hne : init bs ≠ [] := by cases bs with
    | nil => exact absurd rfl hb
    | cons b bs => simp [init]
  rcases new_spec ha hs (align := 8) hne with h | ⟨p, s', h1, h2, h3, h4, h5, h6⟩
  · exact Or.inl h
  · rw [init_length] at h2 h5
    exact Or.inr ⟨p, s', h1, h2, h3, h4, h5, h6.holds⟩

theorem cMalloc_spec {alloc : Allocator} (ha : GoodAllocator alloc) {s : Store} (hs : s.Valid)
    (c : List (Option UInt8)) :
    cMalloc alloc s c = .error (.c .outOfMemory)
      ∨ ∃ (p : Nat) (s' : Store), cMalloc alloc s c = .ok (p, s') ∧ Ext s s' [⟨p, max c.length 1, 16⟩]
        ∧ p % 16 = 0 ∧ 0 < p ∧ p + max c.length 1 ≤ 2 ^ 64 ∧ HoldsO s'.mem p c := by
  cases c with
  | nil =>
    rcases new_spec ha hs (align := 16) (c := [none]) (by simp) with h | ⟨p, s', h1, h2, h3, h4, h5, _⟩
    · exact Or.inl h
    · exact Or.inr ⟨p, s', h1, h2, h3, h4, h5, fun i hi => absurd hi (by simp)⟩
  | cons x c =>
    have hm : max (x :: c).length 1 = (x :: c).length := by simp
    rw [hm]
    exact new_spec ha hs (align := 16) (c := x :: c) (by simp)

theorem cString_spec {alloc : Allocator} (ha : GoodAllocator alloc) {s : Store} (hs : s.Valid) (str : Bytes) :
    cString alloc s str = .error (.c .outOfMemory)
      ∨ ∃ (p : Nat) (s' : Store), cString alloc s str = .ok (p, s') ∧ Ext s s' [⟨p, str.length + 1, 16⟩]
        ∧ 0 < p ∧ p + (str.length + 1) ≤ 2 ^ 64 ∧ StrAt s'.mem str p (p + str.length + 1) := by
  have hl : (init (str ++ [0])).length = str.length + 1 := by rw [init_length, List.length_append]; rfl
  rcases cMalloc_spec ha hs (init (str ++ [0])) with h | ⟨p, s', h1, h2, _, h4, h5, h6⟩
  · exact Or.inl h
  · rw [hl, Nat.max_eq_left (by omega)] at h2 h5
    exact Or.inr ⟨p, s', h1, h2, h4, h5, h6.holds, rfl⟩

theorem cstrAt_of {m : Mem} {str : Bytes} {p c' : Nat} (h : StrAt m str p c') (hc : c' ≤ 2 ^ 64) :
    CStrAt m p (upToNul str) := by
  obtain ⟨h1, h2⟩ := (C46_string m str p c' h).1
  have := upToNul_length str
  have := h.2
  exact ⟨h1, h2, by omega⟩

theorem cFree_spec {s : Store} (hs : s.Valid) {p size : Nat} (h : (⟨p, size, 16⟩ : Block) ∈ s.blocks) :
    ∃ (t : Store), cFree s p = .ok t ∧ Freed s t [⟨p, size, 16⟩] := by
  obtain ⟨hp1, hp2, _⟩ := hs.1 _ h
  have hfind : s.blocks.find? (fun b => b.addr == p && b.align == 16) = some ⟨p, size, 16⟩ := by
    cases hf : s.blocks.find? (fun b => b.addr == p && b.align == 16) with
    | none =>
      rw [List.find?_eq_none] at hf
      simpa using hf _ h
    | some b =>
      have hb := List.mem_of_find?_eq_some hf
      have hq := List.find?_some hf
      simp only [Bool.and_eq_true, beq_iff_eq] at hq
      by_contra hne
      have hne : b ≠ ⟨p, size, 16⟩ := fun h => hne (by rw [h])
      obtain ⟨q1, _, _⟩ := hs.1 b hb
      have hap : Block.Apart b ⟨p, size, 16⟩ :=
        have : Std.Symm Block.Apart := ⟨fun _ _ hxy => apart_symm hxy⟩
        hs.2.forall hb h hne
      simp only [Block.Apart] at hap
      simp only at hp1
      omega
  obtain ⟨t, ht, hfr⟩ := free_spec (s := s) (a := p) (size := size) (align := 16) (by
    intro b hb
    rw [owned, if_neg (by simp only at hp1; omega), List.mem_singleton] at hb
    rw [hb]; exact h)
  rw [owned, if_neg (by simp only at hp1; omega)] at hfr
  refine ⟨t, ?_, hfr⟩
  rw [cFree, if_neg (by simp only at hp2; omega), hfind]
  exact lift_ok ht

theorem goDrop_spec {s : Store} {p size : Nat} (h : ∀ b ∈ owned p size 8, b ∈ s.blocks) :
    ∃ (t : Store), goDrop s p size = .ok t ∧ Freed s t (owned p size 8) := by
  obtain ⟨t, ht, hf⟩ := free_spec h
  exact ⟨t, lift_ok ht, hf⟩

/-! ## Structures -/

theorem struct_of {m : Mem} {p n : Nat} {rest : Bytes} (h : Holds m p (leBytes 8 n ++ rest)) (hp : p % 8 = 0)
    (hn : 8 + rest.length = n) (hn' : n < 2 ^ 64) : Struct m p n := by
  refine ⟨hp, num_of_holds _ _ _ _ (by omega) h.left, fun i hi => ?_⟩
  rw [h i (by rw [List.length_append, leBytes_length]; omega)]
  rw [List.getElem?_eq_getElem (by rw [List.length_append, leBytes_length]; omega)]
  rfl

theorem acceptable_of {type : InputType} {m : Mem} {p n k : Nat} {front : Bytes}
    (h : Holds m p (front ++ List.replicate k 0)) (hr : reservedOffset type = front.length) (hn : front.length + k = n)
    (h8 : 8 ≤ n) : Acceptable type m p n := by
  refine ⟨h8, fun i h1 h2 => ?_⟩
  rw [h i (by rw [List.length_append, List.length_replicate]; omega), List.getElem?_append_right (by omega),
    List.getElem?_replicate, if_pos (by omega)]

theorem view_num {m : Mem} {p n off k x : Nat} (h : NumAt m (p + off) k x) (hb : off + k ≤ n) :
    NumAt (view m p n) off k x := (C60_present m p n off k x hb).2 h

theorem cBool_num {m : Mem} {a : Nat} {b : Bool} (h : Holds m a (cBool b)) : BoolAt m a b := by
  have h := h 0 (by simp [cBool])
  rw [Nat.add_zero] at h
  cases b <;> (simp only [cBool] at h; simp [BoolAt, NumAt, Mem.num, h])

theorem elfStruct_of {m : Mem} {p : Nat} {x : ElfStruct} {path : Bytes} (h : Holds m p x.bytes) (hp : p % 8 = 0)
    (hx : x.path < 2 ^ 64) (hs : CStrAt m x.path path) :
    inputAs m p .srcElf (srcElf m) = .ok (.ok (.elf path x.debugSyms)) := by
  have hst : Struct m p 40 := by
    have h' := h
    rw [ElfStruct.bytes, List.append_assoc, List.append_assoc] at h'
    exact struct_of h' hp (by simp [leBytes_length, cBool]) (by omega)
  have hac : Acceptable .srcElf m p 40 :=
    acceptable_of (k := 23) h (by simp [leBytes_length, cBool]; rfl) (by simp [leBytes_length, cBool]) (by omega)
  rw [ElfStruct.bytes] at h
  have h1 := h.left.left.right
  have h2 := h.left.right
  simp only [List.length_append, leBytes_length] at h1 h2
  exact C60_elf hst hac x.path path x.debugSyms (view_num (num_of_holds _ _ _ _ hx h1) (by omega)) hs
    (view_num (cBool_num h2) (by omega))

theorem processStruct_of {m : Mem} {p : Nat} {x : ProcessStruct} (h : Holds m p x.bytes) (hp : p % 8 = 0)
    (hx : x.pid < 2 ^ 32) :
    inputAs m p .srcProcess srcProcess = .ok (.ok (.process
      { pid := x.pid, debugSyms := x.debugSyms, perfMap := x.perfMap, mapFiles := !x.noMapFiles, vdso := !x.noVdso })) := by
  have hst : Struct m p 32 := by
    have h' := h
    rw [ProcessStruct.bytes] at h'
    simp only [List.append_assoc] at h'
    exact struct_of h' hp (by simp [leBytes_length, cBool]) (by omega)
  have hac : Acceptable .srcProcess m p 32 :=
    acceptable_of (k := 16) h (by simp [leBytes_length, cBool]; rfl) (by simp [leBytes_length, cBool]) (by omega)
  rw [ProcessStruct.bytes] at h
  have h1 := h.left.left.left.left.left.right
  have h2 := h.left.left.left.left.right
  have h3 := h.left.left.left.right
  have h4 := h.left.left.right
  have h5 := h.left.right
  simp only [List.length_append, leBytes_length, cBool, List.length_singleton] at h1 h2 h3 h4 h5
  exact C60_process hst hac x.pid x.debugSyms x.perfMap x.noMapFiles x.noVdso
    (view_num (num_of_holds _ _ _ _ hx h1) (by omega)) (view_num (cBool_num h2) (by omega))
    (view_num (cBool_num h3) (by omega)) (view_num (cBool_num h4) (by omega)) (view_num (cBool_num h5) (by omega))

theorem gsymFile_of {m : Mem} {p q : Nat} {path : Bytes} (h : Holds m p (gsymFileBytes q)) (hp : p % 8 = 0)
    (hx : q < 2 ^ 64) (hs : CStrAt m q path) :
    inputAs m p .srcGsymFile (srcGsymFile m) = .ok (.ok (.gsymFile path)) := by
  have hst : Struct m p 32 := by
    have h' := h
    rw [gsymFileBytes, List.append_assoc] at h'
    exact struct_of h' hp (by simp [leBytes_length]) (by omega)
  have hac : Acceptable .srcGsymFile m p 32 :=
    acceptable_of (k := 16) h (by simp [leBytes_length]; rfl) (by simp [leBytes_length]) (by omega)
  rw [gsymFileBytes] at h
  have h1 := h.left.right
  simp only [leBytes_length] at h1
  exact C60_gsym_file hst hac q path (view_num (num_of_holds _ _ _ _ hx h1) (by omega)) hs

theorem gsymData_of {m : Mem} {p q : Nat} {data : Bytes} (h : Holds m p (gsymDataBytes q data.length)) (hp : p % 8 = 0)
    (hx : q + data.length ≤ 2 ^ 64) (hq : 0 < q) (hd : data ≠ []) (hs : Holds m q data) :
    inputAs m p .srcGsymData (srcGsymData m) = .ok (.ok (.gsymData data)) := by
  have hl : 0 < data.length := List.length_pos_iff.2 hd
  have hst : Struct m p 40 := by
    have h' := h
    rw [gsymDataBytes, List.append_assoc, List.append_assoc] at h'
    exact struct_of h' hp (by simp [leBytes_length]) (by omega)
  have hac : Acceptable .srcGsymData m p 40 :=
    acceptable_of (k := 16) h (by simp [leBytes_length]; rfl) (by simp [leBytes_length]) (by omega)
  rw [gsymDataBytes] at h
  have h1 := h.left.left.right
  have h2 := h.left.right
  simp only [List.length_append, leBytes_length] at h1 h2
  exact C60_gsym_data hst hac q data (view_num (num_of_holds _ _ _ _ (by omega) h1) (by omega))
    (view_num (num_of_holds _ _ _ _ (by omega) h2) (by omega)) hs (fun h => absurd h (by omega))

theorem numsAt_of {m : Mem} {a : Nat} {addrs : List Nat} (h : Holds m a (addrsBytes addrs))
    (hx : ∀ (x : Nat), x ∈ addrs → x < 2 ^ 64) : NumsAt m a 8 addrs := by
  induction addrs generalizing a with
  | nil => trivial
  | cons x xs ih =>
    rw [addrsBytes, List.flatMap_cons] at h
    have h2 := h.right
    rw [leBytes_length] at h2
    exact ⟨num_of_holds _ _ _ _ (hx x (by simp)) h.left, ih h2 fun y hy => hx y (by simp [hy])⟩

theorem addrsBytes_length (addrs : List Nat) : (addrsBytes addrs).length = 8 * addrs.length := by
  induction addrs with
  | nil => rfl
  | cons x xs ih =>
    rw [addrsBytes, List.flatMap_cons, List.length_append, leBytes_length, ← addrsBytes, ih, List.length_cons]
    omega

/-! ## Options -/

theorem chosen_cons {α β : Type} (get : α → Option β) (d : β) (x : α) (xs : List α) :
    chosen get d (x :: xs) = chosen get ((get x).getD d) xs := by
  simp only [chosen, List.filterMap_cons]
  cases get x with
  | none => rfl
  | some b => rw [List.getLastD_cons]; rfl

theorem elf_options (options : List ElfSourceOption) (x : ElfStruct) :
    options.foldl ElfSourceOption.apply x = ⟨x.path, chosen elfDebugSyms x.debugSyms options⟩ := by
  induction options generalizing x with
  | nil => rfl
  | cons o options ih =>
    rw [List.foldl_cons, ih, chosen_cons]
    cases o; rfl

theorem process_options (options : List ProcessSourceOption) (x : ProcessStruct) :
    options.foldl ProcessSourceOption.apply x = ⟨x.pid, chosen processDebugSyms x.debugSyms options,
      chosen processPerfMap x.perfMap options, chosen processNoMapFiles x.noMapFiles options,
      chosen processNoVdso x.noVdso options⟩ := by
  induction options generalizing x with
  | nil => rfl
  | cons o options ih =>
    rw [List.foldl_cons, ih, chosen_cons, chosen_cons, chosen_cons, chosen_cons]
    cases o <;> rfl

/-! ## Calls -/

/-- What was allocated with `C.malloc`. -/
def Malloced (p : Nat) (bs : List Block) : Prop := p = 0 ∧ bs = [] ∨ ∃ (n : Nat), bs = [⟨p, n, 16⟩]

theorem strAt_kept {m m' : Mem} {str : Bytes} {p : Nat} (h : StrAt m str p (p + str.length + 1))
    (hu : Unchanged m m' [⟨p, str.length + 1, 16⟩]) : StrAt m' str p (p + str.length + 1) := by
  refine ⟨h.1.same ?_, rfl⟩
  rw [List.length_append, List.length_singleton]
  exact fun x h1 h2 => hu _ (List.mem_singleton_self _) x h1 h2

theorem prepare_spec {alloc : Allocator} (ha : GoodAllocator alloc) {s : Store} (hs : s.Valid) (req : Request)
    (hf : req.Fits) (hd : req ≠ .gsymDataVirtOffsets []) :
    prepare alloc s req = .error (.c .outOfMemory)
      ∨ ∃ (prep : Prepared) (s' : Store) (bs : List Block), prepare alloc s req = .ok (prep, s')
        ∧ Malloced prep.malloced bs ∧ Ext s s' (bs ++ owned prep.object prep.objectSize 8) ∧ prep.source ≠ []
        ∧ ∀ (m : Mem) (p a cnt : Nat) (xs : List Nat),
            Unchanged s'.mem m (bs ++ owned prep.object prep.objectSize 8) → Holds m p prep.source → p % 8 = 0 →
            userArray m a 8 cnt = .ok xs → SymbolizeArgs m p a cnt req.fn req.source (req.input xs) := by
  cases req with
  | elfVirtOffsets path options =>
    rcases cString_spec ha hs path with h | ⟨q, s', h1, h2, h3, h4, h5⟩
    · left; rw [prepare, h]; rfl
    · right
      refine ⟨_, s', [⟨q, path.length + 1, 16⟩], by rw [prepare, h1]; rfl, Or.inr ⟨_, rfl⟩, ?_, ?_, ?_⟩
      · simpa [owned] using h2
      · simp [ElfStruct.bytes, cBool]
      · intro m p a cnt xs hu hh hp hx
        have hu := hu.mono (cs := [⟨q, path.length + 1, 16⟩]) (by simp)
        have := elfStruct_of (x := options.foldl ElfSourceOption.apply (newElfSource q)) hh hp
          (by rw [elf_options]; simp only [newElfSource]; omega)
          (by rw [elf_options]; exact (cstrAt_of (strAt_kept h5 hu) (by omega) : CStrAt m q (upToNul path)))
        rw [elf_options] at this
        exact .elfVirt this hx
  | gsymFileVirtOffsets path =>
    rcases cString_spec ha hs path with h | ⟨q, s', h1, h2, h3, h4, h5⟩
    · left; rw [prepare, h]; rfl
    · right
      refine ⟨_, s', [⟨q, path.length + 1, 16⟩], by rw [prepare, h1]; rfl, Or.inr ⟨_, rfl⟩, ?_, ?_, ?_⟩
      · simpa [owned] using h2
      · simp [gsymFileBytes]
      · intro m p a cnt xs hu hh hp hx
        have hu := hu.mono (cs := [⟨q, path.length + 1, 16⟩]) (by simp)
        exact .gsymFile (gsymFile_of hh hp (by omega) (cstrAt_of (strAt_kept h5 hu) (by omega))) hx
  | gsymDataVirtOffsets data =>
    have hd : data ≠ [] := fun h => hd (by rw [h])
    have he : data.isEmpty = false := by cases data with
      | nil => exact absurd rfl hd
      | cons x c => rfl
    have hl : 0 < data.length := List.length_pos_iff.2 hd
    rw [prepare, he]
    simp only [Bool.false_eq_true, if_false]
    rcases goNew_spec ha hs hd with h | ⟨q, s', h1, h2, h3, h4, h5, h6⟩
    · left; rw [h]; rfl
    · right
      have ho : owned q data.length 8 = [⟨q, data.length, 8⟩] := by rw [owned, if_neg (by omega)]
      refine ⟨⟨gsymDataBytes q data.length, 0, q, data.length⟩, s', [], by rw [h1]; rfl, Or.inl ⟨rfl, rfl⟩, ?_, ?_, ?_⟩
      · simp only [List.nil_append, ho]; exact h2
      · simp [gsymDataBytes]
      · intro m p a cnt xs hu hh hp hx
        simp only [List.nil_append, ho] at hu
        exact .gsymData (gsymData_of hh hp h5 h4 hd
          (h6.same fun x h1 h2 => hu _ (List.mem_singleton_self _) x h1 h2)) hx
  | processAbsAddrs pid options =>
    right
    refine ⟨_, s, [], rfl, Or.inl ⟨rfl, rfl⟩, Ext.refl hs, by simp [ProcessStruct.bytes, cBool], ?_⟩
    intro m p a cnt xs _ hh hp hx
    have := processStruct_of (x := options.foldl ProcessSourceOption.apply (newProcessSource pid)) hh hp
      (by rw [process_options]; exact hf)
    rw [process_options] at this
    exact .process this hx

theorem addrsToPtr_spec {alloc : Allocator} (ha : GoodAllocator alloc) {s : Store} (hs : s.Valid) (addrs : List Nat)
    (hx : ∀ (x : Nat), x ∈ addrs → x < 2 ^ 64) :
    addrsToPtr alloc s addrs = .error (.c .outOfMemory)
      ∨ ∃ (a : Nat) (s' : Store), addrsToPtr alloc s addrs = .ok ((a, addrs.length), s')
        ∧ Ext s s' (owned a (8 * addrs.length) 8)
        ∧ ∀ (m : Mem), Unchanged s'.mem m (owned a (8 * addrs.length) 8) → userArray m a 8 addrs.length = .ok addrs := by
  cases addrs with
  | nil =>
    right
    exact ⟨0, s, rfl, Ext.refl hs, fun m _ => rfl⟩
  | cons x xs =>
    have hl := addrsBytes_length (x :: xs)
    have hne : addrsBytes (x :: xs) ≠ [] := by
      intro h; rw [h] at hl; simp at hl
    rw [addrsToPtr, if_pos (by simp)]
    rcases goNew_spec ha hs hne with h | ⟨q, s', h1, h2, h3, h4, h5, h6⟩
    · left; rw [h]; rfl
    · right
      have ho : owned q (8 * (x :: xs).length) 8 = [⟨q, 8 * (x :: xs).length, 8⟩] := by
        rw [owned, if_neg (by simp)]
      rw [hl] at h2 h5
      refine ⟨q, s', by rw [h1]; rfl, ho ▸ h2, fun m hu => ?_⟩
      refine (C60_array m q 8 (x :: xs) (numsAt_of (h6.same ?_) hx) fun h => absurd h (by omega)).1
      rw [hl]
      rw [ho] at hu
      exact fun y h1 h2 => hu _ (List.mem_singleton_self _) y h1 h2

theorem symArray_le {m : Mem} {results : List Symbolized} {a i i' c c' : Nat}
    (h : SymArray m a i i' c c' results) : i ≤ i' ∧ c ≤ c' := by
  induction results generalizing a i c with
  | nil => exact ⟨le_of_eq h.1.symm, le_of_eq h.2.symm⟩
  | cons r rest ih =>
    cases r with
    | sym sym =>
      obtain ⟨c₁, h1, h2⟩ := h
      have e1 := h1.le
      obtain ⟨k1, k2⟩ := ih h2
      exact ⟨by omega, by omega⟩
    | unknown r => exact ih h.2

theorem processSyms_error {s : Store} {syms : Nat} {err : Int} (h : err ≠ 0) :
    processSyms s syms err = .ok (.error (errText err), s) := by
  rw [processSyms, if_pos h]; rfl

/-- The buffer with results. -/
theorem buffer_spec {alloc : Allocator} (ha : GoodAllocator alloc) {s : Store} (hs : s.Valid) {results : List Symbolized}
    (hf : ∀ (sym : Sym), .sym sym ∈ results → Sym.Fits sym) (hl : bufSize results ≤ 2 ^ 63 - 8) {base : Nat}
    (hb : alloc s (bufSize results) 8 = some base) :
    ∃ (st : Cur) (s' : Store), convertResults (fun size => alloc s size 8) results = .ok (some (base + 8, st))
      ∧ takeRet s (.buffer (base + 8) st) = (base + 8, s') ∧ Ext s s' [⟨base, bufSize results, 8⟩]
      ∧ (¬FewInlined results → processSyms s' (base + 8) 0 = .error .slice)
      ∧ (FewInlined results → ∃ (gs : List GoSym) (t : Store), processSyms s' (base + 8) 0 = .ok (.ok (some gs), t)
          ∧ List.Forall₂ Shows results gs ∧ Freed s' t [⟨base, bufSize results, 8⟩]) := by
  obtain ⟨g1, g2, g3, _⟩ := ha _ _ _ _ hb
  obtain ⟨m, i, c, hok, n0, n1, hi, harr⟩ := convertResults_spec (fun size => alloc s size 8)
    (fun size b hb => ⟨(ha _ _ _ _ hb).1, (ha _ _ _ _ hb).2.1, (ha _ _ _ _ hb).2.2.1⟩) results hf hl base hb
  obtain ⟨l1, l2⟩ := symArray_le harr
  generalize hz : bufSize results = size at *
  obtain ⟨content, hcontent⟩ : ∃ (c : List (Option UInt8)), c = (List.range size).map fun i => m (base + i) := ⟨_, rfl⟩
  have hlen : content.length = size := by rw [hcontent, List.length_map, List.length_range]
  have hpos : 0 < size := by omega
  have hne : content ≠ [] := by intro h; rw [h, List.length_nil] at hlen; omega
  have hext := alloc_ext ha hs (align := 8) hne (by rw [hlen]; exact hb)
  have hsame : Same m (s.mem.fill base content) base (base + size) := by
    intro x h1 h2
    have := fill_holds s.mem base content (x - base) (by omega)
    rw [show base + (x - base) = x by omega] at this
    rw [this, hcontent, List.getElem?_map, List.getElem?_range (by omega)]
    simp only [Option.map_some, Option.join_some]
    rw [show base + (x - base) = x by omega]
  rw [hlen] at hext
  obtain ⟨_, _, harr'⟩ := symArray_same harr hsame (by omega) (by omega) (by omega) (by omega) (by omega) (by omega)
  obtain ⟨_, r1, r2⟩ := goSyms_of harr' (by omega) (by omega)
  have n0' := n0.same (hsame.sub (by omega) (by omega))
  have n1' := n1.same (hsame.sub (by omega) (by omega))
  have hd : symsSize = 8 := rfl
  have hp : ∀ (e : Except Crash (List GoSym)), goSyms (s.mem.fill base content) (base + 8 + 8) results.length = e →
      processSyms ⟨s.mem.fill base content, ⟨base, size, 8⟩ :: s.blocks⟩ (base + 8) 0
        = e >>= fun results => symsFreeIn ⟨s.mem.fill base content, ⟨base, size, 8⟩ :: s.blocks⟩ (base + 8) >>= fun t =>
            .ok (.ok (some results), t) := by
    intro e he
    rw [processSyms, if_neg (by simp), if_neg (by omega)]
    simp only [readNum_lift n1', hd]
    rw [← he]
    rfl
  refine ⟨_, ⟨s.mem.fill base content, ⟨base, size, 8⟩ :: s.blocks⟩, hok, ?_, hext, fun h => ?_, fun h => ?_⟩
  · rw [hcontent]; rfl
  · rw [hp _ (r2 h)]; rfl
  · obtain ⟨gs, k1, k2⟩ := r1 h
    obtain ⟨t, k3, k4⟩ := free_spec (s := ⟨s.mem.fill base content, ⟨base, size, 8⟩ :: s.blocks⟩) (a := base) (size := size)
      (align := 8) (by
        intro b hb
        rw [owned, if_neg (by omega), List.mem_singleton] at hb
        rw [hb]; exact List.mem_cons_self ..)
    rw [owned, if_neg (by omega)] at k4
    refine ⟨gs, t, ?_, k2, k4⟩
    rw [hp _ k1]
    have : symsFreeIn ⟨s.mem.fill base content, ⟨base, size, 8⟩ :: s.blocks⟩ (base + 8) = .ok t := by
      rw [symsFreeIn, symsFree, if_neg (by omega), Nat.add_sub_cancel]
      simp only
      rw [show (s.mem.fill base content).num base 8 = some size from n0']
      exact lift_ok k3
    simp only [bind, Except.bind, this]

theorem ext_freed {s s' t : Store} {all fr leak : List Block} (h : Ext s s' all) (hf : Freed s' t fr)
    (hp : all.Perm (fr ++ leak)) : Ext s t leak := by
  have hb : t.blocks.Perm (leak ++ s.blocks) := by
    have h1 := (hf.blocks.symm.trans h.blocks).trans (hp.append_right s.blocks)
    rw [List.append_assoc] at h1
    exact (List.perm_append_left_iff fr).1 h1
  refine ⟨hb, hf.valid h.valid, h.same.trans ?_⟩
  exact (hf.kept h.valid).mono fun b hm => hb.mem_iff.2 (List.mem_append_right _ hm)

theorem cFree_malloced {s : Store} (hs : s.Valid) {p : Nat} {bs : List Block} (hm : Malloced p bs)
    (h : ∀ b ∈ bs, b ∈ s.blocks) : ∃ (t : Store), cFree s p = .ok t ∧ Freed s t bs := by
  rcases hm with ⟨rfl, rfl⟩ | ⟨n, rfl⟩
  · exact ⟨s, by rw [cFree, if_pos rfl], Freed.refl s⟩
  · exact cFree_spec hs (h _ (List.mem_singleton_self _))

/-- What a goroutine is told whose call left the error `own`, and who then sees the error `seen`; `leak` is what
is not freed. -/
def Told (core : Core) (alloc : Allocator) (req : Request) (addrs : List Nat) (own seen : Int) (res : Result)
    (leak : List Block) : Prop :=
  (seen ≠ 0 ∧ res = .error (errText seen)
      ∧ ((∃ (e : ErrorKind), core.symbolize req.source (req.input addrs) = .error e ∧ own = errCode e ∧ leak = [])
        ∨ (core.symbolize req.source (req.input addrs) = .ok [] ∧ own = 0 ∧ leak = [])
        ∨ ∃ (results : List Symbolized), core.symbolize req.source (req.input addrs) = .ok results ∧ results ≠ []
          ∧ ((own = -12 ∧ leak = [] ∧ ∃ (s : Store), alloc s (bufSize results) 8 = none)
            ∨ (own = 0 ∧ ∃ (p : Nat), leak = [⟨p, bufSize results, 8⟩]))))
  ∨ (seen = 0 ∧ leak = []
      ∧ ((∃ (e : ErrorKind), core.symbolize req.source (req.input addrs) = .error e ∧ own = errCode e ∧ res = .ok none)
        ∨ (core.symbolize req.source (req.input addrs) = .ok [] ∧ own = 0 ∧ res = .ok none)
        ∨ ∃ (results : List Symbolized), core.symbolize req.source (req.input addrs) = .ok results ∧ results ≠ []
          ∧ ((own = -12 ∧ res = .ok none ∧ ∃ (s : Store), alloc s (bufSize results) 8 = none)
            ∨ (own = 0 ∧ FewInlined results ∧ ∃ (gs : List GoSym), res = .ok (some gs) ∧ List.Forall₂ Shows results gs))))

/-- The call of the library, and the processing of what it returns. -/
theorem call_spec {core : Core} (hcore : FitResults core) {alloc : Allocator} (ha : GoodAllocator alloc) {s : Store}
    (hs : s.Valid) {req : Request} {addrs : List Nat} {src a cnt : Nat}
    (hargs : SymbolizeArgs s.mem src a cnt req.fn req.source (req.input addrs)) :
    ∃ (ret : Ret) (own : Int) (syms : Nat) (s' : Store) (bs : List Block),
      run core (fun size => alloc s size 8) s.mem (.symbolize req.fn src a cnt) = .ok (ret, own)
      ∧ takeRet s ret = (syms, s') ∧ Ext s s' bs
      ∧ ∀ (seen : Int),
        (processSyms s' syms seen = .error .slice ∧ ∃ (results : List Symbolized),
            core.symbolize req.source (req.input addrs) = .ok results ∧ ¬FewInlined results)
        ∨ ∃ (res : Result) (t : Store) (fr leak : List Block), processSyms s' syms seen = .ok (res, t)
          ∧ Freed s' t fr ∧ bs.Perm (fr ++ leak) ∧ Told core alloc req addrs own seen res leak := by
  obtain ⟨c1, c2, c3⟩ := C61_symbolize core (fun size => alloc s size 8) s.mem req.fn src a cnt _ _ hargs
  have hnull : processSyms s 0 0 = .ok (.ok none, s) := rfl
  cases hc : core.symbolize req.source (req.input addrs) with
  | error e =>
    refine ⟨_, _, 0, s, [], c1 e hc, rfl, Ext.refl hs, fun seen => Or.inr ?_⟩
    by_cases h0 : seen = 0
    · subst h0
      exact ⟨_, s, [], [], hnull, Freed.refl s, .nil, Or.inr ⟨rfl, rfl, Or.inl ⟨e, hc, rfl, rfl⟩⟩⟩
    · exact ⟨_, s, [], [], processSyms_error h0, Freed.refl s, .nil, Or.inl ⟨h0, rfl, Or.inl ⟨e, hc, rfl, rfl⟩⟩⟩
  | ok results =>
    by_cases hr : results = []
    · subst hr
      refine ⟨_, _, 0, s, [], c2 hc, rfl, Ext.refl hs, fun seen => Or.inr ?_⟩
      by_cases h0 : seen = 0
      · subst h0
        exact ⟨_, s, [], [], hnull, Freed.refl s, .nil, Or.inr ⟨rfl, rfl, Or.inr (Or.inl ⟨hc, rfl, rfl⟩)⟩⟩
      · exact ⟨_, s, [], [], processSyms_error h0, Freed.refl s, .nil,
          Or.inl ⟨h0, rfl, Or.inr (Or.inl ⟨hc, rfl, rfl⟩)⟩⟩
    · obtain ⟨d1, d2⟩ := c3 results hc hr
      obtain ⟨f1, f2⟩ := hcore _ _ _ hc
      cases hal : alloc s (bufSize results) 8 with
      | none =>
        refine ⟨_, _, 0, s, [], d1 ((C46_otherwise _ results).1 f2 hal), rfl, Ext.refl hs, fun seen => Or.inr ?_⟩
        by_cases h0 : seen = 0
        · subst h0
          exact ⟨_, s, [], [], hnull, Freed.refl s, .nil,
            Or.inr ⟨rfl, rfl, Or.inr (Or.inr ⟨results, hc, hr, Or.inl ⟨rfl, rfl, s, hal⟩⟩)⟩⟩
        · exact ⟨_, s, [], [], processSyms_error h0, Freed.refl s, .nil,
            Or.inl ⟨h0, rfl, Or.inr (Or.inr ⟨results, hc, hr, Or.inl ⟨rfl, rfl, s, hal⟩⟩)⟩⟩
      | some base =>
        obtain ⟨st, s', k1, k2, k3, k4, k5⟩ := buffer_spec ha hs f1 f2 hal
        refine ⟨_, _, _, s', _, d2 _ _ k1, k2, k3, fun seen => ?_⟩
        by_cases h0 : seen = 0
        · subst h0
          by_cases hfew : FewInlined results
          · obtain ⟨gs, t, q1, q2, q3⟩ := k5 hfew
            exact Or.inr ⟨_, t, _, [], q1, q3, by rw [List.append_nil],
              Or.inr ⟨rfl, rfl, Or.inr (Or.inr ⟨results, hc, hr, Or.inr ⟨rfl, hfew, gs, rfl, q2⟩⟩)⟩⟩
          · exact Or.inl ⟨k4 hfew, results, rfl, hfew⟩
        · exact Or.inr ⟨_, s', [], _, processSyms_error h0, Freed.refl s', List.Perm.refl _,
            Or.inl ⟨h0, rfl, Or.inr (Or.inr ⟨results, hc, hr, Or.inr ⟨rfl, base, rfl⟩⟩)⟩⟩

theorem symbolize_spec {core : Core} (hcore : FitResults core) {alloc : Allocator} (ha : GoodAllocator alloc) {s : Store}
    (hs : s.Valid) (l : LastErr) (sched : Schedule) {req : Request} (hreq : req.Fits) {addrs : List Nat}
    (haddrs : ∀ (x : Nat), x ∈ addrs → x < 2 ^ 64) :
    (∃ (f : Crash), symbolize core alloc s l sched req addrs = .error f
      ∧ (f = .c .outOfMemory ∨ (f = .index ∧ req = .gsymDataVirtOffsets [])
        ∨ (f = .slice ∧ ∃ (results : List Symbolized), core.symbolize req.source (req.input addrs) = .ok results
            ∧ ¬FewInlined results)))
    ∨ ∃ (res : Result) (s' : Store) (l' : LastErr) (own : Int) (leak : List Block),
        symbolize core alloc s l sched req addrs = .ok (res, s', l')
        ∧ l' = afterOthers (l.set sched.callThread own) sched.others ∧ Ext s s' leak
        ∧ Told core alloc req addrs own (l' sched.errThread) res leak ∧ req ≠ .gsymDataVirtOffsets [] := by
  by_cases hd : req = .gsymDataVirtOffsets []
  · subst hd
    exact Or.inl ⟨.index, rfl, Or.inr (Or.inl ⟨rfl, rfl⟩)⟩
  unfold symbolize
  rcases prepare_spec ha hs req hreq hd with h | ⟨prep, s1, bs, h1, hm, e1, hne, hsrc⟩
  · exact Or.inl ⟨_, by rw [h]; rfl, Or.inl rfl⟩
  rw [h1]
  simp only [bind, Except.bind]
  rcases addrsToPtr_spec ha e1.valid addrs haddrs with h | ⟨a, s2, h2, e2, hx⟩
  · exact Or.inl ⟨_, by rw [h], Or.inl rfl⟩
  rw [h2]
  simp only
  rcases goNew_spec ha e2.valid hne with h | ⟨p, s3, h3, e3, hp, _, _, hh⟩
  · exact Or.inl ⟨_, by rw [h], Or.inl rfl⟩
  rw [h3]
  simp only
  have hargs : SymbolizeArgs s3.mem p a addrs.length req.fn req.source (req.input addrs) :=
    hsrc _ _ _ _ _ ((e1.kept e2).trans (e3.same.mono fun b hb => e2.old_mem b (e1.new_mem b hb))) hh hp
      (hx _ (e2.kept e3))
  obtain ⟨ret, own, syms, s4, cs, h4, h5, e4, hproc⟩ := call_spec hcore ha e3.valid hargs
  rw [lift_ok h4]
  simp only [h5]
  rcases hproc (afterOthers (l.set sched.callThread own) sched.others sched.errThread) with
    ⟨q1, q2⟩ | ⟨res, s5, fr, leak, q1, f5, hperm, told⟩
  · exact Or.inl ⟨_, by rw [q1], Or.inr (Or.inr ⟨rfl, q2⟩)⟩
  rw [q1]
  simp only
  have e := (e1.trans e2).trans (e3.trans e4)
  have v5 := f5.valid e4.valid
  have hsz : prep.source.length ≠ 0 := fun h => hne (List.length_eq_zero_iff.1 h)
  have ho : owned p prep.source.length 8 = [⟨p, prep.source.length, 8⟩] := by rw [owned, if_neg hsz]
  have e5 : Ext s s5 (bs ++ (owned p prep.source.length 8 ++ (owned a (8 * addrs.length) 8
      ++ (owned prep.object prep.objectSize 8 ++ leak)))) := by
    refine ext_freed e f5 ?_
    rw [List.perm_iff_count] at hperm ⊢
    intro b
    have := hperm b
    rw [ho]
    simp only [List.count_append] at this ⊢
    omega
  obtain ⟨s6, h6, f6⟩ := cFree_malloced v5 hm fun b hb => e5.new_mem b (List.mem_append_left _ hb)
  have e6 := ext_freed e5 f6 (List.Perm.refl _)
  obtain ⟨s7, h7, f7⟩ := goDrop_spec fun b hb => e6.new_mem b (List.mem_append_left _ hb)
  have e7 := ext_freed e6 f7 (List.Perm.refl _)
  obtain ⟨s8, h8, f8⟩ := goDrop_spec fun b hb => e7.new_mem b (List.mem_append_left _ hb)
  have e8 := ext_freed e7 f8 (List.Perm.refl _)
  obtain ⟨s9, h9, f9⟩ := goDrop_spec fun b hb => e8.new_mem b (List.mem_append_left _ hb)
  have e9 := ext_freed e8 f9 (List.Perm.refl _)
  refine Or.inr ⟨res, s9, _, own, leak, ?_, rfl, e9, told, hd⟩
  rw [h6]
  simp only
  rw [h7]
  simp only
  rw [h8]
  simp only
  rw [h9]
  rfl

end Blazesym.Go
