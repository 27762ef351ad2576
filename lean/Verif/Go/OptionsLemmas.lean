import Verif.Go.BindingsLemmas

/-! Lemmas about the options of symbolizers of the Go bindings. -/

set_option autoImplicit false

namespace Blazesym.Go

open Blazesym.CApi Blazesym.Error Blazesym.Symbolize

/-- The pointers at `a` lead to strings, which own their memory. -/
def ArrAt (m : Mem) : Nat → List Bytes → List Block → Prop
  | _, [], bs => bs = []
  | a, d :: ds, bs => ∃ (p : Nat) (rest : List Block), NumAt m a 8 p ∧ 0 < p ∧ p + d.length + 1 ≤ 2 ^ 64
      ∧ StrAt m d p (p + d.length + 1) ∧ bs = ⟨p, d.length + 1, 16⟩ :: rest ∧ ArrAt m (a + 8) ds rest

theorem ArrAt.same {m m' : Mem} {ds : List Bytes} {a : Nat} {bs : List Block} (h : ArrAt m a ds bs)
    (hs : Same m m' a (a + 8 * ds.length)) (hu : Unchanged m m' bs) : ArrAt m' a ds bs := by
  induction ds generalizing a bs with
  | nil => exact h
  | cons d ds ih =>
    obtain ⟨p, rest, h1, h2, h3, h4, rfl, h5⟩ := h
    rw [List.length_cons] at hs
    refine ⟨p, rest, h1.same (hs.sub (by omega) (by omega)), h2, h3,
      strAt_kept h4 (hu.mono (by simp)), rfl, ih h5 (hs.sub (by omega) (by omega)) (hu.mono (by simp +contextual))⟩

theorem ArrAt.ptrs {m : Mem} {ds : List Bytes} {a : Nat} {bs : List Block} (h : ArrAt m a ds bs) :
    ∃ (ptrs : List Nat), ptrs.length = ds.length ∧ NumsAt m a 8 ptrs
      ∧ List.Forall₂ (CStrAt m) ptrs (ds.map upToNul) := by
  induction ds generalizing a bs with
  | nil => exact ⟨[], rfl, trivial, .nil⟩
  | cons d ds ih =>
    obtain ⟨p, rest, h1, h2, h3, h4, rfl, h5⟩ := h
    obtain ⟨ptrs, k1, k2, k3⟩ := ih h5
    exact ⟨p :: ptrs, by simp [k1], ⟨h1, k2⟩, .cons (cstrAt_of h4 h3) k3⟩

theorem putStrings_spec {alloc : Allocator} (ha : GoodAllocator alloc) {ds : List Bytes} {s : Store} (hs : s.Valid)
    {a : Nat} {B : Block} (hB : B ∈ s.blocks) (h1 : B.addr ≤ a) (h2 : a + 8 * ds.length ≤ B.addr + B.size) :
    putStrings alloc s a ds = .error (.c .outOfMemory)
      ∨ ∃ (s' : Store) (bs : List Block), putStrings alloc s a ds = .ok s' ∧ ArrAt s'.mem a ds bs
        ∧ s'.blocks.Perm (bs ++ s.blocks) ∧ s'.Valid
        ∧ ∀ (b : Block), b ∈ s.blocks → ∀ (x : Nat), b.addr ≤ x → x < b.addr + b.size →
            ¬(a ≤ x ∧ x < a + 8 * ds.length) → s'.mem x = s.mem x := by
  induction ds generalizing s a with
  | nil => exact Or.inr ⟨s, [], rfl, rfl, List.Perm.refl _, hs, fun _ _ _ _ _ _ => rfl⟩
  | cons d ds ih =>
    rw [List.length_cons] at h2
    rcases cString_spec ha hs d with h | ⟨p, s1, k1, e1, k3, k4, k5⟩
    · exact Or.inl (by rw [putStrings, h]; rfl)
    have hB1 : B ∈ s1.blocks := e1.old_mem B hB
    have hw : cWrite s1 a (leBytes 8 p) = .ok { s1 with mem := s1.mem.set a (leBytes 8 p) } := by
      rw [cWrite, if_pos]
      rw [List.any_eq_true]
      exact ⟨B, hB1, by simp only [leBytes_length, Bool.and_eq_true, decide_eq_true_eq]; omega⟩
    obtain ⟨s2, hs2⟩ : ∃ (t : Store), t = { s1 with mem := s1.mem.set a (leBytes 8 p) } := ⟨_, rfl⟩
    have hout (x : Nat) (hx : ¬(a ≤ x ∧ x < a + 8)) : s2.mem x = s1.mem x := by
      rw [hs2]
      simp only [Mem.set, leBytes_length]
      rw [if_neg hx]
    have hcell : NumAt s2.mem a 8 p := by rw [hs2]; exact numAt_set _ a 8 p (by omega)
    have v2 : s2.Valid := by rw [hs2]; exact e1.valid
    have hb2 : s2.blocks = s1.blocks := by rw [hs2]
    have hnew : (⟨p, d.length + 1, 16⟩ : Block) ∈ s1.blocks := e1.new_mem _ (List.mem_singleton_self _)
    have hap : Block.Apart ⟨p, d.length + 1, 16⟩ B := by
      have hp := pairwise_perm e1.blocks e1.valid.2
      exact (List.pairwise_append.1 hp).2.2 _ (List.mem_singleton_self _) _ hB
    simp only [Block.Apart] at hap
    rcases ih v2 (a := a + 8) (by rw [hb2]; exact hB1) (by omega) (by omega) with h | ⟨s3, bs, q1, q2, q3, q4, q5⟩
    · exact Or.inl (by rw [putStrings, k1]; simp only [bind, Except.bind, hw, ← hs2]; exact h)
    refine Or.inr ⟨s3, ⟨p, d.length + 1, 16⟩ :: bs, by
      rw [putStrings, k1]; simp only [bind, Except.bind, hw, ← hs2]; exact q1,
      ⟨p, bs, ?_, k3, by omega, ?_, rfl, q2⟩, ?_, q4, ?_⟩
    · exact hcell.same fun x x1 x2 => q5 B (by rw [hb2]; exact hB1) x (by omega) (by omega) (by omega)
    · refine strAt_kept k5 fun b hb x x1 x2 => ?_
      rw [List.mem_singleton] at hb
      subst hb
      simp only at x1 x2
      rw [q5 _ (by rw [hb2]; exact hnew) x x1 x2 (by omega), hout x (by omega)]
    · rw [hb2] at q3
      refine q3.trans ((e1.blocks.append_left bs).trans ?_)
      exact (List.perm_middle (l₁ := bs) (a := (⟨p, d.length + 1, 16⟩ : Block)) (l₂ := s.blocks))
    · intro b hb x x1 x2 x3
      rw [List.length_cons] at x3
      rw [q5 b (by rw [hb2]; exact e1.old_mem b hb) x x1 x2 (by omega), hout x (by omega)]
      exact e1.same b hb x x1 x2

/-- The block of an array of pointers. -/
def arrBlock (p n : Nat) : Block := ⟨p, max (n * 8) 1, 16⟩

theorem makeArray_spec {alloc : Allocator} (ha : GoodAllocator alloc) {s : Store} (hs : s.Valid) (ds : List Bytes) :
    makeCArrayOfStrings alloc s ds = .error (.c .outOfMemory)
      ∨ ∃ (p : Nat) (s' : Store) (bs : List Block), makeCArrayOfStrings alloc s ds = .ok (p, s')
        ∧ ArrAt s'.mem p ds bs ∧ 0 < p ∧ p + 8 * ds.length ≤ 2 ^ 64 ∧ Ext s s' (arrBlock p ds.length :: bs) := by
  rcases cMalloc_spec ha hs (List.replicate (ds.length * 8) none) with h | ⟨p, s1, k1, e1, k3, k4, k5, k6⟩
  · exact Or.inl (by rw [makeCArrayOfStrings, h]; rfl)
  rw [List.length_replicate] at e1 k5
  have hB := e1.new_mem _ (List.mem_singleton_self _)
  rcases putStrings_spec ha (ds := ds) e1.valid (a := p) hB (by simp only; omega) (by simp only; omega) with
    h | ⟨s2, bs, q1, q2, q3, q4, q5⟩
  · exact Or.inl (by rw [makeCArrayOfStrings, k1]; simp only [bind, Except.bind, h])
  refine Or.inr ⟨p, s2, bs, by rw [makeCArrayOfStrings, k1]; simp only [bind, Except.bind, q1]; rfl, q2, k4, by omega, ?_⟩
  refine ⟨?_, q4, ?_⟩
  · refine q3.trans ((e1.blocks.append_left bs).trans ?_)
    exact List.perm_middle
  · intro b hb x x1 x2
    have hp := pairwise_perm e1.blocks e1.valid.2
    have hap : Block.Apart _ b := (List.pairwise_append.1 hp).2.2 _ (List.mem_singleton_self _) _ hb
    simp only [Block.Apart] at hap
    rw [q5 b (e1.old_mem b hb) x x1 x2 (by omega)]
    exact e1.same b hb x x1 x2

theorem freeStrings_spec {ds : List Bytes} {s : Store} (hs : s.Valid) {a : Nat} {B : Block} {bs others : List Block}
    (h : ArrAt s.mem a ds bs) (hp : s.blocks.Perm (bs ++ B :: others)) (h1 : B.addr ≤ a)
    (h2 : a + 8 * ds.length ≤ B.addr + B.size) :
    ∃ (t : Store), freeStrings s a ds.length = .ok t ∧ Freed s t bs := by
  induction ds generalizing s a bs with
  | nil =>
    have : bs = [] := h
    exact ⟨s, rfl, this ▸ Freed.refl s⟩
  | cons d ds ih =>
    obtain ⟨p, rest, k1, k2, k3, k4, rfl, k5⟩ := h
    rw [List.length_cons] at h2
    obtain ⟨s1, q1, f1⟩ := cFree_spec hs (p := p) (size := d.length + 1) (hp.mem_iff.2 (by simp))
    have hp1 : s1.blocks.Perm (rest ++ B :: others) :=
      (List.perm_append_left_iff [(⟨p, d.length + 1, 16⟩ : Block)]).1 (f1.blocks.symm.trans hp)
    have hk := f1.kept hs
    have hB : B ∈ s1.blocks := hp1.mem_iff.2 (by simp)
    obtain ⟨t, q2, f2⟩ := ih (f1.valid hs) (a := a + 8) (k5.same (fun x x1 x2 => hk B hB x (by omega) (by omega))
      (hk.mono fun b hb => hp1.mem_iff.2 (List.mem_append_left _ hb))) hp1 (by omega) (by omega)
    refine ⟨t, ?_, f1.trans f2⟩
    rw [List.length_cons, freeStrings, readNum_lift k1]
    simp only [bind, Except.bind, q1, q2]

theorem freeArray_spec {ds : List Bytes} (hd : ds ≠ []) {s : Store} (hs : s.Valid) {p : Nat} {bs others : List Block}
    (h : ArrAt s.mem p ds bs) (hp : s.blocks.Perm (arrBlock p ds.length :: bs ++ others)) :
    ∃ (t : Store), freeCArrayOfStrings s p ds.length = .ok t ∧ Freed s t (arrBlock p ds.length :: bs) := by
  have hl : 0 < ds.length := List.length_pos_iff.2 hd
  have hp' : s.blocks.Perm (bs ++ arrBlock p ds.length :: others) := hp.trans (List.perm_middle.symm)
  obtain ⟨s1, q1, f1⟩ := freeStrings_spec hs (B := arrBlock p ds.length) h hp' (le_refl _)
    (by simp only [arrBlock]; omega)
  have hp1 : s1.blocks.Perm (arrBlock p ds.length :: others) :=
    (List.perm_append_left_iff bs).1 (f1.blocks.symm.trans hp')
  obtain ⟨t, q2, f2⟩ := cFree_spec (f1.valid hs) (p := p) (size := max (ds.length * 8) 1) (hp1.mem_iff.2 (by simp [arrBlock]))
  refine ⟨t, ?_, ?_, ?_⟩
  · rw [freeCArrayOfStrings, if_neg (by omega), q1]
    exact q2
  · exact (f1.trans f2).blocks.trans (List.perm_append_comm.append_right _)
  · exact fun x hx => (f1.trans f2).same x fun b hb => hx b (by
      rcases List.mem_append.1 hb with hb | hb
      · exact List.mem_cons_of_mem _ hb
      · rw [List.mem_singleton] at hb; rw [hb]; exact List.mem_cons_self ..)

/-- The debug directories set: none, an empty array (nothing of which will be freed), or an array of strings. -/
def Dirs (m : Mem) (p n : Nat) : Option (List Bytes) → List Block → Prop
  | none, own => p = 0 ∧ n = 0 ∧ own = []
  | some [], own => 0 < p ∧ p < 2 ^ 64 ∧ n = 0 ∧ own = []
  | some (d :: ds), own => 0 < p ∧ p < 2 ^ 64 ∧ n = (d :: ds).length ∧ n < 2 ^ 61
      ∧ ∃ (bs : List Block), own = arrBlock p n :: bs ∧ ArrAt m p (d :: ds) bs

theorem Dirs.kept {m m' : Mem} {p n : Nat} {cur : Option (List Bytes)} {own : List Block} (h : Dirs m p n cur own)
    (hu : Unchanged m m' own) : Dirs m' p n cur own := by
  match cur, h with
  | none, h => exact h
  | some [], h => exact h
  | some (d :: ds), ⟨h1, h2, h3, h4, bs, h5, h6⟩ =>
    subst h5
    refine ⟨h1, h2, h3, h4, bs, rfl, h6.same ?_ (hu.mono fun b hb => List.mem_cons_of_mem _ hb)⟩
    exact fun x x1 x2 => hu _ (List.mem_cons_self ..) x x1 (by simp only [arrBlock]; omega)

theorem dirs_free {s : Store} (hs : s.Valid) {p n : Nat} {cur : Option (List Bytes)} {own others : List Block}
    (h : Dirs s.mem p n cur own) (hp : s.blocks.Perm (own ++ others)) :
    ∃ (t : Store), freeCArrayOfStrings s p n = .ok t ∧ Freed s t own := by
  match cur, h with
  | none, ⟨_, h1, h2⟩ => subst h1 h2; exact ⟨s, rfl, Freed.refl s⟩
  | some [], ⟨_, _, h1, h2⟩ => subst h1 h2; exact ⟨s, rfl, Freed.refl s⟩
  | some (d :: ds), ⟨h1, h2, h3, h4, bs, h5, h6⟩ =>
    subst h5 h3
    exact freeArray_spec (by simp) hs h6 hp

/-- Blocks of arrays without elements. -/
def EmptyArrays (leak : List Block) (n : Nat) : Prop :=
  leak.length = n ∧ ∀ (b : Block), b ∈ leak → b.size = 1 ∧ b.align = 16

/-- The options set so far. -/
structure Opts (s₀ s : Store) (x : OptsStruct) (cur : Option (List Bytes)) (own leak : List Block) : Prop where
  ext : Ext s₀ s (own ++ leak)
  dirs : Dirs s.mem x.debugDirs x.debugDirsLen cur own

theorem apply_spec {alloc : Allocator} (ha : GoodAllocator alloc) {s₀ s : Store} {x : OptsStruct}
    {cur : Option (List Bytes)} {own leak : List Block} {n : Nat} (h : Opts s₀ s x cur own leak) (hl : EmptyArrays leak n)
    (o : SymbolizerOption) :
    o.apply alloc s x = .error (.c .outOfMemory)
      ∨ ∃ (x' : OptsStruct) (s' : Store) (own' leak' : List Block), o.apply alloc s x = .ok (x', s')
        ∧ Opts s₀ s' x' (((optDebugDirs o).map some).getD cur) own' leak'
        ∧ EmptyArrays leak' (n + (emptyDirs [o]).length)
        ∧ x'.autoReload = (optAutoReload o).getD x.autoReload ∧ x'.codeInfo = (optCodeInfo o).getD x.codeInfo
        ∧ x'.inlinedFns = (optInlinedFns o).getD x.inlinedFns ∧ x'.demangle = (optDemangle o).getD x.demangle := by
  cases o with
  | withDebugDirs ds =>
    obtain ⟨s1, q1, f1⟩ := dirs_free h.ext.valid h.dirs (others := leak ++ s₀.blocks) (by
      rw [← List.append_assoc]; exact h.ext.blocks)
    have e1 : Ext s₀ s1 leak := ext_freed h.ext f1 (List.Perm.refl _)
    have happ : SymbolizerOption.apply alloc s x (.withDebugDirs ds) = (makeCArrayOfStrings alloc s1 ds >>= fun r =>
        .ok ({ x with debugDirs := r.1, debugDirsLen := ds.length }, r.2)) := by
      rw [SymbolizerOption.apply]
      by_cases h0 : x.debugDirsLen = 0
      · rw [h0] at q1
        have q1 : (.ok s : Except Crash Store) = .ok s1 := q1
        rw [if_neg (by simpa using h0), q1]
        rfl
      · rw [if_pos h0, q1]
        rfl
    rw [happ]
    simp only [bind, Except.bind]
    rcases makeArray_spec ha e1.valid ds with h' | ⟨p, s2, bs, k1, k2, k3, k4, e2⟩
    · exact Or.inl (by rw [h'])
    rw [k1]
    have e := e1.trans e2
    right
    cases ds with
    | nil =>
      have : bs = [] := k2
      subst this
      refine ⟨_, _, [], leak ++ [arrBlock p 0], rfl, ⟨?_, k3, ?_, rfl, rfl⟩, ⟨?_, ?_⟩, rfl, rfl, rfl, rfl⟩
      · simpa using e
      · have := (e2.valid.1 _ (e2.new_mem _ (List.mem_cons_self ..))).2.2
        simp only [arrBlock] at this ⊢
        omega
      · simp [emptyDirs, optDebugDirs, hl.1]
      · intro b hb
        rcases List.mem_append.1 hb with hb | hb
        · exact hl.2 b hb
        · rw [List.mem_singleton] at hb; subst hb; exact ⟨rfl, rfl⟩
    | cons d ds =>
      have hll : (d :: ds).length = ds.length + 1 := rfl
      refine ⟨_, _, arrBlock p (d :: ds).length :: bs, leak, rfl,
        ⟨⟨e.blocks.trans (List.perm_append_comm.append_right _), e.valid, e.same⟩, k3,
        by simp only; omega, rfl, by simp only; omega, bs, rfl, k2⟩, ?_, rfl, rfl, rfl, rfl⟩
      simpa [emptyDirs, optDebugDirs] using hl
  | withAutoReload b => exact Or.inr ⟨_, s, own, leak, rfl, ⟨h.ext, h.dirs⟩, hl, rfl, rfl, rfl, rfl⟩
  | withCodeInfo b => exact Or.inr ⟨_, s, own, leak, rfl, ⟨h.ext, h.dirs⟩, hl, rfl, rfl, rfl, rfl⟩
  | withInlinedFns b => exact Or.inr ⟨_, s, own, leak, rfl, ⟨h.ext, h.dirs⟩, hl, rfl, rfl, rfl, rfl⟩
  | withDemangle b => exact Or.inr ⟨_, s, own, leak, rfl, ⟨h.ext, h.dirs⟩, hl, rfl, rfl, rfl, rfl⟩

theorem emptyDirs_cons (o : SymbolizerOption) (options : List SymbolizerOption) :
    (emptyDirs (o :: options)).length = (emptyDirs [o]).length + (emptyDirs options).length := by
  rw [← List.length_append]
  congr 1
  simp only [emptyDirs]
  rw [← List.filter_append, ← List.filterMap_append]
  rfl

theorem applyOptions_spec {alloc : Allocator} (ha : GoodAllocator alloc) {options : List SymbolizerOption}
    {s₀ s : Store} {x : OptsStruct} {cur : Option (List Bytes)} {own leak : List Block} {n : Nat}
    (h : Opts s₀ s x cur own leak) (hl : EmptyArrays leak n) :
    applyOptions alloc s x options = .error (.c .outOfMemory)
      ∨ ∃ (x' : OptsStruct) (s' : Store) (own' leak' : List Block), applyOptions alloc s x options = .ok (x', s')
        ∧ Opts s₀ s' x' (chosen (fun o => (optDebugDirs o).map some) cur options) own' leak'
        ∧ EmptyArrays leak' (n + (emptyDirs options).length)
        ∧ x'.autoReload = chosen optAutoReload x.autoReload options ∧ x'.codeInfo = chosen optCodeInfo x.codeInfo options
        ∧ x'.inlinedFns = chosen optInlinedFns x.inlinedFns options
        ∧ x'.demangle = chosen optDemangle x.demangle options := by
  induction options generalizing s x cur own leak n with
  | nil => exact Or.inr ⟨x, s, own, leak, rfl, h, hl, rfl, rfl, rfl, rfl⟩
  | cons o options ih =>
    rw [applyOptions]
    rcases apply_spec ha h hl o with h' | ⟨x1, s1, own1, leak1, k1, k2, k3, k4, k5, k6, k7⟩
    · exact Or.inl (by rw [h']; rfl)
    rw [k1]
    simp only [bind, Except.bind]
    rcases ih k2 k3 with h' | ⟨x2, s2, own2, leak2, q1, q2, q3, q4, q5, q6, q7⟩
    · exact Or.inl h'
    refine Or.inr ⟨x2, s2, own2, leak2, q1, ?_, ?_, ?_, ?_, ?_, ?_⟩
    · rw [chosen_cons]; exact q2
    · rw [emptyDirs_cons, ← Nat.add_assoc]; exact q3
    · rw [chosen_cons, ← k4]; exact q4
    · rw [chosen_cons, ← k5]; exact q5
    · rw [chosen_cons, ← k6]; exact q6
    · rw [chosen_cons, ← k7]; exact q7

theorem chosen_some (options : List SymbolizerOption) :
    chosen (fun o => (optDebugDirs o).map some) none options = (options.filterMap optDebugDirs).getLast? := by
  simp only [chosen]
  rw [show (fun o => (optDebugDirs o).map some) = fun o => Option.map (some : List Bytes → _) (optDebugDirs o) from rfl,
    ← List.map_filterMap, List.getLastD_eq_getLast?, List.getLast?_map]
  cases (options.filterMap optDebugDirs).getLast? <;> rfl

theorem optsStruct_of {m : Mem} {p : Nat} {x : OptsStruct} {cur : Option (List Bytes)} {own : List Block}
    (h : Holds m p x.bytes) (hp : p % 8 = 0) (hd : Dirs m x.debugDirs x.debugDirsLen cur own) :
    inputAs m p .symbolizerOpts (symbolizerOpts m) = .ok (.ok
      ⟨cur.map fun dirs => dirs.map upToNul, x.autoReload, x.codeInfo, x.inlinedFns, x.demangle, none⟩) := by
  have hst : Struct m p 48 := by
    have h' := h
    rw [OptsStruct.bytes, List.append_assoc, List.append_assoc, List.append_assoc, List.append_assoc, List.append_assoc,
      List.append_assoc] at h'
    exact struct_of h' hp (by simp [leBytes_length, cBool]) (by omega)
  have hac : Acceptable .symbolizerOpts m p 48 := by
    have h' := h
    rw [OptsStruct.bytes, show List.replicate 20 (0 : UInt8) = List.replicate 12 0 ++ List.replicate 8 0 from rfl,
      ← List.append_assoc] at h'
    exact acceptable_of (k := 8) h' (by simp [leBytes_length, cBool]; rfl) (by simp [leBytes_length, cBool]) (by omega)
  obtain ⟨ptrs, c1, c2, c3, c4⟩ : ∃ (ptrs : List Nat), ptrs.length = x.debugDirsLen ∧ x.debugDirs < 2 ^ 64
      ∧ x.debugDirsLen < 2 ^ 61
      ∧ ((x.debugDirs = 0 ∧ cur = none) ∨ (x.debugDirs ≠ 0 ∧ ∃ (ds : List Bytes), cur = some ds
        ∧ NumsAt m x.debugDirs 8 ptrs ∧ List.Forall₂ (CStrAt m) ptrs (ds.map upToNul))) := by
    match cur, hd with
    | none, ⟨h1, h2, h3⟩ => exact ⟨[], by simp [h2], by omega, by omega, Or.inl ⟨h1, rfl⟩⟩
    | some [], ⟨h1, h2, h3, h4⟩ => exact ⟨[], by simp [h3], h2, by omega, Or.inr ⟨by omega, [], rfl, trivial, .nil⟩⟩
    | some (d :: ds), ⟨h1, h2, h3, h4, bs, h5, h6⟩ =>
      obtain ⟨ptrs, k1, k2, k3⟩ := h6.ptrs
      exact ⟨ptrs, by rw [k1, h3], h2, h4, Or.inr ⟨by omega, d :: ds, rfl, k2, k3⟩⟩
  rw [OptsStruct.bytes] at h
  have h1 := h.left.left.left.left.left.left.right
  have h2 := h.left.left.left.left.left.right
  have h3 := h.left.left.left.left.right
  have h4 := h.left.left.left.right
  have h5 := h.left.left.right
  have h6 := h.left.right
  have h7 := h.right
  simp only [List.length_append, leBytes_length, cBool, List.length_cons, List.length_nil] at h1 h2 h3 h4 h5 h6 h7
  have hz : NumAt m (p + 32) 8 0 := by
    refine numAt_zeros fun i hi => ?_
    have := h7 (4 + i) (by rw [List.length_replicate]; omega)
    rw [show p + 32 + i = p + (8 + 8 + 8 + (0 + 1) + (0 + 1) + (0 + 1) + (0 + 1)) + (4 + i) by omega, this,
      List.getElem?_replicate, if_pos (by omega)]
  obtain ⟨opts, r1, r2, r3, r4, r5, r6, r7, r8, r9⟩ := C60_symbolizer hst hac x.debugDirs 0 ptrs
    ((cur.getD []).map upToNul) x.autoReload x.codeInfo x.inlinedFns x.demangle
    (view_num (num_of_holds _ _ _ _ (by omega) h1) (by omega))
    (c1 ▸ view_num (num_of_holds _ _ _ _ (by omega) h2) (by omega))
    (fun h0 => by
      rcases c4 with ⟨c5, _⟩ | ⟨_, ds, c6, c7, c8⟩
      · exact absurd c5 h0
      · rw [c6]; exact ⟨c7, c8⟩)
    (view_num (cBool_num h3) (by omega)) (view_num (cBool_num h4) (by omega))
    (view_num (cBool_num h5) (by omega)) (view_num (cBool_num h6) (by omega)) (view_num hz (by omega))
  rw [r1]
  have hdirs : opts.debugDirs = cur.map fun dirs => dirs.map upToNul := by
    rcases c4 with ⟨c5, rfl⟩ | ⟨c5, ds, rfl, _, _⟩
    · exact r6 c5
    · exact r7 c5
  have : opts = ⟨cur.map fun dirs => dirs.map upToNul, x.autoReload, x.codeInfo, x.inlinedFns, x.demangle, none⟩ := by
    rw [← hdirs, ← r2, ← r3, ← r4, ← r5, ← r8 rfl]
  rw [this]

/-- New symbolizers. -/
theorem newSymbolizer_spec {alloc : Allocator} (ha : GoodAllocator alloc) {s : Store} (hs : s.Valid) (l : LastErr)
    (sched : Schedule) (options : List SymbolizerOption) :
    newSymbolizer alloc s l sched options = .error (.c .outOfMemory)
      ∨ ∃ (s' : Store) (leak : List Block), newSymbolizer alloc s l sched options
          = .ok (.ok (settings options), s', afterOthers (l.set sched.callThread 0) sched.others)
        ∧ Ext s s' leak ∧ EmptyArrays leak (emptyDirs options).length := by
  unfold newSymbolizer
  rcases applyOptions_spec ha (options := options) (s₀ := s) (s := s) (x := newSymbolizerOptions) (cur := none) (own := [])
    (leak := []) (n := 0) ⟨Ext.refl hs, rfl, rfl, rfl⟩ ⟨rfl, by simp⟩ with
    h | ⟨x, s1, own, leak, h1, ho, hl, k1, k2, k3, k4⟩
  · exact Or.inl (by rw [h]; rfl)
  rw [h1]
  simp only [bind, Except.bind]
  rcases goNew_spec ha ho.ext.valid (bs := x.bytes) (by simp [OptsStruct.bytes, cBool]) with h | ⟨p, s2, h2, e2, hp, _, _, hh⟩
  · exact Or.inl (by rw [h])
  rw [h2]
  simp only
  have hd := ho.dirs.kept (e2.same.mono fun b hb => ho.ext.new_mem b (List.mem_append_left _ hb))
  have hin := optsStruct_of hh hp hd
  have hset : settings options = ⟨(chosen (fun o => (optDebugDirs o).map some) none options).map fun dirs =>
      dirs.map upToNul, x.autoReload, x.codeInfo, x.inlinedFns, x.demangle, none⟩ := by
    rw [k1, k2, k3, k4, chosen_some]; rfl
  rw [← hset] at hin
  have hnew : lift (symbolizerNewOpts s2.mem p) = .ok (some (settings options), 0) := by
    rw [symbolizerNewOpts, hin]; rfl
  rw [hnew]
  simp only
  have e := ho.ext.trans e2
  obtain ⟨s3, h3, f3⟩ := dirs_free e2.valid hd (others := leak ++ ([⟨p, x.bytes.length, 8⟩] ++ s.blocks)) (by
    refine e.blocks.trans ?_
    simp only [List.append_assoc]
    exact List.Perm.refl _)
  have hsz : owned p x.bytes.length 8 = [⟨p, x.bytes.length, 8⟩] := by
    rw [owned, if_neg (by simp [OptsStruct.bytes, cBool])]
  have e3 : Ext s s3 ([⟨p, x.bytes.length, 8⟩] ++ leak) := ext_freed e f3 (by
    rw [List.append_assoc]
    exact List.perm_append_comm.append_left _)
  obtain ⟨s4, h4, f4⟩ := goDrop_spec (s := s3) (p := p) (size := x.bytes.length) fun b hb => e3.new_mem b (by
    rw [hsz] at hb; exact List.mem_append_left _ hb)
  rw [hsz] at f4
  refine Or.inr ⟨s4, leak, ?_, ext_freed e3 f4 (List.Perm.refl _), by rw [Nat.zero_add] at hl; exact hl⟩
  rw [h3]
  simp only
  rw [h4]
  rfl

end Blazesym.Go
