import Verif.CApi.OutputSpec
import Verif.CApi.InspectProps
import Verif.CApi.InputProps

/-! Lemmas about allocated memory and the conversion of normalization results. -/

set_option autoImplicit false

namespace Blazesym.CApi

open Blazesym.Symbolize

/-! ## Memory -/

/-- The bytes, some of which are not initialised, are at address `a`. -/
def HoldsO (m : Mem) (a : Nat) (c : List (Option UInt8)) : Prop := ∀ (i : Nat), i < c.length → m (a + i) = (c[i]?).join

theorem fill_holds (m : Mem) (a : Nat) (c : List (Option UInt8)) : HoldsO (m.fill a c) a c := by
  intro i hi
  simp only [Mem.fill]
  rw [if_pos (by omega), Nat.add_sub_cancel_left]

theorem fill_same (m : Mem) (a : Nat) (c : List (Option UInt8)) (b b' : Nat) (h : b' ≤ a ∨ a + c.length ≤ b) :
    Same m (m.fill a c) b b' := by
  intro x hx hx'
  simp only [Mem.fill]
  rw [if_neg (by omega)]

theorem HoldsO.left {m : Mem} {a : Nat} {c c' : List (Option UInt8)} (h : HoldsO m a (c ++ c')) : HoldsO m a c := by
  intro i hi
  rw [h i (by rw [List.length_append]; omega), List.getElem?_append_left hi]

theorem HoldsO.right {m : Mem} {a : Nat} {c c' : List (Option UInt8)} (h : HoldsO m a (c ++ c')) :
    HoldsO m (a + c.length) c' := by
  intro i hi
  rw [Nat.add_assoc, h (c.length + i) (by rw [List.length_append]; omega),
    List.getElem?_append_right (by omega), Nat.add_sub_cancel_left]

theorem HoldsO.holds {m : Mem} {a : Nat} {bs : Bytes} (h : HoldsO m a (init bs)) : Holds m a bs := by
  intro i hi
  rw [h i (by rw [init, List.length_map]; exact hi), init, List.getElem?_map]
  cases hb : bs[i]? with
  | none => rfl
  | some b => rfl

theorem init_length (bs : Bytes) : (init bs).length = bs.length := List.length_map ..

theorem HoldsO.same {m m' : Mem} {a : Nat} {c : List (Option UInt8)} (h : HoldsO m a c)
    (hs : Same m m' a (a + c.length)) : HoldsO m' a c :=
  fun i hi => (hs (a + i) (by omega) (by omega)).trans (h i hi)

theorem Unchanged.at {m m' : Mem} {bs : List Block} {b : Block} (h : Unchanged m m' bs) (hb : b ∈ bs) :
    Same m m' b.addr (b.addr + b.size) := h b hb

theorem Unchanged.trans {m m' m'' : Mem} {bs : List Block} (h : Unchanged m m' bs) (h' : Unchanged m' m'' bs) :
    Unchanged m m'' bs := fun b hb x h1 h2 => (h' b hb x h1 h2).trans (h b hb x h1 h2)

theorem Unchanged.mono {m m' : Mem} {bs cs : List Block} (h : Unchanged m m' bs) (hs : ∀ b ∈ cs, b ∈ bs) :
    Unchanged m m' cs := fun b hb => h b (hs b hb)

theorem unchanged_refl (m : Mem) (bs : List Block) : Unchanged m m bs := fun _ _ _ _ _ => rfl

theorem unchanged_owned {m m' : Mem} {a size align : Nat} (h : Unchanged m m' (owned a size align)) :
    Same m m' a (a + size) := by
  intro x h1 h2
  exact h ⟨a, size, align⟩ (by rw [owned, if_neg (by omega)]; exact List.mem_singleton_self _) x h1 h2

theorem unchanged_of_same {m m' : Mem} {a size align : Nat} (h : Same m m' a (a + size)) :
    Unchanged m m' (owned a size align) := by
  intro b hb x h1 h2
  unfold owned at hb
  split at hb
  · cases hb
  · rw [List.mem_singleton] at hb; subst hb; exact h x h1 h2

/-! ## Allocations -/

theorem apart_symm {b c : Block} (h : b.Apart c) : c.Apart b := Or.symm h

theorem pairwise_perm {l l' : List Block} (h : l.Perm l') (hp : l.Pairwise Block.Apart) : l'.Pairwise Block.Apart :=
  (h.pairwise_iff (R := Block.Apart) (fun hxy => apart_symm hxy)).1 hp

/-- More is allocated; what was allocated before is the same. -/
structure Ext (s s' : Store) (bs : List Block) : Prop where
  blocks : s'.blocks.Perm (bs ++ s.blocks)
  valid : s'.Valid
  same : Unchanged s.mem s'.mem s.blocks

theorem Ext.refl {s : Store} (h : s.Valid) : Ext s s [] := ⟨List.Perm.refl _, h, unchanged_refl _ _⟩

theorem Ext.new_mem {s s' : Store} {bs : List Block} (h : Ext s s' bs) : ∀ b ∈ bs, b ∈ s'.blocks :=
  fun _ hb => h.blocks.mem_iff.2 (List.mem_append_left _ hb)

theorem Ext.old_mem {s s' : Store} {bs : List Block} (h : Ext s s' bs) : ∀ b ∈ s.blocks, b ∈ s'.blocks :=
  fun _ hb => h.blocks.mem_iff.2 (List.mem_append_right _ hb)

theorem Ext.trans {s s' s'' : Store} {bs cs : List Block} (h : Ext s s' bs) (h' : Ext s' s'' cs) :
    Ext s s'' (bs ++ cs) := by
  refine ⟨h'.blocks.trans ?_, h'.valid, h.same.trans (h'.same.mono h.old_mem)⟩
  refine ((List.Perm.refl cs).append h.blocks).trans ?_
  rw [← List.append_assoc]
  exact List.perm_append_comm.append_right _

theorem Ext.kept {s s' s'' : Store} {bs cs : List Block} (h : Ext s s' bs) (h' : Ext s' s'' cs) :
    Unchanged s'.mem s''.mem bs := h'.same.mono h.new_mem

theorem alloc_ext {alloc : Allocator} (ha : GoodAllocator alloc) {s : Store} (hs : s.Valid)
    {align a : Nat} {c : List (Option UInt8)} (hc : c ≠ []) (h : alloc s c.length align = some a) :
    Ext s ⟨s.mem.fill a c, ⟨a, c.length, align⟩ :: s.blocks⟩ [⟨a, c.length, align⟩] := by
  obtain ⟨_, h2, h3, h4⟩ := ha _ _ _ _ h
  have hl : 0 < c.length := List.length_pos_iff.2 hc
  refine ⟨List.Perm.refl _, ⟨?_, List.pairwise_cons.2 ⟨h4, hs.2⟩⟩, ?_⟩
  · intro b hb
    rcases List.mem_cons.1 hb with rfl | hb
    · exact ⟨hl, h2, h3⟩
    · exact hs.1 b hb
  · intro b hb x hx hx'
    refine fill_same s.mem a c b.addr (b.addr + b.size) ?_ x hx hx'
    rcases h4 b hb with h | h
    · exact Or.inr h
    · exact Or.inl h

theorem box_spec {alloc : Allocator} (ha : GoodAllocator alloc) {s : Store} (hs : s.Valid)
    {align : Nat} {c : List (Option UInt8)} {a : Nat} {s' : Store} (hal : 0 < align) (hal' : align + 1 ≤ 2 ^ 64)
    (h : s.box alloc align c = .ok (a, s')) :
    Ext s s' (owned a c.length align) ∧ 0 < a ∧ HoldsO s'.mem a c ∧ a + c.length ≤ 2 ^ 64 := by
  unfold Store.box at h
  split at h
  · rename_i hc
    rw [List.isEmpty_iff] at hc
    subst hc
    simp only [Except.ok.injEq, Prod.mk.injEq] at h
    obtain ⟨rfl, rfl⟩ := h
    exact ⟨Ext.refl hs, hal, fun i hi => absurd hi (by simp), by simp only [List.length_nil]; omega⟩
  · rename_i hc
    rw [List.isEmpty_iff] at hc
    split at h
    · cases h
    · rename_i x hx
      simp only [Except.ok.injEq, Prod.mk.injEq] at h
      obtain ⟨rfl, rfl⟩ := h
      have hl : 0 < c.length := List.length_pos_iff.2 hc
      have e := alloc_ext ha hs hc hx
      rw [owned, if_neg (by omega)]
      obtain ⟨_, h2, h3, _⟩ := ha _ _ _ _ hx
      exact ⟨e, h2, fill_holds _ _ _, h3⟩

/-! ## Metadata -/

theorem cstringRaw_spec {alloc : Allocator} (ha : GoodAllocator alloc) {s : Store} (hs : s.Valid)
    {str : Bytes} {p : Nat} {s' : Store} (h : cstringRaw alloc s str = .ok (p, s')) :
    ∃ (bs : List Block), Ext s s' bs ∧ p < 2 ^ 64
      ∧ ∀ (m : Mem) (a : Nat), Unchanged s'.mem m bs → NumAt m a 8 p → OwnPathAt m a str bs := by
  unfold cstringRaw at h
  split at h
  · cases h
  · rename_i h0
    obtain ⟨e, hp, hh, hl⟩ := box_spec ha hs (by decide) (by decide) h
    rw [init_length, List.length_append, List.length_singleton] at *
    refine ⟨_, e, by omega, fun m a hu hn => ⟨p, hn, hp, by omega, ⟨?_, h0⟩, ?_⟩⟩
    · refine hh.holds.same ?_
      rw [List.length_append, List.length_singleton]
      exact unchanged_owned hu
    · rw [owned, if_neg (by omega)]

theorem buildIdRaw_spec {alloc : Allocator} (ha : GoodAllocator alloc) {s : Store} (hs : s.Valid)
    {id : Option Bytes} {p : Nat} {s' : Store} (h : buildIdRaw alloc s id = .ok (p, s')) :
    ∃ (bs : List Block), Ext s s' bs ∧ p < 2 ^ 64
      ∧ ∀ (m : Mem) (a : Nat), Unchanged s'.mem m bs → NumAt m a 8 ((id.map List.length).getD 0) → NumAt m (a + 8) 8 p →
        BuildIdAt m a id bs := by
  cases id with
  | none =>
    simp only [buildIdRaw, Except.ok.injEq, Prod.mk.injEq] at h
    obtain ⟨rfl, rfl⟩ := h
    exact ⟨[], Ext.refl hs, by decide, fun m a _ h1 h2 => ⟨h1, h2, rfl⟩⟩
  | some id =>
    simp only [buildIdRaw] at h
    obtain ⟨e, hp, hh, hl⟩ := box_spec ha hs (by decide) (by decide) h
    rw [init_length] at *
    have hp' : p < 2 ^ 64 := by
      cases id with
      | nil =>
        simp only [init, Store.box, List.map_nil, List.isEmpty_nil, if_true, Except.ok.injEq, Prod.mk.injEq] at h
        omega
      | cons b id => simp only [List.length_cons] at hl; omega
    exact ⟨_, e, hp', fun m a hu h1 h2 => ⟨p, h1, h2, hp, hh.holds.same (unchanged_owned hu), rfl⟩⟩

/-- The bytes of a structure are those of `x`, which owns the blocks. -/
def Elem (m : Mem) (e : List (Option UInt8)) (x : OutMeta) (bs : List Block) : Prop :=
  e.length = 64 ∧ ∀ (m' : Mem) (a : Nat), Unchanged m m' bs → HoldsO m' a e →
    MetaAt m' a x bs ∧ Holds m' (a + 1) (List.replicate 7 0) ∧ Holds m' (a + 48) (List.replicate 16 0)

theorem metaBytes_length (kind : Nat) (v : Bytes) (hv : v.length ≤ 40) : (metaBytes kind v).length = 64 := by
  simp only [metaBytes, List.length_append, init_length, leBytes_length, List.length_replicate]
  omega

theorem metaBytes_holds {kind : Nat} {v : Bytes} (hv : v.length ≤ 40) (hk : kind < 256) {m : Mem} {a : Nat}
    (h : HoldsO m a (metaBytes kind v)) :
    NumAt m a 1 kind ∧ Holds m (a + 1) (List.replicate 7 0) ∧ Holds m (a + 8) v
      ∧ Holds m (a + 48) (List.replicate 16 0) := by
  unfold metaBytes at h
  have h1 := h.left.left.holds
  have h4 := h.right.holds
  simp only [List.length_append, init_length, leBytes_length, List.length_replicate] at h4
  have hz := h1.left.right
  have hv' := h1.right
  simp only [List.length_append, leBytes_length, List.length_replicate] at hz hv'
  refine ⟨num_of_holds _ _ _ _ (by omega) h1.left.left, hz, hv', ?_⟩
  rw [show a + (1 + 7 + v.length + (40 - v.length)) = a + 48 by omega] at h4
  exact h4

theorem convertMeta_spec {alloc : Allocator} (ha : GoodAllocator alloc) {s : Store} (hs : s.Valid)
    {x : OutMeta} (hf : x.Fits) {e : List (Option UInt8)} {s' : Store} (h : convertMeta alloc s x = .ok (e, s')) :
    ∃ (bs : List Block), Ext s s' bs ∧ Elem s'.mem e x bs := by
  cases x with
  | apk path =>
    have h' : (cstringRaw alloc s path >>= fun r =>
      Except.ok (metaBytes 1 (leBytes 8 r.1 ++ List.replicate 16 0), r.2)) = .ok (e, s') := h
    cases hc : cstringRaw alloc s path with
    | error f => rw [hc] at h'; cases h'
    | ok r =>
      obtain ⟨p, s₁⟩ := r
      rw [hc] at h'
      simp only [bind, Except.bind, Except.ok.injEq, Prod.mk.injEq] at h'
      obtain ⟨rfl, rfl⟩ := h'
      obtain ⟨bs, e, hp, hm⟩ := cstringRaw_spec ha hs hc
      refine ⟨bs, e, metaBytes_length _ _ (by simp [leBytes_length]), fun m' a hu hh => ?_⟩
      obtain ⟨h1, h2, h3, h4⟩ := metaBytes_holds (by simp [leBytes_length]) (by decide) hh
      have h5 := h3.right
      rw [leBytes_length] at h5
      exact ⟨⟨h1, hm m' _ hu (num_of_holds _ _ _ _ hp h3.left), h5⟩, h2, h4⟩
  | elf path id =>
    have h' : (cstringRaw alloc s path >>= fun r => buildIdRaw alloc r.2 id >>= fun r' =>
      Except.ok (metaBytes 2 (leBytes 8 r.1 ++ leBytes 8 ((id.map List.length).getD 0) ++ leBytes 8 r'.1
      ++ List.replicate 16 0), r'.2)) = .ok (e, s') := h
    cases hc : cstringRaw alloc s path with
    | error f => rw [hc] at h'; cases h'
    | ok r =>
      obtain ⟨p, s₁⟩ := r
      rw [hc] at h'
      simp only [bind, Except.bind] at h'
      cases hb : buildIdRaw alloc s₁ id with
      | error f => rw [hb] at h'; cases h'
      | ok r' =>
        obtain ⟨q, s₂⟩ := r'
        rw [hb] at h'
        simp only [Except.ok.injEq, Prod.mk.injEq] at h'
        obtain ⟨rfl, rfl⟩ := h'
        obtain ⟨bs, e, hp, hm⟩ := cstringRaw_spec ha hs hc
        obtain ⟨bs', e', hp', hm'⟩ := buildIdRaw_spec ha e.valid hb
        refine ⟨bs ++ bs', e.trans e', metaBytes_length _ _ (by simp [leBytes_length]), fun m' a hu hh => ?_⟩
        obtain ⟨h1, h2, h3, h4⟩ := metaBytes_holds (by simp [leBytes_length]) (by decide) hh
        have h5 := h3.right
        have h6 := h3.left.right
        have h7 := h3.left.left.right
        have h8 := h3.left.left.left
        simp only [List.length_append, leBytes_length] at h5 h6 h7
        have hlen : (id.map List.length).getD 0 < 256 ^ 8 := by
          cases id with
          | none => decide
          | some id => exact hf
        refine ⟨⟨bs, bs', h1, hm m' _ ?_ (num_of_holds _ _ _ _ hp h8), hm' m' _ ?_ (num_of_holds _ _ _ _ hlen h7)
          (num_of_holds _ _ _ _ hp' h6), h5, rfl⟩, h2, h4⟩
        · exact (e.kept e').trans (hu.mono fun b hb => List.mem_append_left _ hb)
        · exact hu.mono fun b hb => List.mem_append_right _ hb
  | sym sym =>
    simp only [convertMeta] at h
    cases hal : alloc s (metaSymSize sym) 8 with
    | none =>
      have hn : convertMetaSym (fun size => alloc s size 8) sym = .ok none := by
        rw [convertMetaSym, allocate, if_neg (by have := hf.2; omega)]
        simp only [hal]; rfl
      rw [hn] at h; cases h
    | some base =>
      obtain ⟨st, i, c, hok, hbase, hsize, hsym, hi, hc, hfree⟩ := C46_single_symbol (fun size => alloc s size 8)
        (fun size b hb => ⟨(ha _ _ _ _ hb).1, (ha _ _ _ _ hb).2.1, (ha _ _ _ _ hb).2.2.1⟩) sym hf.1 hf.2 base hal
      rw [hok] at h
      simp only [bind, Except.bind, pure, Except.pure, Except.ok.injEq, Prod.mk.injEq] at h
      obtain ⟨rfl, rfl⟩ := h
      have hsz : metaSymSize sym = 8 + 104 + sym.inlined.length * 48 + symStrSize sym := rfl
      rw [hbase, hsize]
      obtain ⟨content, hcontent⟩ : ∃ (c : List (Option UInt8)),
        c = (List.range (metaSymSize sym)).map fun i => st.heap.mem (base + i) := ⟨_, rfl⟩
      have hlen : content.length = metaSymSize sym := by rw [hcontent, List.length_map, List.length_range]
      have hne : content ≠ [] := by intro h; rw [h, List.length_nil] at hlen; omega
      have hext := alloc_ext ha hs (align := 8) hne (by rw [hlen]; exact hal)
      obtain ⟨g1, g2, g3, _⟩ := ha _ _ _ _ hal
      rw [← hcontent]
      rw [hlen] at hext
      refine ⟨_, hext, metaBytes_length _ _ (by simp [leBytes_length]), fun m' a hu hh => ?_⟩
      have hsame : Same st.heap.mem m' base (base + metaSymSize sym) := by
        intro x h1 h2
        rw [hu _ (List.mem_singleton_self _) x h1 h2]
        have := fill_holds s.mem base content (x - base) (by omega)
        rw [show base + (x - base) = x by omega] at this
        simp only
        rw [this, hcontent, List.getElem?_map, List.getElem?_range (by omega)]
        simp only [Option.map_some, Option.join_some]
        rw [show base + (x - base) = x by omega]
      have hnum : NumAt st.heap.mem base 8 (metaSymSize sym) := by
        simp only [symsFree] at hfree
        rw [if_neg (by omega), Nat.add_sub_cancel] at hfree
        cases hn : st.heap.mem.num base 8 with
        | none => rw [hn] at hfree; cases hfree
        | some n =>
          rw [hn] at hfree
          simp only [Option.map_some, Option.some.injEq, Prod.mk.injEq, true_and] at hfree
          rw [NumAt, hn, hfree]
      obtain ⟨h1, h2, h3, h4⟩ := metaBytes_holds (by simp [leBytes_length]) (by decide) hh
      have h5 := h3.right
      rw [leBytes_length] at h5
      subst hi hc
      refine ⟨⟨base, metaSymSize sym, base + 8 + 104, _, h1, num_of_holds _ _ _ _ (by omega) h3.left,
        hnum.same (hsame.sub (by omega) (by omega)), by omega, hsym.same (hsame.sub (by omega) (by omega))
          (hsame.sub (by omega) (by omega)) (hsame.sub (by omega) (by omega)), rfl, rfl, h5, rfl⟩, h2, h4⟩
  | unknown reason =>
    simp only [convertMeta, Except.ok.injEq, Prod.mk.injEq] at h
    obtain ⟨rfl, rfl⟩ := h
    refine ⟨[], Ext.refl hs, metaBytes_length _ _ (by simp [leBytes_length]), fun m' a hu hh => ?_⟩
    obtain ⟨h1, h2, h3, h4⟩ := metaBytes_holds (by simp [leBytes_length]) (by decide) hh
    have h5 := h3.right
    rw [leBytes_length] at h5
    have hcode : normalizeReason reason < 256 ^ 1 := by cases reason <;> decide
    exact ⟨⟨_, h1, num_of_holds _ _ _ _ hcode h3.left, by cases reason <;> decide, h5, rfl⟩, h2, h4⟩

/-- The same for an array. -/
def Elems (m : Mem) (e : List (Option UInt8)) (xs : List OutMeta) (bs : List Block) : Prop :=
  e.length = 64 * xs.length ∧ ∀ (m' : Mem) (a : Nat), Unchanged m m' bs → HoldsO m' a e → MetaArray m' a xs bs

theorem convertMetas_spec {alloc : Allocator} (ha : GoodAllocator alloc) {xs : List OutMeta} {s : Store} (hs : s.Valid)
    (hf : ∀ (x : OutMeta), x ∈ xs → x.Fits) {e : List (Option UInt8)} {s' : Store}
    (h : convertMetas alloc s xs = .ok (e, s')) : ∃ (bs : List Block), Ext s s' bs ∧ Elems s'.mem e xs bs := by
  induction xs generalizing s e s' with
  | nil =>
    simp only [convertMetas, Except.ok.injEq, Prod.mk.injEq] at h
    obtain ⟨rfl, rfl⟩ := h
    exact ⟨[], Ext.refl hs, rfl, fun _ _ _ _ => rfl⟩
  | cons x xs ih =>
    have h' : (convertMeta alloc s x >>= fun r => convertMetas alloc r.2 xs >>= fun r' =>
      Except.ok (r.1 ++ r'.1, r'.2)) = .ok (e, s') := h
    cases hc : convertMeta alloc s x with
    | error f => rw [hc] at h'; cases h'
    | ok r =>
      obtain ⟨e₁, s₁⟩ := r
      rw [hc] at h'
      simp only [bind, Except.bind] at h'
      cases hd : convertMetas alloc s₁ xs with
      | error f => rw [hd] at h'; cases h'
      | ok r' =>
        obtain ⟨e₂, s₂⟩ := r'
        rw [hd] at h'
        simp only [Except.ok.injEq, Prod.mk.injEq] at h'
        obtain ⟨rfl, rfl⟩ := h'
        obtain ⟨bs, h1, hl, h2⟩ := convertMeta_spec ha hs (hf x (List.mem_cons_self ..)) hc
        obtain ⟨bs', h1', hl', h2'⟩ := ih h1.valid (fun y hy => hf y (List.mem_cons_of_mem _ hy)) hd
        refine ⟨bs ++ bs', h1.trans h1', by rw [List.length_append, hl, hl', List.length_cons]; omega, fun m' a hu hh => ?_⟩
        obtain ⟨g1, g2, g3⟩ := h2 m' a ((h1.kept h1').trans (hu.mono fun b hb => List.mem_append_left _ hb)) hh.left
        have hr := hh.right
        rw [hl] at hr
        exact ⟨bs, bs', g1, g2, g3, h2' m' _ (hu.mono fun b hb => List.mem_append_right _ hb) hr, rfl⟩

theorem outputBytes_length (o : Nat × Nat) : (outputBytes o).length = 32 := by
  simp [outputBytes, leBytes_length]

theorem outputs_length (outs : List (Nat × Nat)) : (outs.flatMap outputBytes).length = 32 * outs.length := by
  induction outs with
  | nil => rfl
  | cons o outs ih => rw [List.flatMap_cons, List.length_append, ih, outputBytes_length, List.length_cons]; omega

theorem outputArray_of {m : Mem} {outs : List (Nat × Nat)} {a : Nat}
    (hf : ∀ (o : Nat × Nat), o ∈ outs → o.1 < 2 ^ 64 ∧ o.2 < 2 ^ 64) (h : Holds m a (outs.flatMap outputBytes)) :
    OutputArray m a outs := by
  induction outs generalizing a with
  | nil => trivial
  | cons o outs ih =>
    obtain ⟨x, i⟩ := o
    rw [List.flatMap_cons] at h
    have h1 := h.left
    have h2 := h.right
    rw [outputBytes_length] at h2
    unfold outputBytes at h1
    have g1 := h1.left.left
    have g2 := h1.left.right
    have g3 := h1.right
    simp only [List.length_append, leBytes_length] at g2 g3
    obtain ⟨f1, f2⟩ := hf _ (List.mem_cons_self ..)
    exact ⟨num_of_holds _ _ _ _ f1 g1, num_of_holds _ _ _ _ f2 g2, g3,
      ih (fun o ho => hf o (List.mem_cons_of_mem _ ho)) h2⟩

theorem convertOutput_spec {alloc : Allocator} (ha : GoodAllocator alloc) {s : Store} (hs : s.Valid)
    {out : UserOutput} (hf : out.Fits) {p : Nat} {s' : Store} (h : convertOutput alloc s out = .ok (p, s')) :
    ∃ (bs : List Block), Ext s s' bs ∧ UserOutputAt s'.mem p out bs := by
  have h' : (convertMetas alloc s out.metas >>= fun r => r.2.box alloc 8 r.1 >>= fun r₁ =>
    r₁.2.box alloc 8 (init (out.outputs.flatMap outputBytes)) >>= fun r₂ =>
      r₂.2.box alloc 8 (init (leBytes 8 out.metas.length ++ leBytes 8 r₁.1 ++ leBytes 8 out.outputs.length
        ++ leBytes 8 r₂.1 ++ List.replicate 16 0))) = .ok (p, s') := h
  obtain ⟨f1, f2, f3, f4⟩ := hf
  cases hc : convertMetas alloc s out.metas with
  | error f => rw [hc] at h'; cases h'
  | ok r =>
    obtain ⟨e, s₁⟩ := r
    rw [hc] at h'
    simp only [bind, Except.bind] at h'
    cases hd : s₁.box alloc 8 e with
    | error f => rw [hd] at h'; cases h'
    | ok r₁ =>
      obtain ⟨metas, s₂⟩ := r₁
      rw [hd] at h'
      simp only at h'
      cases he : s₂.box alloc 8 (init (out.outputs.flatMap outputBytes)) with
      | error f => rw [he] at h'; cases h'
      | ok r₂ =>
        obtain ⟨outputs, s₃⟩ := r₂
        rw [he] at h'
        simp only at h'
        obtain ⟨bs, h1, hl, h2⟩ := convertMetas_spec ha hs f3 hc
        obtain ⟨k1, kp, kh, kl⟩ := box_spec ha h1.valid (by decide) (by decide) hd
        obtain ⟨l1, lp, lh, ll⟩ := box_spec ha k1.valid (by decide) (by decide) he
        obtain ⟨n1, np, nh, nl⟩ := box_spec ha l1.valid (by decide) (by decide) h'
        rw [init_length, outputs_length] at l1 ll
        rw [hl] at k1 kl
        have hn : (leBytes 8 out.metas.length ++ leBytes 8 metas ++ leBytes 8 out.outputs.length
          ++ leBytes 8 outputs ++ List.replicate 16 (0 : UInt8)).length = 48 := by simp [leBytes_length]
        rw [init_length, hn] at n1 nl
        have nh' := nh.holds
        have w1 := nh'.left.left.left.left
        have w2 := nh'.left.left.left.right
        have w3 := nh'.left.left.right
        have w4 := nh'.left.right
        have w5 := nh'.right
        simp only [List.length_append, leBytes_length] at w2 w3 w4 w5
        have e12 := h1.trans k1
        have e13 := e12.trans l1
        have e23 := k1.trans l1
        have e34 := l1.trans n1
        -- the arrays are at addresses below 2 ^ 64
        have hmetas : metas < 256 ^ 8 := by
          rcases Nat.eq_zero_or_pos e.length with h0 | h0
          · have : metas = 8 := by
              rw [List.length_eq_zero_iff] at h0
              subst h0
              simp only [Store.box, List.isEmpty_nil, if_true, Except.ok.injEq, Prod.mk.injEq] at hd
              exact hd.1.symm
            omega
          · omega
        have houtputs : outputs < 256 ^ 8 := by
          rcases Nat.eq_zero_or_pos out.outputs.length with h0 | h0
          · have : outputs = 8 := by
              rw [List.length_eq_zero_iff] at h0
              rw [h0] at he
              simp only [Store.box, init, List.flatMap_nil, List.map_nil, List.isEmpty_nil, if_true, Except.ok.injEq,
                Prod.mk.injEq] at he
              exact he.1.symm
            omega
          · omega
        refine ⟨_, e13.trans n1, metas, outputs, bs, np, num_of_holds _ _ _ _ f1 w1, num_of_holds _ _ _ _ hmetas w2,
          ?_, num_of_holds _ _ _ _ f2 w3, num_of_holds _ _ _ _ houtputs w4, ?_, w5, ?_⟩
        · refine h2 _ _ ((h1.kept (e23.trans n1))) (kh.same ?_)
          rw [hl]
          exact unchanged_owned (k1.kept e34)
        · refine outputArray_of f4 (lh.holds.same ?_)
          rw [outputs_length]
          exact unchanged_owned (l1.kept n1)
        · rfl

/-! ## Success and failure -/

theorem box_error {alloc : Allocator} {s : Store} {align : Nat} {c : List (Option UInt8)} {f : Fault}
    (h : s.box alloc align c = .error f) : f = .outOfMemory := by
  unfold Store.box at h
  split at h
  · cases h
  · split at h
    · simp only [Except.error.injEq] at h; exact h.symm
    · cases h

theorem cstringRaw_error {alloc : Allocator} {s : Store} {str : Bytes} {f : Fault} (h0 : 0 ∉ str)
    (h : cstringRaw alloc s str = .error f) : f = .outOfMemory := by
  rw [cstringRaw, if_neg h0] at h
  exact box_error h

theorem convertMeta_error {alloc : Allocator} (ha : GoodAllocator alloc) {s : Store} {x : OutMeta} (hf : x.Fits)
    (h0 : ∀ (path : Bytes), x.path? = some path → 0 ∉ path) {f : Fault} (h : convertMeta alloc s x = .error f) : f = .outOfMemory := by
  cases x with
  | apk path =>
    simp only [convertMeta] at h
    cases hc : cstringRaw alloc s path with
    | error g =>
      rw [hc] at h
      simp only [bind, Except.bind, Except.error.injEq] at h
      exact h ▸ cstringRaw_error (h0 path rfl) hc
    | ok r => rw [hc] at h; cases h
  | elf path id =>
    simp only [convertMeta] at h
    cases hc : cstringRaw alloc s path with
    | error g =>
      rw [hc] at h
      simp only [bind, Except.bind, Except.error.injEq] at h
      exact h ▸ cstringRaw_error (h0 path rfl) hc
    | ok r =>
      rw [hc] at h
      simp only [bind, Except.bind] at h
      cases id with
      | none => cases h
      | some id =>
        cases hd : buildIdRaw alloc r.2 (some id) with
        | error g =>
          rw [hd] at h
          simp only [Except.error.injEq] at h
          exact h ▸ box_error hd
        | ok r' => rw [hd] at h; cases h
  | sym sym =>
    cases hal : alloc s (metaSymSize sym) 8 with
    | none =>
      have hn : convertMetaSym (fun size => alloc s size 8) sym = .ok none := by
        rw [convertMetaSym, allocate, if_neg (by have := hf.2; omega)]
        simp only [hal]; rfl
      simp only [convertMeta, hn] at h
      cases h; rfl
    | some base =>
      obtain ⟨st, i, c, hok, _⟩ := C46_single_symbol (fun size => alloc s size 8)
        (fun size b hb => ⟨(ha _ _ _ _ hb).1, (ha _ _ _ _ hb).2.1, (ha _ _ _ _ hb).2.2.1⟩) sym hf.1 hf.2 base hal
      simp only [convertMeta, hok] at h
      cases h
  | unknown reason => cases h

theorem convertMetas_error {alloc : Allocator} (ha : GoodAllocator alloc) {xs : List OutMeta} {s : Store}
    (hf : ∀ (x : OutMeta), x ∈ xs → x.Fits)
    (h0 : ∀ (x : OutMeta), x ∈ xs → ∀ (path : Bytes), x.path? = some path → 0 ∉ path) {f : Fault}
    (h : convertMetas alloc s xs = .error f) : f = .outOfMemory := by
  induction xs generalizing s with
  | nil => cases h
  | cons x xs ih =>
    simp only [convertMetas] at h
    cases hc : convertMeta alloc s x with
    | error g =>
      rw [hc] at h
      simp only [bind, Except.bind, Except.error.injEq] at h
      exact h ▸ convertMeta_error ha (hf x (List.mem_cons_self ..)) (h0 x (List.mem_cons_self ..)) hc
    | ok r =>
      rw [hc] at h
      simp only [bind, Except.bind] at h
      cases hd : convertMetas alloc r.2 xs with
      | error g =>
        rw [hd] at h
        simp only [Except.error.injEq] at h
        subst h
        exact ih (fun y hy => hf y (List.mem_cons_of_mem _ hy)) (fun y hy => h0 y (List.mem_cons_of_mem _ hy)) hd
      | ok r' => rw [hd] at h; cases h

theorem convertOutput_error {alloc : Allocator} (ha : GoodAllocator alloc) {s : Store} {out : UserOutput}
    (hf : out.Fits) (h0 : ∀ (x : OutMeta), x ∈ out.metas → ∀ (path : Bytes), x.path? = some path → 0 ∉ path)
    {f : Fault} (h : convertOutput alloc s out = .error f) : f = .outOfMemory := by
  simp only [convertOutput] at h
  cases hc : convertMetas alloc s out.metas with
  | error g =>
    rw [hc] at h
    simp only [bind, Except.bind, Except.error.injEq] at h
    exact h ▸ convertMetas_error ha hf.2.2.1 h0 hc
  | ok r =>
    rw [hc] at h
    simp only [bind, Except.bind] at h
    cases hd : r.2.box alloc 8 r.1 with
    | error g => rw [hd] at h; simp only [Except.error.injEq] at h; exact h ▸ box_error hd
    | ok r₁ =>
      rw [hd] at h
      simp only at h
      cases he : r₁.2.box alloc 8 (init (out.outputs.flatMap outputBytes)) with
      | error g => rw [he] at h; simp only [Except.error.injEq] at h; exact h ▸ box_error he
      | ok r₂ =>
        rw [he] at h
        exact box_error h

theorem convertMeta_nul {alloc : Allocator} {s : Store} {x : OutMeta} {path : Bytes} (hp : x.path? = some path)
    (h0 : 0 ∈ path) : convertMeta alloc s x = .error .abort := by
  cases x with
  | apk q =>
    obtain rfl : q = path := by simpa [OutMeta.path?] using hp
    simp only [convertMeta, cstringRaw, if_pos h0, bind, Except.bind]
  | elf q id =>
    obtain rfl : q = path := by simpa [OutMeta.path?] using hp
    simp only [convertMeta, cstringRaw, if_pos h0, bind, Except.bind]
  | sym _ => cases hp
  | unknown _ => cases hp

theorem convertMetas_nul {alloc : Allocator} (ha : GoodAllocator alloc) {xs : List OutMeta} {s : Store}
    (hf : ∀ (x : OutMeta), x ∈ xs → x.Fits) {x : OutMeta} (hx : x ∈ xs) {path : Bytes} (hp : x.path? = some path)
    (h0 : 0 ∈ path) :
    convertMetas alloc s xs = .error .abort ∨ convertMetas alloc s xs = .error .outOfMemory := by
  induction xs generalizing s with
  | nil => cases hx
  | cons y ys ih =>
    simp only [convertMetas]
    by_cases hy : ∀ (path : Bytes), y.path? = some path → 0 ∉ path
    · cases hc : convertMeta alloc s y with
      | error g => rw [convertMeta_error ha (hf y (List.mem_cons_self ..)) hy hc]; exact Or.inr rfl
      | ok r =>
        rcases List.mem_cons.1 hx with rfl | hx'
        · exact absurd h0 (hy path hp)
        · rcases ih (s := r.2) (fun z hz => hf z (List.mem_cons_of_mem _ hz)) hx' with h | h
          · left; simp only [bind, Except.bind, h]
          · right; simp only [bind, Except.bind, h]
    · simp only [not_forall, not_not] at hy
      obtain ⟨q, hq, hq0⟩ := hy
      rw [convertMeta_nul hq hq0]
      exact Or.inl rfl

theorem convertOutput_nul {alloc : Allocator} (ha : GoodAllocator alloc) {s : Store} {out : UserOutput} (hf : out.Fits)
    {x : OutMeta} (hx : x ∈ out.metas) {path : Bytes} (hp : x.path? = some path) (h0 : 0 ∈ path) :
    convertOutput alloc s out = .error .abort ∨ convertOutput alloc s out = .error .outOfMemory := by
  rcases convertMetas_nul ha (s := s) hf.2.2.1 hx hp h0 with h | h
  · left; simp only [convertOutput, h]; rfl
  · right; simp only [convertOutput, h]; rfl

/-! ## Freeing -/

/-- An address within a block. -/
def Block.In (b : Block) (x : Nat) : Prop := b.addr ≤ x ∧ x < b.addr + b.size

/-- The blocks were freed, and nothing else changed. -/
structure Freed (s t : Store) (bs : List Block) : Prop where
  blocks : s.blocks.Perm (bs ++ t.blocks)
  same : ∀ (x : Nat), (∀ (b : Block), b ∈ bs → ¬ b.In x) → t.mem x = s.mem x

theorem Freed.refl (s : Store) : Freed s s [] := ⟨List.Perm.refl _, fun _ _ => rfl⟩

theorem Freed.trans {s t u : Store} {bs cs : List Block} (h : Freed s t bs) (h' : Freed t u cs) :
    Freed s u (bs ++ cs) := by
  refine ⟨h.blocks.trans ?_, fun x hx => ?_⟩
  · rw [List.append_assoc]
    exact h'.blocks.append_left _
  · rw [h'.same x fun b hb => hx b (List.mem_append_right _ hb), h.same x fun b hb => hx b (List.mem_append_left _ hb)]

theorem Freed.valid {s t : Store} {bs : List Block} (h : Freed s t bs) (hs : s.Valid) : t.Valid :=
  ⟨fun b hb => hs.1 b (h.blocks.mem_iff.2 (List.mem_append_right _ hb)),
    (List.pairwise_append.1 (pairwise_perm h.blocks hs.2)).2.1⟩

theorem free_spec {s : Store} {a size align : Nat} (h : ∀ b ∈ owned a size align, b ∈ s.blocks) :
    ∃ (t : Store), s.free ⟨a, size, align⟩ = .ok t ∧ Freed s t (owned a size align) := by
  unfold Store.free
  by_cases h0 : size = 0
  · rw [if_pos h0, owned, if_pos h0]
    exact ⟨s, rfl, Freed.refl s⟩
  · have hb : (⟨a, size, align⟩ : Block) ∈ s.blocks := h _ (by rw [owned, if_neg h0]; exact List.mem_singleton_self _)
    rw [if_neg h0, if_pos hb, owned, if_neg h0]
    refine ⟨_, rfl, List.perm_cons_erase hb, fun x hx => ?_⟩
    have := hx _ (List.mem_singleton_self _)
    simp only [Block.In] at this
    simp only [Mem.fill, List.length_replicate]
    rw [if_neg this]

/-- Blocks that are freed are apart from those that are not. -/
theorem Freed.kept {s t : Store} {bs : List Block} (h : Freed s t bs) (hs : s.Valid) :
    Unchanged s.mem t.mem t.blocks := by
  intro b hb x h1 h2
  refine h.same x fun c hc hin => ?_
  have hp := (List.pairwise_append.1 (pairwise_perm h.blocks hs.2)).2.2 c hc b hb
  simp only [Block.In] at hin
  rcases hp with hp | hp <;> omega

theorem owned_in {m : Mem} {a size align : Nat} {x : Nat} (h : ∀ (b : Block), b ∈ owned a size align → ¬ b.In x) :
    ¬ (a ≤ x ∧ x < a + size) := by
  intro hx
  exact h ⟨a, size, align⟩ (by rw [owned, if_neg (by omega)]; exact List.mem_singleton_self _) hx

theorem readNum_at {m : Mem} {a k n : Nat} (h : NumAt m a k n) : readNum m a k = .ok n := by
  rw [readNum, show m.num a k = some n from h]

theorem fromCStr_at {m : Mem} {p : Nat} {str : Bytes} (h : CString m p str) (hb : p + str.length + 1 ≤ 2 ^ 64) :
    fromCStr m p = .ok str := cstrBytes_of h.1 h.2 (by omega)

theorem freeCString_spec {s : Store} {a p : Nat} {str : Bytes} {bs : List Block} (h : OwnPathAt s.mem a str bs)
    (hp : NumAt s.mem a 8 p) (hm : ∀ b ∈ bs, b ∈ s.blocks) : ∃ (t : Store), freeCString s p = .ok t ∧ Freed s t bs := by
  obtain ⟨q, h1, h2, h3, h4, rfl⟩ := h
  obtain rfl : q = p := by rw [NumAt] at h1 hp; rw [h1] at hp; simpa using hp
  have ho : owned q (str.length + 1) 1 = [⟨q, str.length + 1, 1⟩] := by rw [owned, if_neg (by omega)]
  obtain ⟨t, ht, hf⟩ := free_spec (s := s) (a := q) (size := str.length + 1) (align := 1) (by rw [ho]; exact hm)
  refine ⟨t, ?_, ho ▸ hf⟩
  simp only [freeCString, fromCStr_at h4 h3, bind, Except.bind]
  exact ht

theorem mem_tail {s t : Store} {bs cs : List Block} (h : Freed s t bs) (hs : s.Valid)
    (hm : ∃ rest, s.blocks.Perm (bs ++ (cs ++ rest))) : ∃ rest, t.blocks.Perm (cs ++ rest) := by
  obtain ⟨rest, hr⟩ := hm
  exact ⟨rest, (List.perm_append_left_iff bs).1 (h.blocks.symm.trans hr)⟩

theorem freeMeta_spec {s : Store} (hs : s.Valid) {a : Nat} {x : OutMeta} {bs rest : List Block}
    (h : MetaAt s.mem a x bs) (hm : s.blocks.Perm (bs ++ rest)) :
    ∃ (t : Store), freeMeta s a = .ok t ∧ Freed s t bs := by
  have hin : ∀ b ∈ bs, b ∈ s.blocks := fun b hb => hm.mem_iff.2 (List.mem_append_left _ hb)
  cases x with
  | apk path =>
    obtain ⟨h1, h2, _⟩ := h
    obtain ⟨p, hp⟩ : ∃ p, NumAt s.mem (a + 8) 8 p := ⟨_, h2.choose_spec.1⟩
    obtain ⟨t, ht, hf⟩ := freeCString_spec h2 hp hin
    refine ⟨t, ?_, hf⟩
    simp only [freeMeta, readNum_at h1, bind, Except.bind, readNum_at hp]
    exact ht
  | elf path id =>
    obtain ⟨bs₁, bs₂, h1, h2, h3, _, rfl⟩ := h
    obtain ⟨p, hp⟩ : ∃ p, NumAt s.mem (a + 8) 8 p := ⟨_, h2.choose_spec.1⟩
    obtain ⟨t, ht, hf⟩ := freeCString_spec h2 hp fun b hb => hin b (List.mem_append_left _ hb)
    cases id with
    | none =>
      obtain ⟨g1, g2, rfl⟩ := h3
      refine ⟨t, ?_, by rw [List.append_nil]; exact hf⟩
      simp only [freeMeta, readNum_at h1, bind, Except.bind, readNum_at hp, readNum_at g1, readNum_at g2, ht]
      rfl
    | some id =>
      obtain ⟨q, g1, g2, g3, _, rfl⟩ := h3
      have ht' : ∀ b ∈ owned q id.length 1, b ∈ t.blocks := by
        obtain ⟨r, hr⟩ := mem_tail hf hs (cs := owned q id.length 1) ⟨rest, by rw [← List.append_assoc]; exact hm⟩
        exact fun b hb => hr.mem_iff.2 (List.mem_append_left _ hb)
      obtain ⟨u, hu, hf'⟩ := free_spec ht'
      refine ⟨u, ?_, hf.trans hf'⟩
      simp only [freeMeta, readNum_at h1, bind, Except.bind, readNum_at hp, readNum_at g1, readNum_at g2, ht]
      rw [if_neg (by omega)]
      exact hu
  | sym sym =>
    obtain ⟨p, size, i, c, h1, h2, h3, h4, _, _, _, _, rfl⟩ := h
    have ho : owned p size 8 = [⟨p, size, 8⟩] := by rw [owned, if_neg (by omega)]
    obtain ⟨t, ht, hf⟩ := free_spec (s := s) (a := p) (size := size) (align := 8) (by rw [ho]; exact hin)
    refine ⟨t, ?_, ho ▸ hf⟩
    simp only [freeMeta, readNum_at h1, bind, Except.bind, readNum_at h2, Nat.add_sub_cancel, readNum_at h3]
    exact ht
  | unknown reason =>
    obtain ⟨code, h1, _, _, _, rfl⟩ := h
    refine ⟨s, ?_, Freed.refl s⟩
    simp only [freeMeta, readNum_at h1, bind, Except.bind]
    rfl

theorem OwnPathAt.same {m m' : Mem} {a : Nat} {str : Bytes} {bs : List Block} (h : OwnPathAt m a str bs)
    (hu : Unchanged m m' bs) (hs : Same m m' a (a + 8)) : OwnPathAt m' a str bs := by
  obtain ⟨p, h1, h2, h3, h4, rfl⟩ := h
  refine ⟨p, h1.same hs, h2, h3, ⟨h4.1.same ?_, h4.2⟩, rfl⟩
  have := hu.at (List.mem_singleton_self _)
  rw [List.length_append, List.length_singleton]
  exact this

theorem MetaAt.same {m m' : Mem} {a : Nat} {x : OutMeta} {bs : List Block} (h : MetaAt m a x bs)
    (hu : Unchanged m m' bs) (hs : Same m m' a (a + 48)) : MetaAt m' a x bs := by
  have hz : ∀ (k n : Nat), k + n ≤ 48 → Holds m (a + k) (List.replicate n 0) → Holds m' (a + k) (List.replicate n 0) :=
    fun k n hk h => h.same (by rw [List.length_replicate]; exact hs.sub (by omega) (by omega))
  cases x with
  | apk path =>
    obtain ⟨h1, h2, h3⟩ := h
    exact ⟨h1.same (hs.sub (by omega) (by omega)), h2.same hu (hs.sub (by omega) (by omega)), hz _ _ (by omega) h3⟩
  | elf path id =>
    obtain ⟨bs₁, bs₂, h1, h2, h3, h4, rfl⟩ := h
    refine ⟨bs₁, bs₂, h1.same (hs.sub (by omega) (by omega)),
      h2.same (hu.mono fun b hb => List.mem_append_left _ hb) (hs.sub (by omega) (by omega)), ?_, hz _ _ (by omega) h4, rfl⟩
    have hu' := hu.mono (cs := bs₂) fun b hb => List.mem_append_right _ hb
    cases id with
    | none =>
      obtain ⟨g1, g2, rfl⟩ := h3
      exact ⟨g1.same (hs.sub (by omega) (by omega)), g2.same (hs.sub (by omega) (by omega)), rfl⟩
    | some id =>
      obtain ⟨q, g1, g2, g3, g4, rfl⟩ := h3
      exact ⟨q, g1.same (hs.sub (by omega) (by omega)), g2.same (hs.sub (by omega) (by omega)), g3,
        g4.same (unchanged_owned hu'), rfl⟩
  | sym sym =>
    obtain ⟨p, size, i, c, h1, h2, h3, h4, h5, rfl, rfl, h6, rfl⟩ := h
    have hb : Same m m' p (p + size) := hu.at (List.mem_singleton_self _)
    have hle := h5.le
    exact ⟨p, size, _, _, h1.same (hs.sub (by omega) (by omega)), h2.same (hs.sub (by omega) (by omega)),
      h3.same (hb.sub (by omega) (by omega)), h4,
      h5.same (hb.sub (by omega) (by omega)) (hb.sub (by omega) (by omega)) (hb.sub (by omega) (by omega)), rfl, rfl,
      hz _ _ (by omega) h6, rfl⟩
  | unknown reason =>
    obtain ⟨code, h1, h2, h3, h4, rfl⟩ := h
    exact ⟨code, h1.same (hs.sub (by omega) (by omega)), h2.same (hs.sub (by omega) (by omega)), h3,
      hz _ _ (by omega) h4, rfl⟩

theorem MetaArray.same {m m' : Mem} {a : Nat} {xs : List OutMeta} {bs : List Block} (h : MetaArray m a xs bs)
    (hu : Unchanged m m' bs) (hs : Same m m' a (a + 64 * xs.length)) : MetaArray m' a xs bs := by
  induction xs generalizing a bs with
  | nil => exact h
  | cons x xs ih =>
    rw [List.length_cons] at hs
    obtain ⟨bs₁, bs₂, h1, h2, h3, h4, rfl⟩ := h
    exact ⟨bs₁, bs₂, h1.same (hu.mono fun b hb => List.mem_append_left _ hb) (hs.sub (by omega) (by omega)),
      h2.same (by rw [List.length_replicate]; exact hs.sub (by omega) (by omega)),
      h3.same (by rw [List.length_replicate]; exact hs.sub (by omega) (by omega)),
      ih h4 (hu.mono fun b hb => List.mem_append_right _ hb) (hs.sub (by omega) (by omega)), rfl⟩

theorem freeMetas_spec {xs : List OutMeta} {s : Store} (hs : s.Valid) {a : Nat} {bs rest : List Block}
    (h : MetaArray s.mem a xs bs) (hm : s.blocks.Perm (bs ++ rest))
    (hsep : ∀ (x : Nat), a ≤ x → x < a + 64 * xs.length → ∀ (b : Block), b ∈ bs → ¬ b.In x) :
    ∃ (t : Store), freeMetas s a xs.length = .ok t ∧ Freed s t bs := by
  induction xs generalizing s a bs rest with
  | nil =>
    have : bs = [] := h
    subst this
    exact ⟨s, rfl, Freed.refl s⟩
  | cons x xs ih =>
    rw [List.length_cons] at hsep
    obtain ⟨bs₁, bs₂, h1, _, _, h4, rfl⟩ := h
    rw [List.append_assoc] at hm
    obtain ⟨t, ht, hf⟩ := freeMeta_spec hs h1 hm
    obtain ⟨rest', hr⟩ := mem_tail hf hs ⟨rest, hm⟩
    have hu : Unchanged s.mem t.mem bs₂ := (hf.kept hs).mono fun b hb => hr.mem_iff.2 (List.mem_append_left _ hb)
    have hsame : Same s.mem t.mem (a + 64) (a + 64 + 64 * xs.length) := fun y h1 h2 =>
      hf.same y fun b hb => hsep y (by omega) (by omega) b (List.mem_append_left _ hb)
    obtain ⟨u, hu', hf'⟩ := ih (hf.valid hs) (h4.same hu hsame) hr
      fun y h1 h2 b hb => hsep y (by omega) (by omega) b (List.mem_append_right _ hb)
    refine ⟨u, ?_, hf.trans hf'⟩
    simp only [List.length_cons, freeMetas, ht, bind, Except.bind]
    exact hu'

theorem userOutputFree_spec {s : Store} (hs : s.Valid) {p : Nat} {out : UserOutput} {bs rest : List Block}
    (h : UserOutputAt s.mem p out bs) (hm : s.blocks.Perm (bs ++ rest)) :
    ∃ (t : Store), userOutputFree s p = .ok t ∧ Freed s t bs := by
  obtain ⟨metas, outputs, bs₁, hp, h1, h2, h3, h4, h5, _, _, rfl⟩ := h
  simp only [List.append_assoc] at hm
  have hpw := pairwise_perm hm hs.2
  have hsep : ∀ (x : Nat), metas ≤ x → x < metas + 64 * out.metas.length → ∀ (b : Block), b ∈ bs₁ → ¬ b.In x := by
    intro x hx hx' b hb hin
    have := (List.pairwise_append.1 hpw).2.2 b hb ⟨metas, 64 * out.metas.length, 8⟩ (by
      refine List.mem_append_left _ ?_
      rw [owned, if_neg (by omega)]
      exact List.mem_singleton_self _)
    simp only [Block.In] at hin
    simp only [Block.Apart] at this
    omega
  obtain ⟨t₁, e1, f1⟩ := freeMetas_spec hs h3 hm hsep
  obtain ⟨r1, p1⟩ := mem_tail f1 hs (cs := owned metas (64 * out.metas.length) 8
    ++ (owned outputs (32 * out.outputs.length) 8 ++ [⟨p, 48, 8⟩])) ⟨rest, by simpa only [List.append_assoc] using hm⟩
  simp only [List.append_assoc] at p1
  obtain ⟨t₂, e2, f2⟩ := free_spec (s := t₁) (fun b hb => p1.mem_iff.2 (List.mem_append_left _ hb))
  obtain ⟨r2, p2⟩ := mem_tail f2 (f1.valid hs) (cs := owned outputs (32 * out.outputs.length) 8 ++ [⟨p, 48, 8⟩])
    ⟨r1, by simpa only [List.append_assoc] using p1⟩
  simp only [List.append_assoc] at p2
  obtain ⟨t₃, e3, f3⟩ := free_spec (s := t₂) (fun b hb => p2.mem_iff.2 (List.mem_append_left _ hb))
  obtain ⟨r3, p3⟩ := mem_tail f3 (f2.valid (f1.valid hs)) (cs := [⟨p, 48, 8⟩])
    ⟨r2, by simpa only [List.append_assoc] using p2⟩
  have ho : owned p 48 8 = [⟨p, 48, 8⟩] := rfl
  obtain ⟨t₄, e4, f4⟩ := free_spec (s := t₃) (a := p) (size := 48) (align := 8)
    (fun b hb => p3.mem_iff.2 (List.mem_append_left _ (ho ▸ hb)))
  refine ⟨t₄, ?_, ?_⟩
  · simp only [userOutputFree]
    rw [if_neg (by omega)]
    simp only [readNum_at h1, readNum_at h2, readNum_at h4, readNum_at h5, bind, Except.bind, e1,
      Nat.mul_comm _ 64, Nat.mul_comm _ 32, e2, e3]
    exact e4
  · have := ((f1.trans f2).trans f3).trans f4
    exact this

end Blazesym.CApi
