import Verif.CApi.ProgramSpec
import Verif.Go.BindingsLemmas

/-! Lemmas about programs that use symbolizers through the C interface. -/

set_option autoImplicit false

namespace Blazesym.CApi

open Blazesym.Error Blazesym.Symbolize
open Blazesym.Spec.Symbolize (Reachable)

variable {M : Type} [DecidableEq M]

/-! ## Results in memory -/

/-- Results that were handed out, with the size in front of them. -/
structure HandedAt (m : Mem) (h : Handed) : Prop where
  low : 8 < h.ptr
  size : NumAt m (h.ptr - 8) 8 (bufSize h.results)
  cnt : NumAt m h.ptr 8 h.results.length
  arr : ∃ (c : Nat), SymArray m (h.ptr + 8) (h.ptr + 8 + 104 * h.results.length) c c (h.ptr - 8 + bufSize h.results) h.results

theorem HandedAt.results {m : Mem} {h : Handed} (hh : HandedAt m h) : ResultsAt m h.ptr h.results := by
  obtain ⟨c, hc⟩ := hh.arr
  exact ⟨hh.cnt, _, _, _, hc⟩

theorem HandedAt.kept {m m' : Mem} {h : Handed} (hh : HandedAt m h) (hu : Unchanged m m' [h.block]) :
    HandedAt m' h := by
  obtain ⟨c, hc⟩ := hh.arr
  have hlow := hh.low
  obtain ⟨l1, l2⟩ := Go.symArray_le hc
  have hsame : Same m m' (h.ptr - 8) (h.ptr - 8 + bufSize h.results) := by
    intro x h1 h2
    exact hu _ (List.mem_singleton_self _) x h1 h2
  obtain ⟨_, _, hc'⟩ := Go.symArray_same hc hsame (by omega) (by omega) (by omega) (by omega) (by omega) (by omega)
  exact ⟨hlow, hh.size.same (hsame.sub (by omega) (by omega)), hh.cnt.same (hsame.sub (by omega) (by omega)), c, hc'⟩

theorem bufSize_pos (results : List Symbolized) : 0 < bufSize results := by
  rw [bufSize]; omega

/-- The buffer with results becomes part of the memory. -/
theorem buffer_handed {alloc : Allocator} (ha : GoodAllocator alloc) {s : Store} (hs : s.Valid)
    {results : List Symbolized} (hf : ∀ (sym : Sym), .sym sym ∈ results → Sym.Fits sym)
    (hl : bufSize results ≤ 2 ^ 63 - 8) {base : Nat} (hb : alloc s (bufSize results) 8 = some base) :
    ∃ (st : Cur) (s' : Store), convertResults (fun size => alloc s size 8) results = .ok (some (base + 8, st))
      ∧ s.take (.buffer (base + 8) st) = (base + 8, s') ∧ Ext s s' [⟨base, bufSize results, 8⟩]
      ∧ HandedAt s'.mem ⟨base + 8, results⟩ := by
  obtain ⟨g1, g2, g3, _⟩ := ha _ _ _ _ hb
  obtain ⟨m, i, c, hok, n0, n1, hi, harr⟩ := convertResults_spec (fun size => alloc s size 8)
    (fun size b hb => ⟨(ha _ _ _ _ hb).1, (ha _ _ _ _ hb).2.1, (ha _ _ _ _ hb).2.2.1⟩) results hf hl base hb
  obtain ⟨l1, l2⟩ := Go.symArray_le harr
  obtain ⟨content, hcontent⟩ : ∃ (c : List (Option UInt8)),
    c = (List.range (bufSize results)).map fun i => m (base + i) := ⟨_, rfl⟩
  have hlen : content.length = bufSize results := by rw [hcontent, List.length_map, List.length_range]
  have hpos := bufSize_pos results
  have hne : content ≠ [] := by intro h; rw [h, List.length_nil] at hlen; omega
  have hext := alloc_ext ha hs (align := 8) hne (by rw [hlen]; exact hb)
  have hsame : Same m (s.mem.fill base content) base (base + bufSize results) := by
    intro x h1 h2
    have := fill_holds s.mem base content (x - base) (by omega)
    rw [show base + (x - base) = x by omega] at this
    rw [this, hcontent, List.getElem?_map, List.getElem?_range (by omega)]
    simp only [Option.map_some, Option.join_some]
    rw [show base + (x - base) = x by omega]
  rw [hlen] at hext
  obtain ⟨_, _, harr'⟩ := Go.symArray_same harr hsame (by omega) (by omega) (by omega) (by omega) (by omega) (by omega)
  refine ⟨_, ⟨s.mem.fill base content, ⟨base, bufSize results, 8⟩ :: s.blocks⟩, hok, ?_, hext, ?_⟩
  · rw [hcontent]; rfl
  · refine ⟨by simp only; omega, ?_, n1.same (hsame.sub (by omega) (by omega)), c, ?_⟩
    · simp only [Nat.add_sub_cancel]
      exact n0.same (hsame.sub (by omega) (by omega))
    · simp only [Nat.add_sub_cancel]
      rw [← hi]
      exact harr'

/-- Freeing results. -/
theorem freeSyms_spec {s : Store} {h : Handed} (hh : HandedAt s.mem h) (hb : h.block ∈ s.blocks) :
    ∃ (t : Store), s.freeSyms h.ptr = .ok t ∧ Freed s t [h.block] := by
  have hlow := hh.low
  have hpos := bufSize_pos h.results
  obtain ⟨t, k1, k2⟩ := free_spec (s := s) (a := h.ptr - 8) (size := bufSize h.results) (align := 8) (by
    intro b hb'
    rw [owned, if_neg (by omega), List.mem_singleton] at hb'
    rw [hb']; exact hb)
  rw [owned, if_neg (by omega)] at k2
  refine ⟨t, ?_, k2⟩
  rw [Store.freeSyms, symsFree, if_neg (by omega), show s.mem.num (h.ptr - 8) 8 = some (bufSize h.results) from hh.size]
  exact k1

/-! ## The functions -/

theorem object_mem {prog : Program M} {sym : Nat} {o : Object M} (h : prog.object sym = .ok o) :
    o ∈ prog.objects ∧ o.addr = sym := by
  unfold Program.object at h
  split at h
  · rename_i o' ho
    cases h
    exact ⟨List.mem_of_find?_eq_some ho, by simpa using List.find?_some ho⟩
  · cases h

theorem args_read {m : Mem} {src addrs cnt : Nat} {fn : SymbolizeFn} {source : Source} {input : Input (List Nat)}
    (h : SymbolizeArgs m src addrs cnt fn source input) :
    ∃ (xs : List Nat), userArray m addrs 8 cnt = .ok xs ∧ sourceOf m src fn = .ok (.ok source) ∧ input = kindOf fn xs := by
  cases h <;> rename_i xs hx h <;> exact ⟨xs, hx, h, rfl⟩

theorem args_of_read {m : Mem} {src addrs cnt : Nat} {fn : SymbolizeFn} {source : Source} {xs : List Nat}
    (hx : userArray m addrs 8 cnt = .ok xs) (h : sourceOf m src fn = .ok (.ok source)) :
    SymbolizeArgs m src addrs cnt fn source (kindOf fn xs) := by
  cases fn
  · exact .process h hx
  · exact .kernel h hx
  · exact .elfVirt h hx
  · exact .elfFile h hx
  · exact .gsymData h hx
  · exact .gsymFile h hx

/-- What becomes of a program apart from its memory: the symbolizer is changed and an error is set. -/
def Program.next (prog : Program M) (sym : Nat) (state : State M (KernelCache M)) (thread : Nat) (err : Int)
    (store : Store) : Program M := { (prog.update sym state).report thread err with store }

theorem symbolizeImpl_run {core : Core} {alloc : Nat → Option Nat} {m : Mem} {fn : SymbolizeFn} {src addrs cnt : Nat}
    {source : Source} (h : sourceOf m src fn = .ok (.ok source)) :
    symbolizeImpl core alloc m source (kindOf fn) addrs cnt = run core alloc m (.symbolize fn src addrs cnt) := by
  rw [run, h]; rfl

theorem symbolize_eq {p : Platform} {alloc : Allocator} {w : World M} {prog : Program M} {thread sym : Nat}
    {fn : SymbolizeFn} {src addrs cnt : Nat} {o : Object M} (ho : prog.object sym = .ok o) {source : Source}
    {input : Input (List Nat)} (h : SymbolizeArgs prog.store.mem src addrs cnt fn source input) :
    prog.symbolize p alloc w thread sym fn src addrs cnt =
      (do
        let r ← outcome (o.state.symbolize (settingsOf p o.opts) w source input).1
        let (ret, err) ← run (coreWith r) (fun size => alloc prog.store size 8) prog.store.mem (.symbolize fn src addrs cnt)
        let (ptr, store) := prog.store.take ret
        return (ptr, prog.next sym (o.state.symbolize (settingsOf p o.opts) w source input).2 thread err store)) := by
  obtain ⟨xs, hx, hs, rfl⟩ := args_read h
  rw [Program.symbolize, hs]
  simp only [bind, Except.bind, ho, hx, symbolizeImpl_run hs, pure, Except.pure]
  rfl

theorem outcome_ok {α : Type} (a : α) : outcome (.ok a) = .ok (.ok a) := rfl

theorem outcome_panic {α : Type} : outcome (.error .panic : Except Err α) = .error .abort := rfl

theorem outcome_error {α : Type} {e : Err} (h : e ≠ .panic) :
    outcome (.error e : Except Err α) = .ok (.error (kindOfErr e)) := by
  cases e <;> first | rfl | exact absurd rfl h

/-- What the symbolization functions do. -/
theorem symbolize_cases {p : Platform} {alloc : Allocator} (ha : GoodAllocator alloc) {w : World M} {prog : Program M}
    (hv : prog.store.Valid) {thread sym : Nat} {fn : SymbolizeFn} {src addrs cnt : Nat} {o : Object M}
    (ho : prog.object sym = .ok o) {source : Source} {input : Input (List Nat)}
    (h : SymbolizeArgs prog.store.mem src addrs cnt fn source input) {r : Except Err (List Symbolized)}
    {state : State M (KernelCache M)} (hr : o.state.symbolize (settingsOf p o.opts) w source input = (r, state)) :
    (r = .error .panic → prog.symbolize p alloc w thread sym fn src addrs cnt = .error .abort) ∧
    (∀ (e : Err), e ≠ .panic → r = .error e → prog.symbolize p alloc w thread sym fn src addrs cnt
      = .ok (0, prog.next sym state thread (errCode (kindOfErr e)) prog.store)) ∧
    (r = .ok [] → prog.symbolize p alloc w thread sym fn src addrs cnt
      = .ok (0, prog.next sym state thread 0 prog.store)) ∧
    ∀ (results : List Symbolized), results ≠ [] → r = .ok results →
      (2 ^ 63 - 8 < bufSize results → prog.symbolize p alloc w thread sym fn src addrs cnt = .error .badLayout) ∧
      (bufSize results ≤ 2 ^ 63 - 8 → alloc prog.store (bufSize results) 8 = none →
        prog.symbolize p alloc w thread sym fn src addrs cnt = .ok (0, prog.next sym state thread (-12) prog.store)) ∧
      ∀ (base : Nat), bufSize results ≤ 2 ^ 63 - 8 → alloc prog.store (bufSize results) 8 = some base →
        (∀ (y : Sym), .sym y ∈ results → Sym.Fits y) →
        ∃ (store : Store), prog.symbolize p alloc w thread sym fn src addrs cnt
            = .ok (base + 8, prog.next sym state thread 0 store)
          ∧ Ext prog.store store [⟨base, bufSize results, 8⟩] ∧ HandedAt store.mem ⟨base + 8, results⟩ := by
  have heq := symbolize_eq (p := p) (alloc := alloc) (w := w) (thread := thread) ho h
  rw [hr] at heq
  simp only at heq
  refine ⟨?_, ?_, ?_, ?_⟩
  · rintro rfl
    rw [heq, outcome_panic]; rfl
  · rintro e he rfl
    obtain ⟨c1, _, _⟩ := C61_symbolize (coreWith (.error (kindOfErr e))) (fun size => alloc prog.store size 8)
      prog.store.mem fn src addrs cnt _ _ h
    rw [heq, outcome_error he]
    simp only [bind, Except.bind, c1 _ rfl]
    rfl
  · rintro rfl
    obtain ⟨_, c2, _⟩ := C61_symbolize (coreWith (.ok [])) (fun size => alloc prog.store size 8)
      prog.store.mem fn src addrs cnt _ _ h
    rw [heq, outcome_ok]
    simp only [bind, Except.bind, c2 rfl]
    rfl
  · rintro results hne rfl
    obtain ⟨_, _, c3⟩ := C61_symbolize (coreWith (.ok results)) (fun size => alloc prog.store size 8)
      prog.store.mem fn src addrs cnt _ _ h
    obtain ⟨d1, d2⟩ := c3 results rfl hne
    obtain ⟨f1, f2⟩ := C46_otherwise (fun size => alloc prog.store size 8) results
    rw [heq, outcome_ok]
    refine ⟨fun hl => ?_, fun hl hn => ?_, fun base hl hb hf => ?_⟩
    · obtain ⟨xs, hx, hs, rfl⟩ := args_read h
      have : run (coreWith (.ok results)) (fun size => alloc prog.store size 8) prog.store.mem
          (.symbolize fn src addrs cnt) = .error .badLayout := by
        rw [← symbolizeImpl_run hs, symbolizeImpl, hx]
        simp only [bind, Except.bind, coreWith]
        cases results with
        | nil => exact absurd rfl hne
        | cons y ys => simp only [f2 hl]
      simp only [bind, Except.bind, this]
    · simp only [bind, Except.bind, d1 (f1 hl hn)]
      rfl
    · obtain ⟨st, s', k1, k2, k3, k4⟩ := buffer_handed ha hv hf hl hb
      refine ⟨s', ?_, k3, k4⟩
      simp only [bind, Except.bind, d2 _ _ k1, k2]
      rfl

/-! ## All programs -/

/-- What is the case all the time. -/
structure Inv (p : Platform) (ok : SymbolizerOpts → State M (KernelCache M) → World M → Spec.Symbolize.Call → Prop)
    (prog : Program M) (hs : List Handed) (os : List Block) : Prop where
  valid : prog.store.Valid
  blocks : prog.store.blocks.Perm (libraryBlocks p prog hs ++ os)
  results : ∀ (h : Handed), h ∈ hs → HandedAt prog.store.mem h
  objects : ∀ (o : Object M), o ∈ prog.objects → Reachable (settingsOf p o.opts) (ok o.opts) o.state

section
variable {p : Platform} {alloc : Allocator}
  {ok : SymbolizerOpts → State M (KernelCache M) → World M → Spec.Symbolize.Call → Prop} {prog : Program M}
  {hs : List Handed} {os : List Block}

theorem Inv.library_mem (h : Inv p ok prog hs os) {b : Block} (hb : b ∈ libraryBlocks p prog hs) : b ∈ prog.store.blocks :=
  h.blocks.mem_iff.2 (List.mem_append_left _ hb)

theorem Inv.apart (h : Inv p ok prog hs os) :
    (prog.objects.map (Object.block p)).Pairwise Block.Apart ∧ (hs.map Handed.block).Pairwise Block.Apart := by
  have := (List.pairwise_append.1 (pairwise_perm h.blocks h.valid.2)).1
  rw [libraryBlocks, List.pairwise_append] at this
  exact ⟨this.1, this.2.1⟩

theorem Inv.unique_object (h : Inv p ok prog hs os) (hz : 0 < p.boxSize) :
    prog.objects.Pairwise fun o o' => o.addr ≠ o'.addr := by
  refine (List.pairwise_map.1 h.apart.1).imp ?_
  rintro o o' ha he
  simp only [Block.Apart, Object.block] at ha
  omega

theorem Inv.unique_handed (h : Inv p ok prog hs os) : hs.Pairwise fun x y => x.ptr ≠ y.ptr := by
  have h1 := List.pairwise_map.1 h.apart.2
  refine h1.imp ?_
  rintro x y ha he
  have := bufSize_pos x.results
  have := bufSize_pos y.results
  simp only [Block.Apart, Handed.block] at ha
  omega

theorem filter_unique {α : Type} {f : α → Nat} {l : List α} (hl : l.Pairwise fun a b => f a ≠ f b) {a : α} (ha : a ∈ l) :
    l.Perm (a :: l.filter fun b => f b != f a) := by
  induction l with
  | nil => cases ha
  | cons b l ih =>
    obtain ⟨h1, h2⟩ := List.pairwise_cons.1 hl
    rcases List.mem_cons.1 ha with rfl | hm
    · rw [List.filter_cons_of_neg (by simp), List.filter_eq_self.2]
      intro c hc
      have := h1 c hc
      simp only [bne_iff_ne, ne_eq]
      exact fun e => this e.symm
    · rw [List.filter_cons_of_pos (by simpa using h1 a hm)]
      exact ((ih h2 hm).cons b).trans (List.Perm.swap _ _ _)

theorem Inv.same_object (h : Inv p ok prog hs os) (hz : 0 < p.boxSize) {o o' : Object M} (ho : o ∈ prog.objects)
    (ho' : o' ∈ prog.objects) (he : o.addr = o'.addr) : o = o' := by
  have := filter_unique (f := Object.addr) (h.unique_object hz) ho'
  rcases List.mem_cons.1 (this.mem_iff.1 ho) with rfl | hm
  · rfl
  · simp [he] at hm

/-- A symbolizer of the program is found. -/
theorem Inv.object_eq (h : Inv p ok prog hs os) (hz : 0 < p.boxSize) {o : Object M} (ho : o ∈ prog.objects) :
    prog.object o.addr = .ok o := by
  unfold Program.object
  cases hf : prog.objects.find? fun x => x.addr == o.addr with
  | none =>
    have := List.find?_eq_none.1 hf o ho
    simp at this
  | some o' =>
    have h1 := List.mem_of_find?_eq_some hf
    have h2 : o'.addr = o.addr := by simpa using List.find?_some hf
    rw [h.same_object hz h1 ho h2]

/-- More memory, and a list of results. -/
theorem Inv.ext (h : Inv p ok prog hs os) {prog' : Program M} {hs' : List Handed} {bs : List Block}
    (he : Ext prog.store prog'.store bs)
    (hb : (libraryBlocks p prog' hs').Perm (bs ++ libraryBlocks p prog hs))
    (hr : ∀ (x : Handed), x ∈ hs' → x ∈ hs ∨ HandedAt prog'.store.mem x)
    (ho : ∀ (o : Object M), o ∈ prog'.objects → Reachable (settingsOf p o.opts) (ok o.opts) o.state) :
    Inv p ok prog' hs' os := by
  refine ⟨he.valid, ?_, ?_, ho⟩
  · refine (he.blocks.trans (h.blocks.append_left bs)).trans ?_
    rw [← List.append_assoc]
    exact hb.symm.append_right os
  · intro x hx
    rcases hr x hx with hx | hx
    · refine (h.results x hx).kept (he.same.mono fun b hb => ?_)
      rw [List.mem_singleton.1 hb]
      exact h.library_mem (List.mem_append_right _ (List.mem_map_of_mem hx))
    · exact hx

/-- The state of a symbolizer changes by a call. -/
theorem Inv.update (h : Inv p ok prog hs os) (hz : 0 < p.boxSize) {o : Object M} (ho : o ∈ prog.objects) {w : World M}
    {c : Spec.Symbolize.Call} (hok : ok o.opts o.state w c) (thread : Nat) (err : Int) {store : Store} {hs' : List Handed}
    {bs : List Block} (he : Ext prog.store store bs) (hb : (hs'.map Handed.block).Perm (bs ++ hs.map Handed.block))
    (hr : ∀ (x : Handed), x ∈ hs' → x ∈ hs ∨ HandedAt store.mem x) :
    Inv p ok (prog.next o.addr (Spec.Symbolize.after (settingsOf p o.opts) w o.state c) thread err store) hs' os := by
  refine h.ext (bs := bs) he ?_ hr ?_
  · have hm : (prog.next o.addr (Spec.Symbolize.after (settingsOf p o.opts) w o.state c) thread err store).objects.map
        (Object.block p) = prog.objects.map (Object.block p) := by
      simp only [Program.next, Program.report, Program.update, List.map_map]
      refine List.map_congr_left fun x _ => ?_
      simp only [Function.comp]
      split <;> rfl
    rw [libraryBlocks, libraryBlocks, hm]
    refine (hb.append_left _).trans ?_
    rw [← List.append_assoc, ← List.append_assoc]
    exact List.perm_append_comm.append_right _
  · intro x hx
    simp only [Program.next, Program.report, Program.update, List.mem_map] at hx
    obtain ⟨y, hy, rfl⟩ := hx
    split
    · rename_i hya
      rw [h.same_object hz hy ho hya]
      exact .call _ _ _ (h.objects o ho) hok
    · exact h.objects y hy

theorem Inv.report (h : Inv p ok prog hs os) (thread : Nat) (err : Int) : Inv p ok (prog.report thread err) hs os :=
  ⟨h.valid, h.blocks, h.results, h.objects⟩

/-- Memory is freed. -/
theorem Inv.freed (h : Inv p ok prog hs os) {prog' : Program M} {hs' : List Handed} {b : Block}
    (hf : Freed prog.store prog'.store [b]) (hb : (libraryBlocks p prog hs).Perm (b :: libraryBlocks p prog' hs'))
    (hr : ∀ (x : Handed), x ∈ hs' → x ∈ hs)
    (ho : ∀ (o : Object M), o ∈ prog'.objects → o ∈ prog.objects) : Inv p ok prog' hs' os := by
  have hp : prog'.store.blocks.Perm (libraryBlocks p prog' hs' ++ os) := by
    have h1 := (hf.blocks.symm.trans h.blocks).trans (hb.append_right os)
    exact List.Perm.cons_inv h1
  refine ⟨hf.valid h.valid, hp, ?_, fun o hm => h.objects o (ho o hm)⟩
  intro x hx
  refine (h.results x (hr x hx)).kept ((hf.kept h.valid).mono fun c hc => ?_)
  rw [List.mem_singleton.1 hc]
  exact hp.mem_iff.2 (List.mem_append_left _ (List.mem_append_right _ (List.mem_map_of_mem hx)))

theorem Inv.create (h : Inv p ok prog hs os) (ha : GoodAllocator alloc) (hz : 0 < p.boxSize) {thread : Nat}
    {o : SymbolizerOpts} {ret : Nat} {prog' : Program M} (hc : prog.create p alloc thread o = .ok (ret, prog')) :
    Inv p ok prog' hs os := by
  have hne : List.replicate p.boxSize (none : Option UInt8) ≠ [] := by
    intro e
    have := congrArg List.length e
    rw [List.length_replicate, List.length_nil] at this
    omega
  unfold Program.create Store.box at hc
  rw [if_neg (by simpa using hne)] at hc
  split at hc
  · cases hc
  · rename_i a hal
    simp only [bind, Except.bind, pure, Except.pure, Except.ok.injEq, Prod.mk.injEq] at hc
    obtain ⟨_, rfl⟩ := hc
    have hext := alloc_ext ha h.valid hne hal
    refine h.ext hext ?_ (fun x hx => Or.inl hx) ?_
    · simp only [libraryBlocks, List.map_cons, Object.block, List.length_replicate]
      exact List.Perm.refl _
    · intro x hx
      rcases List.mem_cons.1 hx with rfl | hx
      · exact .new
      · exact h.objects x hx

theorem Inv.destroy (h : Inv p ok prog hs os) (hz : 0 < p.boxSize) {sym ret : Nat} {prog' : Program M}
    (hc : prog.destroy p sym = .ok (ret, prog')) : Inv p ok prog' hs os := by
  unfold Program.destroy at hc
  split at hc
  · simp only [Except.ok.injEq, Prod.mk.injEq] at hc
    obtain ⟨_, rfl⟩ := hc
    exact h
  · cases ho : prog.object sym with
    | error e => rw [ho] at hc; cases hc
    | ok o =>
      obtain ⟨hm, rfl⟩ := object_mem ho
      have hmem : (⟨o.addr, p.boxSize, 8⟩ : Block) ∈ prog.store.blocks :=
        h.library_mem (List.mem_append_left _ (List.mem_map_of_mem (f := Object.block p) hm))
      obtain ⟨t, k1, k2⟩ := free_spec (s := prog.store) (a := o.addr) (size := p.boxSize) (align := 8) (by
        intro b hb
        rw [owned, if_neg (by omega), List.mem_singleton] at hb
        rw [hb]; exact hmem)
      rw [owned, if_neg (by omega)] at k2
      rw [ho] at hc
      simp only [bind, Except.bind, k1, pure, Except.pure, Except.ok.injEq, Prod.mk.injEq] at hc
      obtain ⟨_, rfl⟩ := hc
      refine h.freed k2 ?_ (fun x hx => hx) (fun x hx => (List.mem_filter.1 hx).1)
      have := (filter_unique (f := Object.addr) (h.unique_object hz) hm).map (Object.block p)
      exact this.append_right _

theorem Inv.symsFree (h : Inv p ok prog hs os) {syms : Nat} (hsy : syms = 0 ∨ ∃ (x : Handed), x ∈ hs ∧ x.ptr = syms) :
    ∃ (store : Store), prog.store.freeSyms syms = .ok store
      ∧ Inv p ok { prog with store } (hs.filter fun x => x.ptr != syms) os := by
  rcases hsy with rfl | ⟨x, hx, rfl⟩
  · refine ⟨prog.store, rfl, ?_⟩
    rw [List.filter_eq_self.2]
    · exact h
    · intro x hx
      have := (h.results x hx).low
      simp only [bne_iff_ne, ne_eq]
      omega
  · obtain ⟨t, k1, k2⟩ := freeSyms_spec (h.results x hx)
      (h.library_mem (List.mem_append_right _ (List.mem_map_of_mem hx)))
    refine ⟨t, k1, h.freed k2 ?_ (fun y hy => (List.mem_filter.1 hy).1) (fun o ho => ho)⟩
    have := ((filter_unique (f := Handed.ptr) h.unique_handed hx).map Handed.block).append_left
      (prog.objects.map (Object.block p))
    exact this.trans List.perm_middle

/-- A request reaches the symbolizer, or the call does not come back. -/
theorem symbolize_inv {w : World M} {thread sym : Nat} {fn : SymbolizeFn} {src addrs cnt ret : Nat} {prog' : Program M}
    (hc : prog.symbolize p alloc w thread sym fn src addrs cnt = .ok (ret, prog')) :
    (∃ (e : ErrorKind), sourceOf prog.store.mem src fn = .ok (.error e) ∧ ret = 0 ∧ prog' = prog.report thread (errCode e)) ∨
    ∃ (o : Object M) (source : Source) (xs : List Nat), prog.object sym = .ok o
      ∧ sourceOf prog.store.mem src fn = .ok (.ok source) ∧ userArray prog.store.mem addrs 8 cnt = .ok xs := by
  unfold Program.symbolize at hc
  cases hs : sourceOf prog.store.mem src fn with
  | error f => rw [hs] at hc; cases hc
  | ok x =>
    rw [hs] at hc
    simp only [bind, Except.bind] at hc
    cases x with
    | error e =>
      simp only [pure, Except.pure, Except.ok.injEq, Prod.mk.injEq] at hc
      exact Or.inl ⟨e, rfl, hc.1.symm, hc.2.symm⟩
    | ok source =>
      simp only at hc
      cases ho : prog.object sym with
      | error f => rw [ho] at hc; cases hc
      | ok o =>
        cases hx : userArray prog.store.mem addrs 8 cnt with
        | error f => rw [ho, hx] at hc; cases hc
        | ok xs => exact Or.inr ⟨o, source, xs, rfl, rfl, rfl⟩

theorem Inv.symbolize (h : Inv p ok prog hs os) (ha : GoodAllocator alloc) (hz : 0 < p.boxSize) {w : World M}
    {thread sym : Nat} {fn : SymbolizeFn} {src addrs cnt ret : Nat} {prog' : Program M}
    (hab : Abides p ok prog hs w (.symbolize sym fn src addrs cnt))
    (hc : prog.symbolize p alloc w thread sym fn src addrs cnt = .ok (ret, prog')) :
    Inv p ok prog' (account p prog w ret hs (.symbolize sym fn src addrs cnt)) os := by
  rcases symbolize_inv hc with ⟨e, _, rfl, rfl⟩ | ⟨o, source, xs, ho, hs', hx⟩
  · exact h.report thread _
  · have hargs := args_of_read hx hs'
    obtain ⟨hm, rfl⟩ := object_mem ho
    obtain ⟨hok, hfit⟩ := hab o source _ hm rfl hargs
    have hans : answersTo p prog w o.addr fn src addrs cnt =
        ((o.state.symbolize (settingsOf p o.opts) w source (kindOf fn xs)).1).toOption.getD [] := by
      simp only [answersTo, ho, hs', hx]
    obtain ⟨r, state, hr⟩ : ∃ r state, o.state.symbolize (settingsOf p o.opts) w source (kindOf fn xs) = (r, state) :=
      ⟨_, _, rfl⟩
    have hst : state = Spec.Symbolize.after (settingsOf p o.opts) w o.state (.symbolize source (kindOf fn xs)) := by
      simp only [Spec.Symbolize.after, hr]
    rw [hr] at hans hfit
    obtain ⟨s1, s2, s3, s4⟩ := symbolize_cases (thread := thread) ha h.valid ho hargs hr
    have none_out : ∀ (err : Int), Inv p ok (prog.next o.addr state thread err prog.store) hs os := by
      intro err
      rw [hst]
      exact h.update hz hm hok thread err (Ext.refl h.valid) (List.Perm.refl _) (fun x hx => Or.inl hx)
    have fin0 : ∀ (err : Int), prog.symbolize p alloc w thread o.addr fn src addrs cnt
        = .ok (0, prog.next o.addr state thread err prog.store) →
        Inv p ok prog' (account p prog w ret hs (.symbolize o.addr fn src addrs cnt)) os := by
      intro err he
      rw [hc] at he
      simp only [Except.ok.injEq, Prod.mk.injEq] at he
      obtain ⟨rfl, rfl⟩ := he
      rw [account, if_pos rfl]
      exact none_out err
    cases hrr : r with
    | error e =>
      by_cases hp : e = .panic
      · rw [s1 (by rw [hrr, hp])] at hc; cases hc
      · exact fin0 _ (s2 e hp hrr)
    | ok results =>
      by_cases hne : results = []
      · exact fin0 _ (s3 (by rw [hrr, hne]))
      · obtain ⟨t1, t2, t3⟩ := s4 results hne hrr
        by_cases hl : bufSize results ≤ 2 ^ 63 - 8
        · cases hal : alloc prog.store (bufSize results) 8 with
          | none => exact fin0 _ (t2 hl hal)
          | some base =>
            obtain ⟨store, k1, k2, k3⟩ := t3 base hl hal (hfit results hrr)
            rw [hc] at k1
            simp only [Except.ok.injEq, Prod.mk.injEq] at k1
            obtain ⟨rfl, rfl⟩ := k1
            rw [account, if_neg (by omega), hans, hrr]
            simp only [Except.toOption, Option.getD_some]
            rw [hst]
            refine h.update hz hm hok thread 0 k2 ?_ ?_
            · simp only [List.map_cons, Handed.block, Nat.add_sub_cancel]
              exact List.Perm.refl _
            · intro x hx
              rcases List.mem_cons.1 hx with rfl | hx
              · exact Or.inr k3
              · exact Or.inl hx
        · rw [t1 (by omega)] at hc; cases hc

theorem cache_inv {α : Type} {w : World M} {thread sym ret : Nat} {read : Except Fault (Except ErrorKind α)}
    {req : α → CacheReq} {prog' : Program M} (hc : prog.cache p w thread sym read req = .ok (ret, prog')) :
    (∃ (e : ErrorKind), read = .ok (.error e) ∧ ret = 0 ∧ prog' = prog.report thread (errCode e)) ∨
    ∃ (o : Object M) (a : α) (err : Int), prog.object sym = .ok o ∧ read = .ok (.ok a) ∧ ret = 0
      ∧ prog' = prog.next sym (o.state.cache w p.fill (req a)).2 thread err prog.store := by
  unfold Program.cache at hc
  cases read with
  | error f => cases hc
  | ok x =>
    simp only [bind, Except.bind] at hc
    cases x with
    | error e =>
      simp only [pure, Except.pure, Except.ok.injEq, Prod.mk.injEq] at hc
      exact Or.inl ⟨e, rfl, hc.1.symm, hc.2.symm⟩
    | ok a =>
      simp only at hc
      cases ho : prog.object sym with
      | error f => rw [ho] at hc; cases hc
      | ok o =>
        rw [ho] at hc
        simp only at hc
        cases hr : outcome (o.state.cache w p.fill (req a)).1 with
        | error f => rw [hr] at hc; cases hc
        | ok r =>
          rw [hr] at hc
          simp only [pure, Except.pure, Except.ok.injEq, Prod.mk.injEq] at hc
          exact Or.inr ⟨o, a, errOf r, rfl, rfl, hc.1.symm, hc.2.symm⟩

theorem Inv.cache {α : Type} (h : Inv p ok prog hs os) (hz : 0 < p.boxSize) {w : World M} {thread sym ret : Nat}
    {read : Except Fault (Except ErrorKind α)} {req : α → CacheReq} {prog' : Program M}
    (hab : ∀ (o : Object M) (a : α), o ∈ prog.objects → o.addr = sym → read = .ok (.ok a) →
      ok o.opts o.state w (.cache p.fill (req a)))
    (hc : prog.cache p w thread sym read req = .ok (ret, prog')) : Inv p ok prog' hs os := by
  rcases cache_inv hc with ⟨e, _, _, rfl⟩ | ⟨o, a, err, ho, hr, _, rfl⟩
  · exact h.report thread _
  · obtain ⟨hm, rfl⟩ := object_mem ho
    exact h.update hz hm (hab o a hm rfl hr) thread err (Ext.refl h.valid) (List.Perm.refl _) (fun x hx => Or.inl hx)

theorem Inv.step (h : Inv p ok prog hs os) (ha : GoodAllocator alloc) (hz : 0 < p.boxSize) {w : World M}
    {thread ret : Nat} {c : SymCall} {prog' : Program M} (hab : Abides p ok prog hs w c)
    (hc : prog.step p alloc w thread c = .ok (ret, prog')) : Inv p ok prog' (account p prog w ret hs c) os := by
  cases c with
  | new => exact h.create ha hz hc
  | newOpts opts =>
    simp only [Program.step] at hc
    cases hi : inputAs prog.store.mem opts .symbolizerOpts (symbolizerOpts prog.store.mem) with
    | error f => rw [hi] at hc; cases hc
    | ok x =>
      rw [hi] at hc
      simp only [bind, Except.bind] at hc
      cases x with
      | error e =>
        simp only [pure, Except.pure, Except.ok.injEq, Prod.mk.injEq] at hc
        obtain ⟨_, rfl⟩ := hc
        exact h.report thread _
      | ok o => exact h.create ha hz hc
  | free sym => exact h.destroy hz hc
  | symbolize sym fn src addrs cnt => exact h.symbolize ha hz hab hc
  | symsFree syms =>
    obtain ⟨store, k1, k2⟩ := h.symsFree hab
    simp only [Program.step, k1, bind, Except.bind, pure, Except.pure, Except.ok.injEq, Prod.mk.injEq] at hc
    obtain ⟨_, rfl⟩ := hc
    exact k2
  | cacheElf sym src => exact h.cache hz hab hc
  | cacheProcess sym src => exact h.cache hz hab hc

theorem inv_of_runs (ha : GoodAllocator alloc) (hz : 0 < p.boxSize) (h : Runs p alloc ok prog hs os) :
    Inv p ok prog hs os := by
  induction h with
  | start s hs => exact ⟨hs, List.Perm.refl _, fun _ h => (List.not_mem_nil h).elim, fun _ h => (List.not_mem_nil h).elim⟩
  | own prog hs os os' s' _ hw ih =>
    refine ⟨hw.valid, hw.blocks, fun x hx => (ih.results x hx).kept (hw.same.mono fun b hb => ?_), ih.objects⟩
    rw [List.mem_singleton.1 hb]
    exact List.mem_append_right _ (List.mem_map_of_mem hx)
  | error prog hs os thread err _ ih => exact ⟨ih.valid, ih.blocks, ih.results, ih.objects⟩
  | call prog prog' hs os w thread ret c _ hab hc ih => exact ih.step ha hz hab hc

end

end Blazesym.CApi
