import Verif.CApi.ProgramLemmas
import Verif.CApi.NormProgramLemmas
import Verif.CApi.InspProgramLemmas
import Verif.CApi.WholeSpec

/-! Lemmas about programs that use all of the C interface. -/

set_option autoImplicit false

namespace Blazesym.CApi

open Blazesym.Error

variable {M : Type} [DecidableEq M]

theorem Moved.of_ext {s s' : Store} {bs : List Block} (h : Ext s s' bs) {errs errs' : LastErr} {thread : Nat}
    (he : errs' = errs ∨ ∃ (err : Int), errs' = errs.set thread err) : Moved s s' errs errs' thread :=
  ⟨fun _ hb _ => h.same.mono fun _ hc => by rw [List.mem_singleton.1 hc]; exact hb, he⟩

theorem Moved.of_kept {s s' : Store} (h : Unchanged s.mem s'.mem s'.blocks) {errs errs' : LastErr} {thread : Nat}
    (he : errs' = errs ∨ ∃ (err : Int), errs' = errs.set thread err) : Moved s s' errs errs' thread :=
  ⟨fun _ _ hb => h.mono fun _ hc => by rw [List.mem_singleton.1 hc]; exact hb, he⟩

theorem Moved.report (s : Store) (errs : LastErr) (thread : Nat) (err : Int) :
    Moved s s errs (errs.set thread err) thread := ⟨fun _ _ _ => unchanged_refl _ _, .inr ⟨err, rfl⟩⟩

theorem Moved.refl (s : Store) (errs : LastErr) (thread : Nat) : Moved s s errs errs thread :=
  ⟨fun _ _ _ => unchanged_refl _ _, .inl rfl⟩

/-! ### Symbolizers -/

section
variable {p : Platform} {alloc : Allocator}
  {ok : SymbolizerOpts → Symbolize.State M (Symbolize.KernelCache M) → Symbolize.World M → Spec.Symbolize.Call → Prop}
  {prog : Program M} {hs : List Handed} {os : List Block}

theorem Inv.create_moved (h : Inv p ok prog hs os) (ha : GoodAllocator alloc) (hz : 0 < p.boxSize) {thread : Nat}
    {o : SymbolizerOpts} {ret : Nat} {prog' : Program M} (hc : prog.create p alloc thread o = .ok (ret, prog')) :
    Moved prog.store prog'.store prog.errs prog'.errs thread := by
  have hne : List.replicate p.boxSize (none : Option UInt8) ≠ [] := by
    intro e
    have := congrArg List.length e
    rw [List.length_replicate, List.length_nil] at this
    omega
  unfold Program.create Store.box at hc
  rw [if_neg (by simpa using hne)] at hc
  split at hc
  · cases hc
  · rename_i a hal
    simp only [bind, Except.bind, pure, Except.pure, Except.ok.injEq, Prod.mk.injEq] at hc
    obtain ⟨_, rfl⟩ := hc
    exact Moved.of_ext (alloc_ext ha h.valid hne hal) (.inr ⟨_, rfl⟩)

theorem Inv.destroy_moved (h : Inv p ok prog hs os) (hz : 0 < p.boxSize) {sym ret : Nat} {prog' : Program M} (thread : Nat)
    (hc : prog.destroy p sym = .ok (ret, prog')) : Moved prog.store prog'.store prog.errs prog'.errs thread := by
  unfold Program.destroy at hc
  split at hc
  · simp only [Except.ok.injEq, Prod.mk.injEq] at hc
    obtain ⟨_, rfl⟩ := hc
    exact Moved.refl _ _ _
  · cases ho : prog.object sym with
    | error e => rw [ho] at hc; cases hc
    | ok o =>
      obtain ⟨hm, rfl⟩ := object_mem ho
      have hmem : (⟨o.addr, p.boxSize, 8⟩ : Block) ∈ prog.store.blocks :=
        h.library_mem (List.mem_append_left _ (List.mem_map_of_mem (f := Object.block p) hm))
      obtain ⟨t, k1, k2⟩ := free_spec (s := prog.store) (a := o.addr) (size := p.boxSize) (align := 8) (by
        intro b hb
        rw [owned, if_neg (by omega), List.mem_singleton] at hb
        rw [hb]; exact hmem)
      rw [owned, if_neg (by omega)] at k2
      rw [ho] at hc
      simp only [bind, Except.bind, k1, pure, Except.pure, Except.ok.injEq, Prod.mk.injEq] at hc
      obtain ⟨_, rfl⟩ := hc
      exact Moved.of_kept (k2.kept h.valid) (.inl rfl)

theorem Inv.symsFree_moved (h : Inv p ok prog hs os) {syms thread : Nat} {store : Store}
    (hsy : syms = 0 ∨ ∃ (x : Handed), x ∈ hs ∧ x.ptr = syms) (hc : prog.store.freeSyms syms = .ok store) :
    Moved prog.store store prog.errs prog.errs thread := by
  rcases hsy with rfl | ⟨x, hx, rfl⟩
  · have : prog.store.freeSyms 0 = .ok prog.store := rfl
    rw [this] at hc
    cases hc
    exact Moved.refl _ _ _
  · obtain ⟨t, k1, k2⟩ := freeSyms_spec (h.results x hx)
      (h.library_mem (List.mem_append_right _ (List.mem_map_of_mem hx)))
    rw [k1] at hc
    cases hc
    exact Moved.of_kept (k2.kept h.valid) (.inl rfl)

theorem Inv.symbolize_moved (h : Inv p ok prog hs os) (ha : GoodAllocator alloc) {w : Symbolize.World M}
    {thread sym : Nat} {fn : SymbolizeFn} {src addrs cnt ret : Nat} {prog' : Program M}
    (hab : Abides p ok prog hs w (.symbolize sym fn src addrs cnt))
    (hc : prog.symbolize p alloc w thread sym fn src addrs cnt = .ok (ret, prog')) :
    Moved prog.store prog'.store prog.errs prog'.errs thread := by
  rcases symbolize_inv hc with ⟨e, _, rfl, rfl⟩ | ⟨o, source, xs, ho, hs', hx⟩
  · exact Moved.report _ _ _ _
  · have hargs := args_of_read hx hs'
    obtain ⟨hm, rfl⟩ := object_mem ho
    obtain ⟨hok, hfit⟩ := hab o source _ hm rfl hargs
    obtain ⟨r, state, hr⟩ : ∃ r state, o.state.symbolize (settingsOf p o.opts) w source (kindOf fn xs) = (r, state) :=
      ⟨_, _, rfl⟩
    rw [hr] at hfit
    obtain ⟨s1, s2, s3, s4⟩ := symbolize_cases (thread := thread) ha h.valid ho hargs hr
    have fin0 : ∀ (err : Int), prog.symbolize p alloc w thread o.addr fn src addrs cnt
        = .ok (0, prog.next o.addr state thread err prog.store) →
        Moved prog.store prog'.store prog.errs prog'.errs thread := by
      intro err he
      rw [hc] at he
      simp only [Except.ok.injEq, Prod.mk.injEq] at he
      obtain ⟨rfl, rfl⟩ := he
      exact Moved.report _ _ _ _
    cases hrr : r with
    | error e =>
      by_cases hp : e = .panic
      · rw [s1 (by rw [hrr, hp])] at hc; cases hc
      · exact fin0 _ (s2 e hp hrr)
    | ok results =>
      by_cases hne : results = []
      · exact fin0 _ (s3 (by rw [hrr, hne]))
      · obtain ⟨t1, t2, t3⟩ := s4 results hne hrr
        by_cases hl : bufSize results ≤ 2 ^ 63 - 8
        · cases hal : alloc prog.store (bufSize results) 8 with
          | none => exact fin0 _ (t2 hl hal)
          | some base =>
            obtain ⟨store, k1, k2, k3⟩ := t3 base hl hal (hfit results hrr)
            rw [hc] at k1
            simp only [Except.ok.injEq, Prod.mk.injEq] at k1
            obtain ⟨rfl, rfl⟩ := k1
            exact Moved.of_ext k2 (.inr ⟨_, rfl⟩)
        · rw [t1 (by omega)] at hc; cases hc

theorem cache_moved {α : Type} {w : Symbolize.World M} {thread sym ret : Nat} {read : Except Fault (Except ErrorKind α)}
    {req : α → Symbolize.CacheReq} {prog' : Program M} (hc : prog.cache p w thread sym read req = .ok (ret, prog')) :
    Moved prog.store prog'.store prog.errs prog'.errs thread := by
  rcases cache_inv hc with ⟨e, _, _, rfl⟩ | ⟨o, a, err, ho, hr, _, rfl⟩
  · exact Moved.report _ _ _ _
  · exact Moved.report _ _ _ _

theorem Inv.step_moved (h : Inv p ok prog hs os) (ha : GoodAllocator alloc) (hz : 0 < p.boxSize) {w : Symbolize.World M}
    {thread ret : Nat} {c : SymCall} {prog' : Program M} (hab : Abides p ok prog hs w c)
    (hc : prog.step p alloc w thread c = .ok (ret, prog')) : Moved prog.store prog'.store prog.errs prog'.errs thread := by
  cases c with
  | new => exact h.create_moved ha hz hc
  | newOpts opts =>
    simp only [Program.step] at hc
    cases hi : inputAs prog.store.mem opts .symbolizerOpts (symbolizerOpts prog.store.mem) with
    | error f => rw [hi] at hc; cases hc
    | ok x =>
      rw [hi] at hc
      simp only [bind, Except.bind] at hc
      cases x with
      | error e =>
        simp only [pure, Except.pure, Except.ok.injEq, Prod.mk.injEq] at hc
        obtain ⟨_, rfl⟩ := hc
        exact Moved.report _ _ _ _
      | ok o => exact h.create_moved ha hz hc
  | free sym => exact h.destroy_moved hz thread hc
  | symbolize sym fn src addrs cnt => exact h.symbolize_moved ha hab hc
  | symsFree syms =>
    simp only [Program.step] at hc
    cases hf : prog.store.freeSyms syms with
    | error f => rw [hf] at hc; cases hc
    | ok store =>
      rw [hf] at hc
      simp only [bind, Except.bind, pure, Except.pure, Except.ok.injEq, Prod.mk.injEq] at hc
      obtain ⟨_, rfl⟩ := hc
      exact h.symsFree_moved hab hf
  | cacheElf sym src => simp only [Program.step] at hc; exact cache_moved hc
  | cacheProcess sym src => simp only [Program.step] at hc; exact cache_moved hc

/-- What is done for others looks like work of the program itself. -/
theorem Runs.others (h : Runs p alloc ok prog hs os) (ha : GoodAllocator alloc) (hz : 0 < p.boxSize) {s' : Store}
    {errs' : LastErr} {thread : Nat} {os' : List Block} (hm : Moved prog.store s' prog.errs errs' thread) (hv : s'.Valid)
    (hb : s'.blocks.Perm (libraryBlocks p prog hs ++ os')) :
    Runs p alloc ok { prog with store := s', errs := errs' } hs os' := by
  have hi := inv_of_runs ha hz h
  have ho : OwnWork (libraryBlocks p prog hs) os' prog.store s' := ⟨hv, hb, fun b hb' =>
    hm.kept b (hi.library_mem hb') (hb.mem_iff.2 (List.mem_append_left _ hb')) b (List.mem_singleton_self b)⟩
  have h1 := Runs.own prog hs os os' s' h ho
  rcases hm.errs with rfl | ⟨err, rfl⟩
  · exact h1
  · exact Runs.error _ hs os' thread err h1

end

/-! ### Normalizers and inspectors -/

section
variable {O S R W C : Type} {size : Nat} {At : Mem → Given R → Prop} {reach : O → S → Prop} {host : Host O S}
  {gs : List (Given R)} {os : List Block}

theorem HostInv.create_moved (h : HostInv size At reach host gs os) {alloc : Allocator} (ha : GoodAllocator alloc)
    (hz : 0 < size) {thread : Nat} {opts : O} {state : S} {ret : Nat} {host' : Host O S}
    (hc : host.create size alloc thread opts state = .ok (ret, host')) :
    Moved host.store host'.store host.errs host'.errs thread := by
  have hne : List.replicate size (none : Option UInt8) ≠ [] := by
    intro e
    have := congrArg List.length e
    rw [List.length_replicate, List.length_nil] at this
    omega
  unfold Host.create Store.box at hc
  rw [if_neg (by simpa using hne)] at hc
  split at hc
  · cases hc
  · rename_i a hal
    simp only [bind, Except.bind, pure, Except.pure, Except.ok.injEq, Prod.mk.injEq] at hc
    obtain ⟨_, rfl⟩ := hc
    exact Moved.of_ext (alloc_ext ha h.valid hne hal) (.inr ⟨_, rfl⟩)

theorem HostInv.destroy_moved (h : HostInv size At reach host gs os) (hz : 0 < size) {addr ret : Nat} (thread : Nat)
    {host' : Host O S} (hc : host.destroy size addr = .ok (ret, host')) :
    Moved host.store host'.store host.errs host'.errs thread := by
  by_cases h0 : addr = 0
  · rw [Host.destroy, if_pos h0] at hc
    simp only [Except.ok.injEq, Prod.mk.injEq] at hc
    obtain ⟨_, rfl⟩ := hc
    exact Moved.refl _ _ _
  · cases ho : host.tool addr with
    | error e =>
      rw [Host.destroy, if_neg h0, ho] at hc; cases hc
    | ok o =>
      obtain ⟨hm, rfl⟩ := tool_mem ho
      obtain ⟨host'', k1, k2, _, _⟩ := h.destroy_spec hz hm
      rw [hc] at k1
      simp only [Except.ok.injEq, Prod.mk.injEq] at k1
      obtain ⟨_, rfl⟩ := k1
      exact Moved.of_kept k2.kept (.inl k2.errs)

theorem HostInv.release_moved (h : HostInv size At reach host gs os) (ht : Stable At) {free : Store → Nat → Except Fault Store}
    (hf : ∀ (s : Store) (g : Given R) (rest : List Block), s.Valid → At s.mem g → s.blocks.Perm (g.blocks ++ rest) →
      ∃ (t : Store), free s g.ptr = .ok t ∧ t.blocks.Perm rest ∧ t.Valid ∧ Unchanged s.mem t.mem rest)
    (hnull : ∀ (s : Store), free s 0 = .ok s) {ptr thread : Nat} (hm : MayFree gs ptr) {store : Store}
    (hc : free host.store ptr = .ok store) : Moved host.store store host.errs host.errs thread := by
  rcases hm with rfl | hm
  · rw [hnull] at hc
    cases hc
    exact Moved.refl _ _ _
  · obtain ⟨t, k1, _, k3⟩ := h.release ht hf hnull (.inr hm) rfl
    rw [k1] at hc
    cases hc
    obtain ⟨g, hg, he⟩ := hm
    exact Moved.of_kept (k3 g hg he).kept (.inl rfl)

/-- What is done for others looks like work of the program itself. -/
theorem HostRuns.others {step : W → Nat → Host O S → C → Except Fault (Nat × Host O S)}
    {abides : Host O S → List (Given R) → W → C → Prop}
    {accounts : Host O S → Host O S → W → C → Nat → List (Given R) → List (Given R) → Prop}
    (h : HostRuns size step abides accounts host gs os) (hi : HostInv size At reach host gs os) {s' : Store}
    {errs' : LastErr} {thread : Nat} {os' : List Block} (hm : Moved host.store s' host.errs errs' thread) (hv : s'.Valid)
    (hb : s'.blocks.Perm (host.library size gs ++ os')) :
    HostRuns size step abides accounts { host with store := s', errs := errs' } gs os' := by
  have ho : OwnWork (host.library size gs) os' host.store s' := ⟨hv, hb, fun b hb' =>
    hm.kept b (hi.library_mem hb') (hb.mem_iff.2 (List.mem_append_left _ hb')) b (List.mem_singleton_self b)⟩
  have h1 := HostRuns.own host gs os os' s' h ho
  rcases hm.errs with rfl | ⟨err, rfl⟩
  · exact h1
  · exact HostRuns.error _ gs os' thread err h1

end

section
open Blazesym.Normalize
variable {tools : Dwarf.Tools} {size : Nat} {alloc : Allocator}
  {ok : Builder → Normalizer M → World M → Spec.Normalize.Call → Prop} {host : NormHost M}
  {gs : List (Given UserOutput)} {os : List Block}

theorem normalizeIn_moved (ht : HostInv size OutputThere (NormReach tools ok) host gs os) (ha : GoodAllocator alloc)
    {w : World M} {thread norm pid addrs cnt ret : Nat} {opts : Opts} {host' : NormHost M}
    (hc : normalizeIn tools alloc w host thread norm pid addrs cnt opts = .ok (ret, host'))
    (hok : ∀ (o : Tool Builder (Normalizer M)) (xs : List Nat), o ∈ host.tools → o.addr = norm →
      userArray host.store.mem addrs 8 cnt = .ok xs →
      FitOutput (o.state.normalize (o.opts.build tools) w opts pid xs).1) :
    Moved host.store host'.store host.errs host'.errs thread := by
  obtain ⟨o, xs, ho, hx⟩ := normalizeIn_inv hc
  obtain ⟨hm, rfl⟩ := tool_mem ho
  have hfit := hok o xs hm rfl hx
  obtain ⟨r, state, hr⟩ : ∃ r state, o.state.normalize (o.opts.build tools) w opts pid xs = (r, state) := ⟨_, _, rfl⟩
  obtain ⟨c1, c2, c3⟩ := normalize_cases (tools := tools) (thread := thread) ha ht.valid ho hx hr
  rw [hr] at hfit
  simp only at hfit
  cases hrr : r with
  | err e =>
    by_cases hp : e = .panic
    · rw [c1 (by rw [hrr, hp])] at hc; cases hc
    · rw [c2 e hp hrr] at hc
      simp only [Except.ok.injEq, Prod.mk.injEq] at hc
      obtain ⟨rfl, rfl⟩ := hc
      exact Moved.report _ _ _ _
  | ok metas outputs =>
    obtain ⟨d1, d2⟩ := c3 metas outputs hrr
    cases hcv : convertOutput alloc host.store ⟨outputs, metas.map outMeta⟩ with
    | error f => rw [d1 f hcv] at hc; cases hc
    | ok x =>
      obtain ⟨p, store⟩ := x
      obtain ⟨k1, k2, bs, k3, k4⟩ := d2 p store hcv (hfit metas outputs _ hrr (sameOutput metas outputs))
      rw [k1] at hc
      simp only [Except.ok.injEq, Prod.mk.injEq] at hc
      obtain ⟨rfl, rfl⟩ := hc
      exact Moved.of_ext k3 (.inr ⟨_, rfl⟩)

theorem norm_step_moved (ht : HostInv size OutputThere (NormReach tools ok) host gs os) (ha : GoodAllocator alloc)
    (hz : 0 < size) {w : World M} {thread ret : Nat} {c : NormCall} {host' : NormHost M}
    (hab : NormAbides tools ok host gs w c) (hc : normStep tools size alloc w thread host c = .ok (ret, host')) :
    Moved host.store host'.store host.errs host'.errs thread := by
  cases c with
  | new => exact ht.create_moved ha hz hc
  | newOpts opts =>
    simp only [normStep] at hc
    cases hi : inputAs host.store.mem opts .normalizerOpts normalizerOpts with
    | error f => rw [hi] at hc; cases hc
    | ok x =>
      rw [hi] at hc
      simp only [bind, Except.bind] at hc
      cases x with
      | error e =>
        simp only [pure, Except.pure, Except.ok.injEq, Prod.mk.injEq] at hc
        obtain ⟨_, rfl⟩ := hc
        exact Moved.report _ _ _ _
      | ok o => exact ht.create_moved ha hz hc
  | free norm => exact ht.destroy_moved hz thread hc
  | normalize norm pid addrs cnt =>
    have hc : normalizeIn tools alloc w host thread norm pid addrs cnt defaultRequest = .ok (ret, host') := hc
    refine normalizeIn_moved ht ha hc ?_
    rintro o xs hm rfl hx
    exact (hab.2 o pid _ xs hm (.default hx)).2
  | normalizeOpts norm pid addrs cnt opts =>
    simp only [normStep] at hc
    cases hi : inputAs host.store.mem opts .normalizeOpts normalizeOpts with
    | error f => rw [hi] at hc; cases hc
    | ok x =>
      rw [hi] at hc
      simp only [bind, Except.bind] at hc
      cases x with
      | error e =>
        simp only [pure, Except.pure, Except.ok.injEq, Prod.mk.injEq] at hc
        obtain ⟨rfl, rfl⟩ := hc
        exact Moved.report _ _ _ _
      | ok o =>
        obtain ⟨s, mf, ae⟩ := o
        refine normalizeIn_moved ht ha hc ?_
        rintro o xs hm rfl hx
        exact (hab.2 o pid _ xs hm (.opts hx hi)).2
  | outputFree out =>
    simp only [normStep] at hc
    cases hf : userOutputFree host.store out with
    | error f => rw [hf] at hc; cases hc
    | ok store =>
      rw [hf] at hc
      simp only [bind, Except.bind, pure, Except.pure, Except.ok.injEq, Prod.mk.injEq] at hc
      obtain ⟨_, rfl⟩ := hc
      exact ht.release_moved outputThere_stable outputFree_spec (fun _ => rfl) (hab.1 out rfl) hf

end

section
open Blazesym.Inspect
variable {tools : Dwarf.Tools} {size : Nat} {alloc : Allocator} {ok : World M → Inspect.Source → Prop} {host : InspHost M}
  {gs : List (Given (List (List SymInfo)))} {os : List Block}

theorem insp_step_moved (ht : HostInv size ListsThere (InspReach tools ok) host gs os) (ha : GoodAllocator alloc)
    (hz : 0 < size) {w : World M} {thread ret : Nat} {c : InspCall} {host' : InspHost M}
    (hab : InspAbides tools ok host gs w c) (hc : inspStep tools size alloc w thread host c = .ok (ret, host')) :
    Moved host.store host'.store host.errs host'.errs thread := by
  cases c with
  | new => exact ht.create_moved ha hz hc
  | free insp => exact ht.destroy_moved hz thread hc
  | symsFree syms =>
    simp only [inspStep] at hc
    cases hf : host.store.freeSyms syms with
    | error f => rw [hf] at hc; cases hc
    | ok store =>
      rw [hf] at hc
      simp only [bind, Except.bind, pure, Except.pure, Except.ok.injEq, Prod.mk.injEq] at hc
      obtain ⟨_, rfl⟩ := hc
      exact ht.release_moved listsThere_stable listsFree_spec (fun _ => rfl) (hab.1 syms rfl) hf
  | inspect insp src names cnt =>
    have hc : inspectIn tools alloc w host thread insp src names cnt = .ok (ret, host') := hc
    rcases inspectIn_inv hc with ⟨e, _, rfl, rfl⟩ | ⟨o, path, debugSyms, strs, ho, hargs, hu⟩
    · exact Moved.report _ _ _ _
    · obtain ⟨hm, rfl⟩ := tool_mem ho
      obtain ⟨hok, hfit⟩ := hab.2 o src names cnt path debugSyms strs hm rfl hargs
      obtain ⟨r, state, hr⟩ : ∃ r state, o.state.lookup tools w (.elf path debugSyms) strs = (r, state) := ⟨_, _, rfl⟩
      rw [hr] at hfit
      simp only at hfit
      obtain ⟨c1, c2, c3⟩ := inspect_cases (tools := tools) (thread := thread) ha ht.valid ho hargs hu hr
      cases hrr : r with
      | error e =>
        by_cases hp : e = .panic
        · rw [c1 (by rw [hrr, hp])] at hc; cases hc
        · rw [c2 e hp hrr] at hc
          simp only [Except.ok.injEq, Prod.mk.injEq] at hc
          obtain ⟨rfl, rfl⟩ := hc
          exact Moved.report _ _ _ _
      | ok lists =>
        obtain ⟨d1, d2, d3⟩ := c3 lists hrr hfit
        by_cases hs : listsBufSize lists ≤ 2 ^ 63 - 8
        · cases hal : alloc host.store (listsBufSize lists) 8 with
          | none =>
            rw [d2 hs hal] at hc
            simp only [Except.ok.injEq, Prod.mk.injEq] at hc
            obtain ⟨rfl, rfl⟩ := hc
            exact Moved.report _ _ _ _
          | some base =>
            obtain ⟨store, k1, k2, _, k4⟩ := d3 base hs hal
            rw [k1] at hc
            simp only [Except.ok.injEq, Prod.mk.injEq] at hc
            obtain ⟨rfl, rfl⟩ := hc
            exact Moved.of_ext k2 (.inr ⟨_, rfl⟩)
        · rw [d1 (by omega)] at hc; cases hc

end

/-! ### All together -/

section
variable {p : Platform} {n : Sizes} {alloc : Allocator} {ok : Conditions M} {x : Whole M} {a : Account} {os : List Block}

theorem sym_step {w : Normalize.World M} {thread ret : Nat} {c : SymCall} {x' : Whole M}
    (h : x.step p n alloc w thread (.sym c) = .ok (ret, x')) :
    ∃ (prog' : Program M), x.syms.step p alloc w.toSession thread c = .ok (ret, prog')
      ∧ x' = { x with store := prog'.store, errs := prog'.errs, symbolizers := prog'.objects } := by
  simp only [Whole.step] at h
  cases hc : x.syms.step p alloc w.toSession thread c with
  | error f => rw [hc] at h; cases h
  | ok y =>
    rw [hc] at h
    cases h
    exact ⟨_, rfl, rfl⟩

theorem norm_step_of {w : Normalize.World M} {thread ret : Nat} {c : NormCall} {x' : Whole M}
    (h : x.step p n alloc w thread (.norm c) = .ok (ret, x')) :
    ∃ (host' : NormHost M), normStep p.tools n.norm alloc w thread x.norms c = .ok (ret, host')
      ∧ x' = { x with store := host'.store, errs := host'.errs, normalizers := host'.tools } := by
  simp only [Whole.step] at h
  cases hc : normStep p.tools n.norm alloc w thread x.norms c with
  | error f => rw [hc] at h; cases h
  | ok y =>
    rw [hc] at h
    cases h
    exact ⟨_, rfl, rfl⟩

theorem insp_step_of {w : Normalize.World M} {thread ret : Nat} {c : InspCall} {x' : Whole M}
    (h : x.step p n alloc w thread (.insp c) = .ok (ret, x')) :
    ∃ (host' : InspHost M), inspStep p.tools n.insp alloc w.toSession.toWorld thread x.insps c = .ok (ret, host')
      ∧ x' = { x with store := host'.store, errs := host'.errs, inspectors := host'.tools } := by
  simp only [Whole.step] at h
  cases hc : inspStep p.tools n.insp alloc w.toSession.toWorld thread x.insps c with
  | error f => rw [hc] at h; cases h
  | ok y =>
    rw [hc] at h
    cases h
    exact ⟨_, rfl, rfl⟩

theorem perm_second (A B C D : List Block) : (A ++ (B ++ C ++ D)).Perm (B ++ (A ++ C ++ D)) := by
  simp only [← List.append_assoc]
  exact (List.perm_append_comm.append_right C).append_right D

theorem perm_third (A B C D : List Block) : (A ++ (B ++ C ++ D)).Perm (C ++ (A ++ B ++ D)) := by
  simp only [← List.append_assoc]
  refine List.Perm.append_right D ?_
  rw [List.append_assoc C]
  exact List.perm_append_comm

theorem perm_inner (A B C D : List Block) : (A ++ (B ++ C ++ D)).Perm (A ++ (C ++ B ++ D)) :=
  (List.perm_append_comm.append_right D).append_left A

theorem views_of_runs (ha : GoodAllocator alloc) (hp : 0 < p.boxSize) (hn : 0 < n.norm) (hi : 0 < n.insp)
    (h : WholeRuns p n alloc ok x a os) : Views p n alloc ok x a os := by
  induction h with
  | start s hs => exact ⟨Runs.start s hs, HostRuns.start s hs, HostRuns.start s hs⟩
  | own x a os os' s' _ hw ih =>
    have hb : s'.blocks.Perm (x.symBlocks p a ++ (x.normBlocks n a ++ x.inspBlocks n a ++ os')) := by
      have := hw.blocks
      rwa [Whole.library, List.append_assoc] at this
    refine ⟨Runs.own x.syms a.syms _ _ s' ih.sym ⟨hw.valid, hb, hw.same.mono fun b h => ?_⟩,
      HostRuns.own x.norms a.norms _ _ s' ih.norm ⟨hw.valid, hb.trans (perm_second _ _ _ _), hw.same.mono fun b h => ?_⟩,
      HostRuns.own x.insps a.insps _ _ s' ih.insp ⟨hw.valid, hb.trans (perm_third _ _ _ _), hw.same.mono fun b h => ?_⟩⟩
    · exact List.mem_append_left _ h
    · exact List.mem_append_right _ (List.mem_append_left _ h)
    · exact List.mem_append_right _ (List.mem_append_right _ h)
  | error x a os thread err _ ih =>
    exact ⟨Runs.error x.syms _ _ thread err ih.sym, HostRuns.error x.norms _ _ thread err ih.norm,
      HostRuns.error x.insps _ _ thread err ih.insp⟩
  | call x x' a a' os w thread ret c _ hab hc hacc ih =>
    cases c with
    | sym c =>
      obtain ⟨prog', h1, rfl⟩ := sym_step hc
      have hacc : a' = { a with syms := account p x.syms w.toSession ret a.syms c } := hacc
      subst hacc
      have hab : Abides p ok.sym x.syms a.syms w.toSession c := hab
      have hv := inv_of_runs ha hp ih.sym
      have hv' := hv.step ha hp hab h1
      have hm := hv.step_moved ha hp hab h1
      refine ⟨Runs.call x.syms prog' a.syms _ w.toSession thread ret c ih.sym hab h1, ?_, ?_⟩
      · exact HostRuns.others ih.norm (inv_of_normRuns ha hn ih.norm) hm hv'.valid (hv'.blocks.trans (perm_second _ _ _ _))
      · exact HostRuns.others ih.insp (inv_of_inspRuns ha hi ih.insp) hm hv'.valid (hv'.blocks.trans (perm_third _ _ _ _))
    | norm c =>
      obtain ⟨host', h1, rfl⟩ := norm_step_of hc
      obtain ⟨gs, hacc, rfl⟩ := hacc
      have hab : NormAbides p.tools ok.norm x.norms a.norms w c := hab
      have hv := inv_of_normRuns ha hn ih.norm
      have hv' := norm_step hv ha hn hab h1 hacc
      have hm := norm_step_moved hv ha hn hab h1
      refine ⟨?_, HostRuns.call x.norms host' a.norms gs _ w thread ret c ih.norm hab h1 hacc, ?_⟩
      · exact Runs.others ih.sym ha hp hm hv'.valid (hv'.blocks.trans (perm_second _ _ _ _))
      · refine HostRuns.others ih.insp (inv_of_inspRuns ha hi ih.insp) hm hv'.valid ?_
        exact (hv'.blocks.trans (perm_third _ _ _ _)).trans (perm_inner _ _ _ _)
    | insp c =>
      obtain ⟨host', h1, rfl⟩ := insp_step_of hc
      obtain ⟨gs, hacc, rfl⟩ := hacc
      have hab : InspAbides p.tools ok.insp x.insps a.insps w.toSession.toWorld c := hab
      have hv := inv_of_inspRuns ha hi ih.insp
      have hv' := insp_step hv ha hi hab h1 hacc
      have hm := insp_step_moved hv ha hi hab h1
      refine ⟨?_, ?_, HostRuns.call x.insps host' a.insps gs _ w.toSession.toWorld thread ret c ih.insp hab h1 hacc⟩
      · exact Runs.others ih.sym ha hp hm hv'.valid
          ((hv'.blocks.trans (perm_second _ _ _ _)).trans (perm_inner _ _ _ _))
      · exact HostRuns.others ih.norm (inv_of_normRuns ha hn ih.norm) hm hv'.valid
          ((hv'.blocks.trans (perm_third _ _ _ _)).trans (perm_inner _ _ _ _))

end

end Blazesym.CApi
