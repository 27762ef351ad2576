import Verif.Go.ProgramLemmas
import Verif.Go.BindingsProps
import Verif.CApi.ProgramProps

/-! Property theorems C89 (Go programs with symbolizers). -/

set_option autoImplicit false

namespace Blazesym.Go

open Blazesym.CApi Blazesym.Error Blazesym.Symbolize Blazesym.Spec.Symbolize

variable {M : Type} [DecidableEq M] {p : Platform} {alloc : Allocator}
  {ok : SymbolizerOpts → State M (KernelCache M) → World M → Spec.Symbolize.Call → Prop} {prog : Program M}
  {os : List Block} {n : Nat}

/-- What is the case all the time. -/
theorem inv_of_goRuns (ha : GoodAllocator alloc) (hz : 0 < p.boxSize) (h : GoRuns p alloc ok prog os n) :
    ∃ (leak : List Block), leak.length ≤ n ∧ Inv p ok prog [] (leak ++ os) := by
  induction h with
  | start s hs =>
    exact ⟨[], Nat.le_refl _, hs, List.Perm.refl _, fun _ h => (List.not_mem_nil h).elim, fun _ h => (List.not_mem_nil h).elim⟩
  | own prog os os' rest n s' _ hp hw ih =>
    obtain ⟨leak, hl, ih⟩ := ih
    refine ⟨leak, hl, hw.valid, ?_, fun _ h => (List.not_mem_nil h).elim, ih.objects⟩
    have h1 : (rest ++ os).Perm ((libraryBlocks p prog [] ++ leak) ++ os) := by
      rw [List.append_assoc]
      exact hp.symm.trans ih.blocks
    have h2 := (List.perm_append_right_iff os).1 h1
    have h3 := hw.blocks.trans (h2.append_right os')
    rw [List.append_assoc] at h3
    exact h3
  | error prog os n thread err _ ih =>
    obtain ⟨leak, hl, ih⟩ := ih
    exact ⟨leak, hl, ih.valid, ih.blocks, ih.results, ih.objects⟩
  | new prog prog' os n w sched options res _ hn ih =>
    obtain ⟨leak, hl, ih⟩ := ih
    rcases newIn_spec ha hz ih.valid w sched options with h | ⟨a, s', leak', h, he, hlen, _⟩
    · rw [h] at hn; cases hn
    · rw [h] at hn
      simp only [Except.ok.injEq, Prod.mk.injEq] at hn
      obtain ⟨_, rfl⟩ := hn
      refine ⟨leak' ++ leak, by rw [List.length_append]; omega, ?_⟩
      rw [List.append_assoc]
      exact inv_new ih he
  | symbolize prog prog' os n k w sched o req addrs res _ ho hreq haddrs hok hfit hk hc ih =>
    obtain ⟨leak, hl, ih⟩ := ih
    rcases symbolizeIn_spec ha ih.valid w sched (ih.object_eq hz ho) hreq haddrs rfl hfit with
      ⟨f, h, _⟩ | ⟨res', s', own, leak', r', h, he, _, told⟩
    · rw [h] at hc; cases hc
    · rw [h] at hc
      simp only [Except.ok.injEq, Prod.mk.injEq] at hc
      obtain ⟨_, rfl⟩ := hc
      refine ⟨leak' ++ leak, ?_, ?_⟩
      · rw [List.length_append]
        have := told_leak told
        rcases hk with hk | ⟨_, hk⟩
        · omega
        · rw [locked_seen hk] at told
          rw [(told_locked told).2, List.length_nil]
          omega
      · rw [List.append_assoc]
        exact inv_asked hz ih ho hok sched own he
  | close prog prog' os n w thread o _ ho hc ih =>
    obtain ⟨leak, hl, ih⟩ := ih
    refine ⟨leak, hl, ?_⟩
    rw [closeIn] at hc
    simp only [Program.step] at hc
    cases hd : prog.destroy p o.addr with
    | error f => rw [hd] at hc; cases hc
    | ok x =>
      rw [hd] at hc
      simp only [lift, bind, Except.bind, pure, Except.pure, Except.ok.injEq] at hc
      subst hc
      exact ih.destroy hz (ret := x.1) (prog' := x.2) hd

theorem object_none {a : Nat} (h : ∀ (o : Object M), o ∈ prog.objects → o.addr ≠ a) :
    prog.object a = .error .outOfBounds := by
  cases hc : prog.object a with
  | error f =>
    unfold Program.object at hc
    split at hc
    · cases hc
    · exact hc.symm ▸ rfl
  | ok x =>
    obtain ⟨k1, k2⟩ := object_mem hc
    exact absurd k2 (h x k1)

section
variable (ha : GoodAllocator alloc) (hz : 0 < p.boxSize) (hrun : GoRuns p alloc ok prog os n)
include ha hz hrun

/-- **C89** (symbolizers) Whatever a Go program has done, with any number of symbolizers and goroutines: each of its
symbolizers that is not closed is one that a Rust program can have that makes the calls this symbolizer was used
for. -/
theorem C89_objects (o : Object M) (ho : o ∈ prog.objects) : Reachable (settingsOf p o.opts) (ok o.opts) o.state := by
  obtain ⟨leak, _, h⟩ := inv_of_goRuns ha hz hrun
  exact h.objects o ho

/-- **C89** (memory) The memory in use is that of the symbolizers that are not closed, the program's own, and at most
as many pieces as can have been lost; no two of them overlap. -/
theorem C89_memory : ∃ (leak : List Block), leak.length ≤ n
    ∧ prog.store.blocks.Perm (prog.objects.map (Object.block p) ++ leak ++ os) ∧ prog.store.Valid := by
  obtain ⟨leak, hl, h⟩ := inv_of_goRuns ha hz hrun
  refine ⟨leak, hl, ?_, h.valid⟩
  have := h.blocks
  simpa only [libraryBlocks, List.map_nil, List.append_nil, List.append_assoc] using this

/-- **C89** (creation) Creating a symbolizer comes back with one that has the settings asked for, at an address that
no other one has; nothing happens to other symbolizers and to their memory.  Otherwise memory ran out. -/
theorem C89_new (w : World M) (sched : Schedule) (options : List SymbolizerOption) :
    newIn p alloc w prog sched options = .error (.c .outOfMemory)
      ∨ ∃ (a : Nat) (prog' : Program M), newIn p alloc w prog sched options = .ok (.ok a, prog')
        ∧ prog'.objects = ⟨a, settings options, State.new (settingsOf p (settings options))⟩ :: prog.objects
        ∧ (∀ (o : Object M), o ∈ prog.objects → o.addr ≠ a)
        ∧ (∀ (t : Nat), ErrorAfter prog.errs ((sched.callThread, 0) :: sched.others) t (prog'.errs t))
        ∧ Unchanged prog.store.mem prog'.store.mem prog.store.blocks := by
  obtain ⟨leak, _, h⟩ := inv_of_goRuns ha hz hrun
  rcases newIn_spec ha hz h.valid w sched options with h1 | ⟨a, s', leak', h1, he, _⟩
  · exact Or.inl h1
  · refine Or.inr ⟨a, _, h1, rfl, ?_, fun t => errorAfter_others prog.errs ((sched.callThread, 0) :: sched.others) t, he.same⟩
    intro o ho hoa
    have hi := inv_new (errs := prog.errs) (opts := settings options) h he
    have := (List.pairwise_cons.1 (hi.unique_object hz)).1 o ho
    exact this hoa.symm

/-- **C89** (requests) What a goroutine that stays on its thread is told by a symbolizer that is not closed: the text
of its error, `nil` if it has no results, or the results.  The symbolizer becomes what it becomes by this request,
nothing happens to others, and no memory is lost.

The full property would not need the goroutine to be locked to its thread (see `C85_lost_wrong`). -/
theorem C89_answers_partial (w : World M) {sched : Schedule} (hl : sched.Locked) {o : Object M} (ho : o ∈ prog.objects)
    {req : Request} (hreq : req.Fits) {addrs : List Nat} (haddrs : ∀ (x : Nat), x ∈ addrs → x < 2 ^ 64)
    {r : Except Err (List Symbolized)} {state : State M (KernelCache M)}
    (hr : o.state.symbolize (settingsOf p o.opts) w req.source (req.input addrs) = (r, state)) (hfit : FitNumbers r)
    {res : Result} {prog' : Program M} (h : symbolizeIn p alloc w prog sched o.addr req addrs = .ok (res, prog')) :
    Answers alloc r res ∧ OnlyChanged prog prog' o state ∧ Released prog.store prog'.store := by
  obtain ⟨leak, _, hi⟩ := inv_of_goRuns ha hz hrun
  rcases symbolizeIn_spec ha hi.valid w sched (hi.object_eq hz ho) hreq haddrs hr hfit with
    ⟨f, h1, _⟩ | ⟨res', s', own, leak', r', h1, he, hout, told⟩
  · rw [h] at h1; cases h1
  · rw [h] at h1
    simp only [Except.ok.injEq, Prod.mk.injEq] at h1
    obtain ⟨rfl, rfl⟩ := h1
    rw [locked_seen hl] at told
    obtain ⟨⟨t1, t2, t3⟩, t4⟩ := told_locked told
    subst t4
    refine ⟨⟨fun e he => ?_, fun he => ?_, fun results he => ?_⟩, ?_, he.blocks, he.same, he.valid⟩
    · subst he
      by_cases hp : e = .panic
      · subst hp; rw [outcome_panic] at hout; cases hout
      · rw [outcome_error hp] at hout
        cases hout
        exact ⟨kindOfErr e, hasCode e hp, t1 _ rfl⟩
    · subst he
      rw [outcome_ok] at hout
      cases hout
      exact t2 rfl
    · subst he
      rw [outcome_ok] at hout
      cases hout
      exact t3 results rfl
    · exact (changed_next (fun y hy h => hi.same_object hz hy ho h) ho state 0 0 s').objects

/-- **C89** (requests) What any goroutine is told, whichever thread it asks for the last error on, and whatever other
goroutines did meanwhile: if there is an error there, its text; otherwise the results, or `nil` even if the
symbolizer failed.  The symbolizer becomes what it becomes by this request, nothing happens to others, and at most
one piece of memory is lost. -/
theorem C89_any (w : World M) {sched : Schedule} {o : Object M} (ho : o ∈ prog.objects)
    {req : Request} (hreq : req.Fits) {addrs : List Nat} (haddrs : ∀ (x : Nat), x ∈ addrs → x < 2 ^ 64)
    {r : Except Err (List Symbolized)} {state : State M (KernelCache M)}
    (hr : o.state.symbolize (settingsOf p o.opts) w req.source (req.input addrs) = (r, state)) (hfit : FitNumbers r)
    {res : Result} {prog' : Program M} (h : symbolizeIn p alloc w prog sched o.addr req addrs = .ok (res, prog')) :
    (∃ (own : Int), (∀ (t : Nat), ErrorAfter prog.errs ((sched.callThread, own) :: sched.others) t (prog'.errs t))
      ∧ (prog'.errs sched.errThread ≠ 0 → res = .error (errText (prog'.errs sched.errThread)))
      ∧ (∀ (e : Err), r = .error e → HasCode e own ∧ (prog'.errs sched.errThread = 0 → res = .ok none))
      ∧ (r = .ok [] → own = 0 ∧ (prog'.errs sched.errThread = 0 → res = .ok none))
      ∧ ∀ (results : List Symbolized), r = .ok results → results ≠ [] →
          (own = 0 ∧ (prog'.errs sched.errThread = 0 →
              ∃ (gs : List GoSym), res = .ok (some gs) ∧ List.Forall₂ Shows results gs))
          ∨ (own = -12 ∧ (prog'.errs sched.errThread = 0 → res = .ok none)
              ∧ ∃ (t : Store), alloc t (bufSize results) 8 = none))
    ∧ OnlyChanged prog prog' o state
    ∧ ∃ (leak : List Block), leak.length ≤ 1 ∧ Leaked prog.store prog'.store leak := by
  obtain ⟨leak, _, hi⟩ := inv_of_goRuns ha hz hrun
  rcases symbolizeIn_spec ha hi.valid w sched (hi.object_eq hz ho) hreq haddrs hr hfit with
    ⟨f, h1, _⟩ | ⟨res', s', own, leak', r', h1, he, hout, told⟩
  · rw [h] at h1; cases h1
  · rw [h] at h1
    simp only [Except.ok.injEq, Prod.mk.injEq] at h1
    obtain ⟨rfl, rfl⟩ := h1
    refine ⟨⟨own, fun t => errorAfter_others prog.errs ((sched.callThread, own) :: sched.others) t, ?_⟩,
      (changed_next (fun y hy h => hi.same_object hz hy ho h) ho state 0 0 s').objects,
      leak', told_leak told, he.blocks, he.same, he.valid⟩
    obtain ⟨t1, t2, t3, t4⟩ := told_any told
    refine ⟨t1, fun e he => ?_, fun he => ?_, fun results he => ?_⟩
    · subst he
      by_cases hp : e = .panic
      · subst hp; rw [outcome_panic] at hout; cases hout
      · rw [outcome_error hp] at hout
        cases hout
        obtain ⟨k1, k2⟩ := t2 _ rfl
        exact ⟨k1 ▸ hasCode e hp, k2⟩
    · subst he
      rw [outcome_ok] at hout
      cases hout
      exact t3 rfl
    · subst he
      rw [outcome_ok] at hout
      cases hout
      exact t4 results rfl

/-- **C89** (requests) The only ways a request to a symbolizer that is not closed does not return: memory runs out,
there are no bytes of GSYM data, the library panics, the results are larger than any memory, or a symbol has more
than `1 << 30` inlined functions. -/
theorem C89_panics (w : World M) {sched : Schedule} {o : Object M} (ho : o ∈ prog.objects)
    {req : Request} (hreq : req.Fits) {addrs : List Nat} (haddrs : ∀ (x : Nat), x ∈ addrs → x < 2 ^ 64)
    {r : Except Err (List Symbolized)} {state : State M (KernelCache M)}
    (hr : o.state.symbolize (settingsOf p o.opts) w req.source (req.input addrs) = (r, state)) (hfit : FitNumbers r)
    {f : Crash} (h : symbolizeIn p alloc w prog sched o.addr req addrs = .error f) :
    f = .c .outOfMemory ∨ (f = .index ∧ req = .gsymDataVirtOffsets [])
      ∨ (f = .c .abort ∧ r = .error .panic)
      ∨ ∃ (results : List Symbolized), r = .ok results
          ∧ ((f = .c .badLayout ∧ 2 ^ 63 - 8 < bufSize results) ∨ (f = .slice ∧ ¬FewInlined results)) := by
  obtain ⟨leak, _, hi⟩ := inv_of_goRuns ha hz hrun
  rcases symbolizeIn_spec ha hi.valid w sched (hi.object_eq hz ho) hreq haddrs hr hfit with
    ⟨f', h1, h2⟩ | ⟨res', s', own, leak', r', h1, _⟩
  · rw [h] at h1; cases h1; exact h2
  · rw [h] at h1; cases h1

/-- **C89** (closing) Closing a symbolizer that is not closed succeeds: its memory is free, and nothing happens to
other symbolizers and other memory. -/
theorem C89_close (w : World M) (thread : Nat) {o : Object M} (ho : o ∈ prog.objects) :
    ∃ (prog' : Program M), closeIn p alloc w prog thread o.addr = .ok prog'
      ∧ (∀ (x : Object M), x ∈ prog'.objects ↔ x ∈ prog.objects ∧ x.addr ≠ o.addr)
      ∧ prog.store.blocks.Perm (Object.block p o :: prog'.store.blocks)
      ∧ Unchanged prog.store.mem prog'.store.mem prog'.store.blocks := by
  obtain ⟨leak, _, h⟩ := inv_of_goRuns ha hz hrun
  have hmem : (⟨o.addr, p.boxSize, 8⟩ : Block) ∈ prog.store.blocks :=
    h.library_mem (List.mem_append_left _ (List.mem_map_of_mem (f := Object.block p) ho))
  obtain ⟨t, k1, k2⟩ := free_spec (s := prog.store) (a := o.addr) (size := p.boxSize) (align := 8) (by
    intro b hb
    rw [owned, if_neg (by omega), List.mem_singleton] at hb
    rw [hb]; exact hmem)
  rw [owned, if_neg (by omega)] at k2
  have hpos : o.addr ≠ 0 := by
    have := (h.valid.1 _ hmem).2.1
    simp only at this
    omega
  refine ⟨{ prog with store := t, objects := prog.objects.filter fun x => x.addr != o.addr }, ?_, ?_, k2.blocks, k2.kept h.valid⟩
  · simp only [closeIn, Program.step, Program.destroy, if_neg hpos, h.object_eq hz ho, k1, lift, bind, Except.bind, pure,
      Except.pure]
  · intro x
    simp only [List.mem_filter, bne_iff_ne, ne_eq]

/-- The full property would be that a symbolizer can be closed twice, and that a closed symbolizer reports an error.
The pointer is kept when a symbolizer is closed: to close it again, or to use it, is undefined behaviour (if the
address is not that of another symbolizer meanwhile, see `C89_other_closed_wrong`). -/
theorem C89_close_twice_wrong (w : World M) (thread : Nat) {o : Object M} (ho : o ∈ prog.objects) :
    ∃ (prog' : Program M), closeIn p alloc w prog thread o.addr = .ok prog'
      ∧ closeIn p alloc w prog' thread o.addr = .error (.c .outOfBounds) := by
  obtain ⟨prog', h1, h2, _, _⟩ := C89_close ha hz hrun w thread ho
  refine ⟨prog', h1, ?_⟩
  obtain ⟨leak, _, h⟩ := inv_of_goRuns ha hz hrun
  have hmem : (⟨o.addr, p.boxSize, 8⟩ : Block) ∈ prog.store.blocks :=
    h.library_mem (List.mem_append_left _ (List.mem_map_of_mem (f := Object.block p) ho))
  have hpos : o.addr ≠ 0 := by
    have := (h.valid.1 _ hmem).2.1
    simp only at this
    omega
  have hno := object_none fun x hx => ((h2 x).1 hx).2
  simp only [closeIn, Program.step, Program.destroy, if_neg hpos, hno, lift, bind, Except.bind]

end

theorem upToNul_self {path : Bytes} (h : 0 ∉ path) : upToNul path = path := by
  unfold upToNul
  induction path with
  | nil => rfl
  | cons b bs ih =>
    simp only [List.mem_cons, not_or] at h
    rw [List.takeWhile_cons_of_pos (by simpa using fun e => h.1 e.symm), ih h.2]

/-- The full property would be that a closed symbolizer reports an error.  Whatever it is asked, the call does not
come back, or its behaviour is undefined. -/
theorem C89_use_after_close_wrong (ha : GoodAllocator alloc) (hs : prog.store.Valid) (w : World M) (sched : Schedule)
    {a : Nat} (h : ∀ (o : Object M), o ∈ prog.objects → o.addr ≠ a) {req : Request} (hreq : req.Fits) {addrs : List Nat}
    (haddrs : ∀ (x : Nat), x ∈ addrs → x < 2 ^ 64) :
    symbolizeIn p alloc w prog sched a req addrs = .error (.c .outOfBounds)
      ∨ symbolizeIn p alloc w prog sched a req addrs = .error (.c .outOfMemory)
      ∨ (symbolizeIn p alloc w prog sched a req addrs = .error .index ∧ req = .gsymDataVirtOffsets []) := by
  by_cases hd : req = .gsymDataVirtOffsets []
  · subst hd
    exact Or.inr (Or.inr ⟨rfl, rfl⟩)
  unfold symbolizeIn
  rcases prepare_spec ha hs req hreq hd with h' | ⟨prep, s1, bs, h1, hm, e1, hne, hsrc⟩
  · exact Or.inr (Or.inl (by rw [h']; rfl))
  rw [h1]
  simp only [bind, Except.bind]
  rcases addrsToPtr_spec ha e1.valid addrs haddrs with h' | ⟨b, s2, h2, e2, hx⟩
  · exact Or.inr (Or.inl (by rw [h']))
  rw [h2]
  simp only
  rcases goNew_spec ha e2.valid hne with h' | ⟨q, s3, h3, e3, hp, _, _, hh⟩
  · exact Or.inr (Or.inl (by rw [h']))
  rw [h3]
  simp only
  have hargs : SymbolizeArgs s3.mem q b addrs.length req.fn req.source (req.input addrs) :=
    hsrc _ _ _ _ _ ((e1.kept e2).trans (e3.same.mono fun b hb => e2.old_mem b (e1.new_mem b hb))) hh hp
      (hx _ (e2.kept e3))
  obtain ⟨xs, _, hs', _⟩ := args_read hargs
  have hno : Program.object { prog with store := s3 } a = .error .outOfBounds := object_none h
  left
  simp only [Program.step, Program.symbolize, hs', hno, lift, bind, Except.bind]

/-- **C89** (memory) If all symbolizers are closed, and nothing can have been lost, only the program's own memory is
in use. -/
theorem C89_all_closed_partial (ha : GoodAllocator alloc) (hz : 0 < p.boxSize) (hrun : GoRuns p alloc ok prog os 0)
    (h : prog.objects = []) : prog.store.blocks.Perm os := by
  obtain ⟨leak, hl, hb, _⟩ := C89_memory ha hz hrun
  have : leak = [] := List.length_eq_zero_iff.1 (by omega)
  subst this
  rw [h] at hb
  exact hb

/-- **C89** (ELF files without debug information; partial: see `Absent`, and the histories of C68) In any program, a
goroutine that stays on its thread and asks about virtual addresses of an ELF file is told the symbols of the file
that stand for them, in the order of the addresses, or that memory ran out. -/
theorem C89_elf_partial (ha : GoodAllocator alloc) (hz : 0 < p.boxSize) {k : SymbolizerOpts → Known M}
    (hlen : ∀ opts m data, (k opts).contents m = .ok (.ok data) → data.length < 2 ^ 63)
    (hrun : GoRuns p alloc (fun opts => Orderly (settingsOf p opts) (k opts)) prog os n) (w : World M) {sched : Schedule}
    (hl : sched.Locked) {o : Object M} (ho : o ∈ prog.objects) (hw : w.disk.contents = (k o.opts).contents)
    {path : Bytes} (hnul : 0 ∉ path) {xs : List Nat} (hxs : ∀ (x : Nat), x ∈ xs → x < 2 ^ 64) (hx : xs ≠ [])
    (hname : ∀ m, (versions o.state w).elf path = .ok m → (k o.opts).name m = path) {data : Bytes}
    (hc : HasContents w ((versions o.state w).elf path) data) {phdrs : List Elf.Phdr} {symtab dynsym : Elf.SymTab}
    (hp : ElfParts p.tools.codec (.mem 4096 data) phdrs symtab dynsym) (h1 : Sound symtab) (h2 : Sound dynsym)
    {res : Result} {prog' : Program M}
    (h : symbolizeIn p alloc w prog sched o.addr (.elfVirtOffsets path []) xs = .ok (res, prog')) :
    res = .error (ascii "out of memory") ∨ ∃ (gs : List GoSym), res = .ok (some gs) ∧ List.Forall₂ (fun x g =>
      ∃ (out : Symbolized), InElf (shownName p.demangler o.opts.demangle .unknown) path symtab dynsym x out ∧ Shows out g)
      xs gs := by
  obtain ⟨outs, hres, hall⟩ := elf_results hlen (C89_objects ha hz hrun o ho) w hw (xs := xs) hname hc hp h1 h2
  have hsrc : (Request.elfVirtOffsets path []).source = .elf path false := by
    have : upToNul path = path := upToNul_self hnul
    simp only [Request.source, this]
    rfl
  have hne : outs ≠ [] := by
    rintro rfl
    exact hx (List.length_eq_zero_iff.mp hall.length_eq)
  obtain ⟨⟨_, _, t3⟩, _, _⟩ := C89_answers_partial ha hz hrun w hl ho (req := .elfVirtOffsets path []) trivial hxs
    (r := .ok outs) (state := (o.state.symbolize (settingsOf p o.opts) w (.elf path false) (.virtOffset xs)).2)
    (by rw [hsrc, ← hres]; rfl)
    (by
      intro results he sym hs
      cases he
      obtain ⟨x, hxm, hxr⟩ := forall₂_mem hall hs
      exact fits_inElf (hxs x hxm) hxr rfl) h
  rcases t3 outs rfl hne with ⟨gs, k1, k2⟩ | ⟨k1, _⟩
  · refine Or.inr ⟨gs, k1, ?_⟩
    rw [List.forall₂_iff_get] at hall k2 ⊢
    refine ⟨hall.1.trans k2.1, fun i hi hi' => ⟨_, hall.2 i hi (by omega), k2.2 i (by omega) hi'⟩⟩
  · exact Or.inl k1

/-- **C89** (processes without debug information; partial: see `Absent`, and the histories of C68) In any program whose
symbolizer reloads files, a goroutine that stays on its thread and asks about addresses of a process is told the
symbols of the files the addresses are mapped from now, or that they are not mapped, or that memory ran out. -/
theorem C89_process_partial (ha : GoodAllocator alloc) (hz : 0 < p.boxSize) {k : SymbolizerOpts → Known M}
    (hlen : ∀ opts m data, (k opts).contents m = .ok (.ok data) → data.length < 2 ^ 63)
    (hrun : GoRuns p alloc (fun opts s w c => Orderly (settingsOf p opts) (k opts) s w c ∧ NotCaching c) prog os n)
    (w : World M) {sched : Schedule} (hl : sched.Locked) {o : Object M} (ho : o ∈ prog.objects)
    (har : o.opts.autoReload = true) (hw : w.disk.contents = (k o.opts).contents) {pid : Nat} (hpid : pid < 2 ^ 32)
    {xs : List Nat} (hxs : ∀ (x : Nat), x ∈ xs → x < 2 ^ 64) (hx : xs ≠ []) {options : List ProcessSourceOption}
    {src : ProcessSource} (hsrc : (Request.processAbsAddrs pid options).source = .process src) (hds : src.debugSyms = false)
    (hone : ∀ l, Uses w.maps (.process src) l → Fits (settingsOf p o.opts) (k o.opts) w (present w) l)
    {es : List Maps.Entry} (hm : w.maps src.pid = .ok (es.map .ok)) (hlist : Blazesym.Spec.Normalize.Listing es) (hne : es ≠ [])
    (hnd : ∀ e ∈ es, NoDispatch (settingsOf p o.opts : Settings M (KernelCache M)) e)
    (hall : ∀ a ∈ xs, (∀ e ∈ es, ¬ (e.start ≤ a ∧ a < e.stop)) ∨ ∃ off name phdrs symtab dynsym,
      Spec.Cli.MappedElf p.tools.codec w src a off name phdrs symtab dynsym ∧ Sound symtab ∧ Sound dynsym)
    {res : Result} {prog' : Program M}
    (h : symbolizeIn p alloc w prog sched o.addr (.processAbsAddrs pid options) xs = .ok (res, prog')) :
    res = .error (ascii "out of memory") ∨ ∃ (gs : List GoSym), res = .ok (some gs) ∧ List.Forall₂ (fun x g =>
      ∃ (out : Symbolized),
        Spec.Cli.InProcess p.tools.codec (shownName p.demangler o.opts.demangle .unknown) w src x out ∧ Shows out g) xs gs := by
  obtain ⟨outs, hres, hall⟩ := process_results hlen (C89_objects ha hz hrun o ho) w har hw hds (xs := xs) hone hm
    hlist hne hnd hall
  have hno : outs ≠ [] := by
    rintro rfl
    exact hx (List.length_eq_zero_iff.mp hall.length_eq)
  obtain ⟨⟨_, _, t3⟩, _, _⟩ := C89_answers_partial ha hz hrun w hl ho (req := .processAbsAddrs pid options) hpid hxs
    (r := .ok outs) (state := (o.state.symbolize (settingsOf p o.opts) w (.process src) (.absAddr xs)).2)
    (by rw [hsrc, ← hres]; rfl)
    (by
      intro results he sym hs
      cases he
      obtain ⟨x, _, hxr⟩ := forall₂_mem hall hs
      exact hxr.2 sym rfl) h
  rcases t3 outs rfl hno with ⟨gs, k1, k2⟩ | ⟨k1, _⟩
  · refine Or.inr ⟨gs, k1, ?_⟩
    rw [List.forall₂_iff_get] at hall k2 ⊢
    refine ⟨hall.1.trans k2.1, fun i hi hi' => ⟨_, (hall.2 i hi (by omega)).1, k2.2 i (by omega) hi'⟩⟩
  · exact Or.inl k1

/-! ## Examples -/

/-- A program before it has done anything. -/
def demoGo : Program Nat := ⟨demoStore, LastErr.init, []⟩

/-- Two symbolizers are created, the second one after the first one was closed; then the first one is closed again:
the addresses of both, and the symbolizers and the memory there are in the end. -/
def demoClosings : Option (Except Bytes Nat × Except Bytes Nat × List Nat × List Nat × List Block) :=
  (newIn demoPlatform bump exRich demoGo demoMoved [.withDebugDirs [ascii "/d"]]).toOption.bind fun r1 =>
    (closeIn demoPlatform bump exRich r1.2 1 184).toOption.bind fun p2 =>
      (newIn demoPlatform bump exRich p2 demoMoved [.withDebugDirs [ascii "/d"]]).toOption.bind fun r3 =>
        (closeIn demoPlatform bump exRich r3.2 1 184).toOption.map fun p4 =>
          (r1.1, r3.1, r3.2.objects.map (·.addr), p4.objects.map (·.addr), p4.store.blocks)

set_option synthInstance.maxSize 1000 in
set_option synthInstance.maxHeartbeats 200000 in
theorem demoClosings_eq : demoClosings = some (.ok 184, .ok 184, [184], [], [⟨100, 1, 1⟩]) := by decide +kernel

/-- The full property would be that closing a symbolizer again does nothing.  It closes another symbolizer, if that
one has the same address meanwhile. -/
theorem C89_other_closed_wrong : ∃ (p : Platform) (alloc : Allocator) (w : World Nat) (sched : Schedule)
    (options : List SymbolizerOption) (a : Nat) (p0 p1 p2 p3 p4 : Program Nat), GoodAllocator alloc ∧ p0.store.Valid
      ∧ newIn p alloc w p0 sched options = .ok (.ok a, p1) ∧ closeIn p alloc w p1 1 a = .ok p2
      ∧ newIn p alloc w p2 sched options = .ok (.ok a, p3) ∧ p3.objects ≠ []
      ∧ closeIn p alloc w p3 1 a = .ok p4 ∧ p4.objects = [] := by
  have h := demoClosings_eq
  rw [demoClosings] at h
  cases h1 : newIn demoPlatform bump exRich demoGo demoMoved [.withDebugDirs [ascii "/d"]] with
  | error f => rw [h1] at h; cases h
  | ok r1 =>
    rw [h1] at h
    simp only [Except.toOption, Option.bind_some] at h
    cases h2 : closeIn demoPlatform bump exRich r1.2 1 184 with
    | error f => rw [h2] at h; cases h
    | ok p2 =>
      rw [h2] at h
      simp only [Option.bind_some] at h
      cases h3 : newIn demoPlatform bump exRich p2 demoMoved [.withDebugDirs [ascii "/d"]] with
      | error f => rw [h3] at h; cases h
      | ok r3 =>
        rw [h3] at h
        simp only [Option.bind_some] at h
        cases h4 : closeIn demoPlatform bump exRich r3.2 1 184 with
        | error f => rw [h4] at h; cases h
        | ok p4 =>
          rw [h4] at h
          simp only [Option.map_some, Option.some.injEq, Prod.mk.injEq] at h
          obtain ⟨k1, k2, k3, k4, _⟩ := h
          refine ⟨demoPlatform, bump, exRich, demoMoved, [.withDebugDirs [ascii "/d"]], 184, demoGo, r1.2, p2, r3.2, p4,
            bump_good, demoStore_valid, ?_, h2, ?_, ?_, h4, List.map_eq_nil_iff.1 k4⟩
          · rw [h1, ← k1]
          · rw [h3, ← k2]
          · intro hn
            rw [hn] at k3
            cases k3

/-- The program when it has created a symbolizer. -/
def demoGoCreated : Program Nat :=
  match newIn demoPlatform bump exRich demoGo demoLocked [] with
  | .ok (_, prog) => prog
  | .error _ => demoGo

set_option maxRecDepth 20000 in
theorem demoGoCreated_step : newIn demoPlatform bump exRich demoGo demoLocked [] = .ok (.ok 152, demoGoCreated) := by
  have h : ((newIn demoPlatform bump exRich demoGo demoLocked []).toOption.map fun r => r.1) = some (.ok 152) := by
    decide +kernel
  rw [demoGoCreated]
  cases hn : newIn demoPlatform bump exRich demoGo demoLocked [] with
  | error f => rw [hn] at h; cases h
  | ok r =>
    rw [hn] at h
    simp only [Except.toOption, Option.map_some, Option.some.injEq] at h
    rw [← h]

theorem demoGoCreated_objects :
    demoGoCreated.objects = [⟨152, settings [], State.new (settingsOf demoPlatform (settings []))⟩] := by
  rcases newIn_spec (p := demoPlatform) (prog := demoGo) bump_good (by decide) demoStore_valid exRich demoLocked [] with
    h | ⟨a, s', leak, h, _⟩
  · rw [demoGoCreated_step] at h; cases h
  · rw [demoGoCreated_step] at h
    simp only [Except.ok.injEq, Prod.mk.injEq] at h
    obtain ⟨rfl, h⟩ := h
    rw [h]
    rfl

theorem demoGoCreated_runs (ok : SymbolizerOpts → State Nat (KernelCache Nat) → World Nat → Spec.Symbolize.Call → Prop) :
    GoRuns demoPlatform bump ok demoGoCreated [⟨100, 1, 1⟩] 0 :=
  .new demoGo _ _ 0 exRich demoLocked [] _ (.start demoStore demoStore_valid) demoGoCreated_step

/-- What the program is told about two addresses of a file. -/
def demoGoTold : Option Result :=
  (symbolizeIn demoPlatform bump exRich demoGoCreated demoLocked 152 (.elfVirtOffsets (ascii "/bin/c") []) [0x1008, 0x9999])
    |>.toOption.map (·.1)

/-- The hypotheses of the theorems are met, by a program that is told about two addresses. -/
example : (∃ (out₁ out₂ : Symbolized) (g₁ g₂ : GoSym), demoGoTold = some (.ok (some [g₁, g₂]))
      ∧ InElf (shownName demoPlatform.demangler true .unknown) (ascii "/bin/c") tinySymtab ⟨[], []⟩ 0x1008 out₁ ∧ Shows out₁ g₁
      ∧ InElf (shownName demoPlatform.demangler true .unknown) (ascii "/bin/c") tinySymtab ⟨[], []⟩ 0x9999 out₂ ∧ Shows out₂ g₂)
    ∧ demoGoTold = some (.ok (some [⟨ascii "f", ascii "/bin/c", 0x1000, 8, 16, none, [], 0⟩, ⟨[], [], 0, 0, 0, none, [], 5⟩])) := by
  have htold : demoGoTold
      = some (.ok (some [⟨ascii "f", ascii "/bin/c", 0x1000, 8, 16, none, [], 0⟩, ⟨[], [], 0, 0, 0, none, [], 5⟩])) := by
    decide +kernel
  refine ⟨?_, htold⟩
  cases hc : symbolizeIn demoPlatform bump exRich demoGoCreated demoLocked 152 (.elfVirtOffsets (ascii "/bin/c") [])
      [0x1008, 0x9999] with
  | error f =>
    rw [demoGoTold, hc] at htold
    cases htold
  | ok r =>
    have h := C89_elf_partial bump_good (by decide) (k := fun _ => demoKnown)
      (by
        intro _ m data h
        match m, h with
        | 0, h => have := Except.ok.inj (Except.ok.inj h); subst this; decide +kernel
        | 1, h => have := Except.ok.inj (Except.ok.inj h); subst this; decide +kernel
        | 2, h => have := Except.ok.inj (Except.ok.inj h); subst this; decide +kernel
        | _ + 3, h => cases h)
      (demoGoCreated_runs _) exRich (sched := demoLocked) ⟨rfl, by decide⟩
      (o := ⟨152, settings [], State.new (settingsOf demoPlatform (settings []))⟩)
      (by rw [demoGoCreated_objects]; exact List.mem_singleton_self _) rfl (path := ascii "/bin/c") (by decide)
      (xs := [0x1008, 0x9999]) (by decide) (by decide) (fun _ _ => rfl)
      (data := Elf.tinyElf) ⟨0, by decide, rfl⟩ (tinyParts 4096 (by decide)) tinySound.1 tinySound.2 hc
    rw [demoGoTold, hc] at htold ⊢
    simp only [Except.toOption, Option.map_some, Option.some.injEq] at htold ⊢
    rcases h with h | ⟨gs, h1, h2⟩
    · rw [h] at htold; cases htold
    · rw [h1] at htold
      simp only [Except.ok.injEq, Option.some.injEq] at htold
      subst htold
      obtain ⟨out₁, a1, a2⟩ := (List.forall₂_cons.1 h2).1
      obtain ⟨out₂, b1, b2⟩ := (List.forall₂_cons.1 (List.forall₂_cons.1 h2).2).1
      exact ⟨out₁, out₂, _, _, h1, a1, a2, b1, b2⟩

/-- The hypotheses of `C89_process_partial` are met. -/
example (res : Result) (prog' : Program Nat) (hc : symbolizeIn demoPlatform bump exRich demoGoCreated demoLocked 152
        (.processAbsAddrs 7 [.withoutMapFiles true]) [0x900000, 0x400008] = .ok (res, prog')) :
      res = .error (ascii "out of memory") ∨ ∃ (gs : List GoSym), res = .ok (some gs) ∧ List.Forall₂ (fun x g =>
        ∃ (out : Symbolized), Spec.Cli.InProcess demoPlatform.tools.codec (shownName demoPlatform.demangler true .unknown)
          exRich ⟨7, false, false, false, true⟩ x out ∧ Shows out g) [0x900000, 0x400008] gs := by
  exact C89_process_partial bump_good (by decide) (k := demoKnownAll) demoKnownAll_len (demoGoCreated_runs _) exRich
    (sched := demoLocked) ⟨rfl, by decide⟩ (o := ⟨152, settings [], State.new (settingsOf demoPlatform (settings []))⟩)
    (by rw [demoGoCreated_objects]; exact List.mem_singleton_self _) rfl rfl (by decide) (by decide) (by decide)
    (src := ⟨7, false, false, false, true⟩) rfl rfl (demoKnownAll_fits _) exRich_maps exEntries_listing (by decide)
    (by intro e _ d hd; cases hd) demo_mapped hc

end Blazesym.Go
