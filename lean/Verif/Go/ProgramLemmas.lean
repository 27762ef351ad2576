import Verif.Go.ProgramSpec
import Verif.Go.OptionsLemmas
import Verif.CApi.ProgramLemmas

/-! Lemmas about Go programs with symbolizers. -/

set_option autoImplicit false

namespace Blazesym.Go

open Blazesym.CApi Blazesym.Error Blazesym.Symbolize

variable {M : Type} [DecidableEq M] {p : Platform} {alloc : Allocator}
  {ok : SymbolizerOpts → State M (KernelCache M) → World M → Spec.Symbolize.Call → Prop} {prog : Program M}
  {os : List Block}

/-- A symbolizer is created, or there is no memory. -/
theorem create_spec (ha : GoodAllocator alloc) (hz : 0 < p.boxSize) (hv : prog.store.Valid) (thread : Nat)
    (o : SymbolizerOpts) :
    prog.create p alloc thread o = .error .outOfMemory
      ∨ ∃ (a : Nat) (s' : Store), prog.create p alloc thread o
          = .ok (a, ⟨s', prog.errs.set thread 0, ⟨a, o, State.new (settingsOf p o)⟩ :: prog.objects⟩)
        ∧ 0 < a ∧ Ext prog.store s' [⟨a, p.boxSize, 8⟩] := by
  have hne : List.replicate p.boxSize (none : Option UInt8) ≠ [] := by
    intro e
    have := congrArg List.length e
    rw [List.length_replicate, List.length_nil] at this
    omega
  unfold Program.create Store.box
  rw [if_neg (by simpa using hne)]
  cases hal : alloc prog.store (List.replicate p.boxSize (none : Option UInt8)).length 8 with
  | none => exact Or.inl rfl
  | some a =>
    have hext := alloc_ext ha hv hne hal
    rw [List.length_replicate] at hext
    refine Or.inr ⟨a, _, rfl, (ha _ _ _ _ hal).2.1, ?_⟩
    rw [List.length_replicate]
    exact hext

theorem newIn_spec (ha : GoodAllocator alloc) (hz : 0 < p.boxSize) (hs : prog.store.Valid) (w : World M)
    (sched : Schedule) (options : List SymbolizerOption) :
    newIn p alloc w prog sched options = .error (.c .outOfMemory)
      ∨ ∃ (a : Nat) (s' : Store) (leak : List Block), newIn p alloc w prog sched options
          = .ok (.ok a, ⟨s', afterOthers (prog.errs.set sched.callThread 0) sched.others,
              ⟨a, settings options, State.new (settingsOf p (settings options))⟩ :: prog.objects⟩)
        ∧ Ext prog.store s' (⟨a, p.boxSize, 8⟩ :: leak) ∧ EmptyArrays leak (emptyDirs options).length := by
  unfold newIn
  obtain ⟨s, hss⟩ : ∃ (s : Store), s = prog.store := ⟨_, rfl⟩
  rw [← hss] at hs ⊢
  rcases applyOptions_spec ha (options := options) (s₀ := s) (s := s) (x := newSymbolizerOptions) (cur := none) (own := [])
    (leak := []) (n := 0) ⟨Ext.refl hs, rfl, rfl, rfl⟩ ⟨rfl, by simp⟩ with
    h | ⟨x, s1, own, leak, h1, ho, hl, k1, k2, k3, k4⟩
  · exact Or.inl (by rw [h]; rfl)
  rw [h1]
  simp only [bind, Except.bind]
  rcases goNew_spec ha ho.ext.valid (bs := x.bytes) (by simp [OptsStruct.bytes, cBool]) with h | ⟨q, s2, h2, e2, hq, _, _, hh⟩
  · exact Or.inl (by rw [h])
  rw [h2]
  simp only
  have hd := ho.dirs.kept (e2.same.mono fun b hb => ho.ext.new_mem b (List.mem_append_left _ hb))
  have hin := optsStruct_of hh hq hd
  have hset : settings options = ⟨(chosen (fun o => (optDebugDirs o).map some) none options).map fun dirs =>
      dirs.map upToNul, x.autoReload, x.codeInfo, x.inlinedFns, x.demangle, none⟩ := by
    rw [k1, k2, k3, k4, chosen_some]; rfl
  rw [← hset] at hin
  have hstep : Program.step p alloc w sched.callThread { prog with store := s2 } (.newOpts q)
      = Program.create p alloc { prog with store := s2 } sched.callThread (settings options) := by
    simp only [Program.step]
    rw [hin]
    rfl
  rw [hstep]
  rcases create_spec (prog := { prog with store := s2 }) ha hz e2.valid sched.callThread (settings options) with
    h | ⟨a, s3, h3, ha0, e3⟩
  · exact Or.inl (by rw [h]; rfl)
  rw [lift_ok h3]
  simp only
  have e := (ho.ext.trans e2).trans e3
  have hd3 := hd.kept (e3.same.mono fun b hb => (ho.ext.trans e2).new_mem b
    (List.mem_append_left _ (List.mem_append_left _ hb)))
  obtain ⟨s4, h4, f4⟩ := dirs_free e3.valid hd3
    (others := leak ++ ([⟨q, x.bytes.length, 8⟩] ++ ([⟨a, p.boxSize, 8⟩] ++ s.blocks))) (by
    refine e.blocks.trans ?_
    simp only [List.append_assoc]
    exact List.Perm.refl _)
  have hsz : owned q x.bytes.length 8 = [⟨q, x.bytes.length, 8⟩] := by
    rw [owned, if_neg (by simp [OptsStruct.bytes, cBool])]
  have e4 : Ext s s4 ([⟨q, x.bytes.length, 8⟩] ++ (⟨a, p.boxSize, 8⟩ :: leak)) := ext_freed e f4 (by
    rw [List.perm_iff_count]
    intro b
    simp only [List.count_append, List.count_cons, List.count_nil]
    omega)
  obtain ⟨s5, h5, f5⟩ := goDrop_spec (s := s4) (p := q) (size := x.bytes.length) fun b hb => e4.new_mem b (by
    rw [hsz] at hb; exact List.mem_append_left _ hb)
  rw [hsz] at f5
  refine Or.inr ⟨a, s5, leak, ?_, ext_freed e4 f5 (List.Perm.refl _), by rw [Nat.zero_add] at hl; exact hl⟩
  rw [h4]
  simp only
  rw [h5]
  simp only [if_neg (by omega : ¬ a = 0)]
  rfl

/-- What happens to a program that a goroutine asks for symbols. -/
def Program.asked (prog : Program M) (sym : Nat) (state : State M (KernelCache M)) (sched : Schedule) (own : Int)
    (store : Store) : Program M :=
  { prog.update sym state with store, errs := afterOthers (prog.errs.set sched.callThread own) sched.others }

theorem symbolizeIn_spec (ha : GoodAllocator alloc) (hs : prog.store.Valid) (w : World M) (sched : Schedule)
    {o : Object M} (ho : prog.object o.addr = .ok o) {req : Request} (hreq : req.Fits) {addrs : List Nat}
    (haddrs : ∀ (x : Nat), x ∈ addrs → x < 2 ^ 64) {r : Except Err (List Symbolized)} {state : State M (KernelCache M)}
    (hr : o.state.symbolize (settingsOf p o.opts) w req.source (req.input addrs) = (r, state)) (hfit : FitNumbers r) :
    (∃ (f : Crash), symbolizeIn p alloc w prog sched o.addr req addrs = .error f
      ∧ (f = .c .outOfMemory ∨ (f = .index ∧ req = .gsymDataVirtOffsets [])
        ∨ (f = .c .abort ∧ r = .error .panic)
        ∨ ∃ (results : List Symbolized), r = .ok results
            ∧ ((f = .c .badLayout ∧ 2 ^ 63 - 8 < bufSize results) ∨ (f = .slice ∧ ¬FewInlined results))))
    ∨ ∃ (res : Result) (s' : Store) (own : Int) (leak : List Block) (r' : Except ErrorKind (List Symbolized)),
        symbolizeIn p alloc w prog sched o.addr req addrs = .ok (res, Program.asked prog o.addr state sched own s')
        ∧ Ext prog.store s' leak ∧ outcome r = .ok r'
        ∧ Told (coreWith r') alloc req addrs own
            (afterOthers (prog.errs.set sched.callThread own) sched.others sched.errThread) res leak := by
  by_cases hd : req = .gsymDataVirtOffsets []
  · subst hd
    exact Or.inl ⟨.index, rfl, Or.inr (Or.inl ⟨rfl, rfl⟩)⟩
  unfold symbolizeIn
  rcases prepare_spec ha hs req hreq hd with h | ⟨prep, s1, bs, h1, hm, e1, hne, hsrc⟩
  · exact Or.inl ⟨_, by rw [h]; rfl, Or.inl rfl⟩
  rw [h1]
  simp only [bind, Except.bind]
  rcases addrsToPtr_spec ha e1.valid addrs haddrs with h | ⟨a, s2, h2, e2, hx⟩
  · exact Or.inl ⟨_, by rw [h], Or.inl rfl⟩
  rw [h2]
  simp only
  rcases goNew_spec ha e2.valid hne with h | ⟨q, s3, h3, e3, hp, _, _, hh⟩
  · exact Or.inl ⟨_, by rw [h], Or.inl rfl⟩
  rw [h3]
  simp only
  have hargs : SymbolizeArgs s3.mem q a addrs.length req.fn req.source (req.input addrs) :=
    hsrc _ _ _ _ _ ((e1.kept e2).trans (e3.same.mono fun b hb => e2.old_mem b (e1.new_mem b hb))) hh hp
      (hx _ (e2.kept e3))
  obtain ⟨prog3, hprog3⟩ : ∃ (prog3 : Program M), prog3 = { prog with store := s3 } := ⟨_, rfl⟩
  have hst3 : prog3.store = s3 := by rw [hprog3]
  have ho3 : prog3.object o.addr = .ok o := by rw [hprog3]; exact ho
  have hargs3 := hargs
  rw [← hst3] at hargs3
  have heq := symbolize_eq (p := p) (alloc := alloc) (w := w) (thread := sched.callThread) ho3 hargs3
  rw [hr] at heq
  simp only [bind, Except.bind] at heq
  rw [hst3] at heq
  rw [← hprog3]
  simp only [Program.step]
  -- a panic
  by_cases hpanic : r = .error .panic
  · rw [hpanic, outcome_panic] at heq
    rw [heq]
    exact Or.inl ⟨.c .abort, rfl, Or.inr (Or.inr (Or.inl ⟨rfl, hpanic⟩))⟩
  -- results that are too large
  by_cases hbig : ∃ (results : List Symbolized), r = .ok results ∧ 2 ^ 63 - 8 < bufSize results
  · obtain ⟨results, hres, hl⟩ := hbig
    have hne' : results ≠ [] := by
      rintro rfl
      exact absurd hl (by decide)
    have hv3 : prog3.store.Valid := by rw [hst3]; exact e3.valid
    obtain ⟨_, _, _, s4⟩ := symbolize_cases (p := p) (w := w) (thread := sched.callThread) ha hv3 ho3 hargs3 hr
    rw [(s4 results hne' hres).1 hl]
    exact Or.inl ⟨.c .badLayout, rfl, Or.inr (Or.inr (Or.inr ⟨results, hres, Or.inl ⟨rfl, hl⟩⟩))⟩
  obtain ⟨r', hr'⟩ : ∃ (r' : Except ErrorKind (List Symbolized)), outcome r = .ok r' := by
    match r, hpanic with
    | .ok x, _ => exact ⟨_, outcome_ok x⟩
    | .error e, h => exact ⟨_, outcome_error fun he => h (by rw [he])⟩
  have hback : ∀ (results : List Symbolized), r' = .ok results → r = .ok results := by
    intro results h
    match r, hr', hpanic with
    | .ok x, h2, _ =>
      rw [outcome_ok] at h2
      cases h2
      cases h
      rfl
    | .error e, h2, h3 =>
      rw [outcome_error fun he => h3 (by rw [he])] at h2
      cases h2
      cases h
  have hcore : FitResults (coreWith r') := by
    intro src input results h
    have h := hback results h
    refine ⟨hfit results h, ?_⟩
    by_contra hl
    exact hbig ⟨results, h, by omega⟩
  obtain ⟨ret, own, syms, s4, cs, h4, h5, e4, hproc⟩ := call_spec hcore ha e3.valid hargs
  rw [hr'] at heq
  simp only [h4] at heq
  have h5' : s3.take ret = (syms, s4) := by rw [← h5]; cases ret <;> rfl
  rw [h5'] at heq
  simp only at heq
  rw [lift_ok heq]
  simp only [Program.next, Program.report, Program.update, hprog3]
  rcases hproc (afterOthers (prog.errs.set sched.callThread own) sched.others sched.errThread) with
    ⟨q1, results, q2, q3⟩ | ⟨res, s5, fr, leak, q1, f5, hperm, told⟩
  · exact Or.inl ⟨.slice, by rw [q1], Or.inr (Or.inr (Or.inr ⟨results, hback results q2, Or.inr ⟨rfl, q3⟩⟩))⟩
  rw [q1]
  simp only
  have e := (e1.trans e2).trans (e3.trans e4)
  have v5 := f5.valid e4.valid
  have hsz : prep.source.length ≠ 0 := fun h => hne (List.length_eq_zero_iff.1 h)
  have hown : owned q prep.source.length 8 = [⟨q, prep.source.length, 8⟩] := by rw [owned, if_neg hsz]
  have e5 : Ext prog.store s5 (bs ++ (owned q prep.source.length 8 ++ (owned a (8 * addrs.length) 8
      ++ (owned prep.object prep.objectSize 8 ++ leak)))) := by
    refine ext_freed e f5 ?_
    rw [List.perm_iff_count] at hperm ⊢
    intro b
    have := hperm b
    rw [hown]
    simp only [List.count_append] at this ⊢
    omega
  obtain ⟨s6, h6, f6⟩ := cFree_malloced v5 hm fun b hb => e5.new_mem b (List.mem_append_left _ hb)
  have e6 := ext_freed e5 f6 (List.Perm.refl _)
  obtain ⟨s7, h7, f7⟩ := goDrop_spec fun b hb => e6.new_mem b (List.mem_append_left _ hb)
  have e7 := ext_freed e6 f7 (List.Perm.refl _)
  obtain ⟨s8, h8, f8⟩ := goDrop_spec fun b hb => e7.new_mem b (List.mem_append_left _ hb)
  have e8 := ext_freed e7 f8 (List.Perm.refl _)
  obtain ⟨s9, h9, f9⟩ := goDrop_spec fun b hb => e8.new_mem b (List.mem_append_left _ hb)
  have e9 := ext_freed e8 f9 (List.Perm.refl _)
  refine Or.inr ⟨res, s9, own, leak, r', ?_, e9, hr', told⟩
  rw [h6]
  simp only
  rw [h7]
  simp only
  rw [h8]
  simp only
  rw [h9]
  rfl

/-! ## All programs -/

/-- More of the memory counts as the program's own. -/
theorem inv_more {prog' : Program M} {bs leak : List Block} (h : Inv p ok prog [] os)
    (he : Ext prog.store prog'.store (bs ++ leak))
    (hb : (libraryBlocks p prog' []).Perm (bs ++ libraryBlocks p prog []))
    (ho : ∀ (o : Object M), o ∈ prog'.objects → Blazesym.Spec.Symbolize.Reachable (settingsOf p o.opts) (ok o.opts) o.state) :
    Inv p ok prog' [] (leak ++ os) := by
  refine ⟨he.valid, ?_, fun _ hx => (List.not_mem_nil hx).elim, ho⟩
  refine (he.blocks.trans (h.blocks.append_left _)).trans ?_
  refine List.Perm.trans ?_ (hb.symm.append_right _)
  rw [List.perm_iff_count]
  intro b
  simp only [List.count_append]
  omega

theorem inv_new {a : Nat} {s' : Store} {errs : LastErr} {opts : SymbolizerOpts} {leak : List Block}
    (h : Inv p ok prog [] os) (he : Ext prog.store s' (⟨a, p.boxSize, 8⟩ :: leak)) :
    Inv p ok ⟨s', errs, ⟨a, opts, State.new (settingsOf p opts)⟩ :: prog.objects⟩ [] (leak ++ os) := by
  refine inv_more (bs := [⟨a, p.boxSize, 8⟩]) h he ?_ ?_
  · simp only [libraryBlocks, List.map_cons, Object.block]
    exact List.Perm.refl _
  · intro x hx
    rcases List.mem_cons.1 hx with rfl | hx
    · exact .new
    · exact h.objects x hx

theorem inv_asked (hz : 0 < p.boxSize) (h : Inv p ok prog [] os) {o : Object M} (ho : o ∈ prog.objects) {w : World M}
    {source : Source} {input : Input (List Nat)} (hok : ok o.opts o.state w (.symbolize source input)) (sched : Schedule)
    (own : Int) {s' : Store} {leak : List Block} (he : Ext prog.store s' leak) :
    Inv p ok (Program.asked prog o.addr (o.state.symbolize (settingsOf p o.opts) w source input).2 sched own s') []
      (leak ++ os) := by
  have h1 := h.update hz ho hok 0 0 (Ext.refl h.valid) (hs' := []) (List.Perm.refl _) (fun x hx => Or.inl hx)
  have h2 := inv_more (prog' := Program.asked prog o.addr (Spec.Symbolize.after (settingsOf p o.opts) w o.state
    (.symbolize source input)) sched own s') (bs := []) (leak := leak) h1 he (List.Perm.refl _) h1.objects
  exact h2

theorem told_leak {core : Core} {req : Request} {addrs : List Nat} {own seen : Int} {res : Result} {leak : List Block}
    (h : Told core alloc req addrs own seen res leak) : leak.length ≤ 1 := by
  rcases h with ⟨_, _, ⟨_, _, _, q⟩ | ⟨_, _, q⟩ | ⟨r, _, _, ⟨_, q, _⟩ | ⟨_, p, q⟩⟩⟩ | ⟨_, q, _⟩
  all_goals rw [q]; simp

end Blazesym.Go
