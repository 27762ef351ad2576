import Verif.Go.OptionsLemmas
import Verif.CApi.OutputProps

/-! # What the Go bindings guarantee -/

set_option autoImplicit false

namespace Blazesym.Go

open Blazesym.CApi Blazesym.Error Blazesym.Symbolize

theorem errText_of (e : ErrorKind) : errText (errCode e) = errorText e := by cases e <;> decide +kernel

theorem errCode_ne (e : ErrorKind) : errCode e ≠ 0 := by cases e <;> decide

theorem errText_oom : errText (-12) = errorText .outOfMemory := errText_of .outOfMemory

theorem afterOthers_other {l : LastErr} {others : List (Nat × Int)} {t : Nat}
    (h : ∀ (x : Nat × Int), x ∈ others → x.1 ≠ t) : afterOthers l others t = l t := by
  induction others generalizing l with
  | nil => rfl
  | cons x xs ih =>
    rw [afterOthers, List.foldl_cons]
    exact (ih fun y hy => h y (List.mem_cons_of_mem _ hy)).trans (if_neg (h x (List.mem_cons_self ..)).symm)

theorem errorAfter_others (l : LastErr) (others : List (Nat × Int)) (t : Nat) :
    ErrorAfter l others t (afterOthers l others t) := by
  induction others generalizing l with
  | nil => exact .kept (fun x h => by cases h)
  | cons x xs ih =>
    rw [afterOthers, List.foldl_cons]
    have := ih (l.set x.1 x.2)
    rw [afterOthers] at this
    generalize List.foldl (fun (l : LastErr) (x : Nat × Int) => l.set x.1 x.2) (l.set x.1 x.2) xs t = v at this
    cases this with
    | set pre post err h1 h2 => exact .set (x :: pre) post v (by rw [h1]; rfl) h2
    | kept h =>
      by_cases hx : x.1 = t
      · have : (l.set x.1 x.2) t = x.2 := if_pos hx.symm
        rw [this]
        exact .set [] xs x.2 (by rw [← hx]; rfl) h
      · have : (l.set x.1 x.2) t = l t := if_neg fun h => hx h.symm
        rw [this]
        refine .kept fun y hy => ?_
        rcases List.mem_cons.mp hy with rfl | hy
        · exact hx
        · exact h y hy

theorem locked_seen {sched : Schedule} (h : sched.Locked) (l : LastErr) (own : Int) :
    afterOthers (l.set sched.callThread own) sched.others sched.errThread = own := by
  rw [h.1, afterOthers_other h.2]
  exact if_pos rfl

theorem told_locked {core : Core} {alloc : Allocator} {req : Request} {addrs : List Nat} {own : Int} {res : Result}
    {leak : List Block} (h : Told core alloc req addrs own own res leak) :
    ((∀ (e : ErrorKind), core.symbolize req.source (req.input addrs) = .error e → res = .error (errorText e))
    ∧ (core.symbolize req.source (req.input addrs) = .ok [] → res = .ok none)
    ∧ ∀ (results : List Symbolized), core.symbolize req.source (req.input addrs) = .ok results → results ≠ [] →
        (∃ (gs : List GoSym), res = .ok (some gs) ∧ List.Forall₂ Shows results gs)
        ∨ (res = .error (errorText .outOfMemory) ∧ ∃ (t : Store), alloc t (bufSize results) 8 = none))
    ∧ leak = [] := by
  rcases h with ⟨k1, k2, ⟨e, q1, q2, q3⟩ | ⟨q1, q2, q3⟩ | ⟨r, q1, q2, ⟨q3, q4, q5⟩ | ⟨q3, q4⟩⟩⟩ |
    ⟨k1, k2, ⟨e, q1, q2, q3⟩ | ⟨q1, q2, q3⟩ | ⟨r, q1, q2, ⟨q3, q4, q5⟩ | ⟨q3, q4, q5⟩⟩⟩
  · rw [q1]
    refine ⟨⟨fun e' he => ?_, fun he => ?_, fun _ he => ?_⟩, q3⟩
    · cases he; rw [k2, q2, errText_of]
    · cases he
    · cases he
  · exact absurd q2 k1
  · rw [q1]
    refine ⟨⟨fun e' he => ?_, fun he => ?_, fun _ he _ => ?_⟩, q4⟩
    · cases he
    · cases he; exact absurd rfl q2
    · cases he; exact Or.inr ⟨by rw [k2, q3, errText_oom], q5⟩
  · exact absurd q3 k1
  · exact absurd (q2.symm.trans k1) (errCode_ne e)
  · rw [q1]
    refine ⟨⟨fun e' he => ?_, fun he => q3, fun _ he hne => ?_⟩, k2⟩
    · cases he
    · cases he; exact absurd rfl hne
  · rw [q3] at k1; exact absurd k1 (by decide)
  · rw [q1]
    refine ⟨⟨fun e' he => ?_, fun he => ?_, fun _ he _ => ?_⟩, k2⟩
    · cases he
    · cases he; exact absurd rfl q2
    · cases he; exact Or.inl q5

theorem told_any {core : Core} {alloc : Allocator} {req : Request} {addrs : List Nat} {own seen : Int} {res : Result}
    {leak : List Block} (h : Told core alloc req addrs own seen res leak) :
    (seen ≠ 0 → res = .error (errText seen))
      ∧ (∀ (e : ErrorKind), core.symbolize req.source (req.input addrs) = .error e →
          own = errCode e ∧ (seen = 0 → res = .ok none))
      ∧ (core.symbolize req.source (req.input addrs) = .ok [] → own = 0 ∧ (seen = 0 → res = .ok none))
      ∧ ∀ (results : List Symbolized), core.symbolize req.source (req.input addrs) = .ok results → results ≠ [] →
          (own = 0 ∧ (seen = 0 → ∃ (gs : List GoSym), res = .ok (some gs) ∧ List.Forall₂ Shows results gs))
          ∨ (own = -12 ∧ (seen = 0 → res = .ok none) ∧ ∃ (t : Store), alloc t (bufSize results) 8 = none) := by
  rcases h with ⟨k1, k2, ⟨e, q1, q2, q3⟩ | ⟨q1, q2, q3⟩ | ⟨r, q1, q2, ⟨q3, q4, q5⟩ | ⟨q3, q4⟩⟩⟩ |
    ⟨k1, k2, ⟨e, q1, q2, q3⟩ | ⟨q1, q2, q3⟩ | ⟨r, q1, q2, ⟨q3, q4, q5⟩ | ⟨q3, q4, q5⟩⟩⟩
  all_goals
    rw [q1]
    refine ⟨fun h => ?_, fun e' he => ?_, fun he => ?_, fun _ he hne => ?_⟩
  all_goals first
    | exact k2
    | exact absurd k1 h
    | cases he
  all_goals first
    | exact ⟨q2, fun h => absurd h k1⟩
    | exact ⟨q2, fun _ => q3⟩
    | exact absurd rfl hne
    | exact absurd rfl q2
    | exact Or.inr ⟨q3, fun h => absurd h k1, q5⟩
    | exact Or.inr ⟨q3, fun _ => q4, q5⟩
    | exact Or.inl ⟨q3, fun h => absurd h k1⟩
    | exact Or.inl ⟨q3, fun _ => q5⟩

section
variable {core : Core} (hcore : FitResults core) {alloc : Allocator} (ha : GoodAllocator alloc) {s : Store}
  (hs : s.Valid) (l : LastErr) {sched : Schedule} {req : Request} (hreq : req.Fits) {addrs : List Nat}
  (haddrs : ∀ (x : Nat), x ∈ addrs → x < 2 ^ 64)
include hcore ha hs hreq haddrs

/-- **C84**.  What the functions that symbolize return, if their goroutine stays on its thread: one result per
result of the library, in order and with the same contents; `nil` if there are none; and the text of the error if
there is one.

The full property would not need the goroutine to be locked to its thread (see `C85_lost_wrong`), and would have
strings with NULs arrive as they are (see `C84_nul_wrong`): here they are cut off. -/
theorem C84_symbolize_partial (hl : sched.Locked) {res : Result} {s' : Store} {l' : LastErr}
    (h : symbolize core alloc s l sched req addrs = .ok (res, s', l')) :
    (∀ (e : ErrorKind), core.symbolize req.source (req.input addrs) = .error e → res = .error (errorText e))
    ∧ (core.symbolize req.source (req.input addrs) = .ok [] → res = .ok none)
    ∧ ∀ (results : List Symbolized), core.symbolize req.source (req.input addrs) = .ok results → results ≠ [] →
        (∃ (gs : List GoSym), res = .ok (some gs) ∧ List.Forall₂ Shows results gs)
        ∨ (res = .error (errorText .outOfMemory) ∧ ∃ (t : Store), alloc t (bufSize results) 8 = none) := by
  rcases symbolize_spec hcore ha hs l sched hreq haddrs with ⟨f, h1, _⟩ | ⟨res', s'', l'', own, leak, h1, h2, _, told, _⟩
  · rw [h] at h1; cases h1
  rw [h] at h1
  simp only [Except.ok.injEq, Prod.mk.injEq] at h1
  obtain ⟨rfl, rfl, rfl⟩ := h1
  rw [h2, locked_seen hl] at told
  exact (told_locked told).1

/-- **C84**.  The only ways the functions that symbolize do not return: memory runs out, there are no bytes of
GSYM data, or a symbol has more than `1 << 30` inlined functions.  In particular nothing is accessed that is not
allocated, and nothing is freed twice. -/
theorem C84_panics {f : Crash} (h : symbolize core alloc s l sched req addrs = .error f) :
    f = .c .outOfMemory ∨ (f = .index ∧ req = .gsymDataVirtOffsets [])
      ∨ (f = .slice ∧ ∃ (results : List Symbolized), core.symbolize req.source (req.input addrs) = .ok results
          ∧ ¬FewInlined results) := by
  rcases symbolize_spec hcore ha hs l sched hreq haddrs with ⟨f', h1, h2⟩ | ⟨_, _, _, _, _, h1, _⟩
  · rw [h] at h1
    simp only [Except.error.injEq] at h1
    rw [h1]; exact h2
  · rw [h] at h1; cases h1

/-- The full property would be that results are returned however many there are.  Those with more than `1 << 30`
inlined functions are never returned. -/
theorem C84_inlined_panics (hl : sched.Locked) {results : List Symbolized}
    (hr : core.symbolize req.source (req.input addrs) = .ok results) (hf : ¬FewInlined results) :
    (∃ (f : Crash), symbolize core alloc s l sched req addrs = .error f)
      ∨ ∃ (s' : Store) (l' : LastErr),
          symbolize core alloc s l sched req addrs = .ok (.error (errorText .outOfMemory), s', l') := by
  rcases symbolize_spec hcore ha hs l sched hreq haddrs with ⟨f, h1, _⟩ | ⟨res, s', l', own, leak, h1, h2, _, told, _⟩
  · exact Or.inl ⟨f, h1⟩
  rw [h2, locked_seen hl] at told
  have hne : results ≠ [] := by
    rintro rfl
    exact hf fun _ h => absurd h (by simp)
  rcases told with ⟨k1, k2, ⟨e, q1, _⟩ | ⟨q1, _⟩ | ⟨r, q1, q2, ⟨q3, _⟩ | ⟨q3, _⟩⟩⟩ |
    ⟨k1, k2, ⟨e, q1, _⟩ | ⟨q1, _⟩ | ⟨r, q1, q2, ⟨q3, _⟩ | ⟨q3, q4, _⟩⟩⟩
  · rw [hr] at q1; cases q1
  · rw [hr] at q1; cases q1; exact absurd rfl hne
  · refine Or.inr ⟨s', l', ?_⟩
    rw [h1, k2, q3, errText_oom]
  · exact absurd q3 k1
  · rw [hr] at q1; cases q1
  · rw [hr] at q1; cases q1; exact absurd rfl hne
  · rw [q3] at k1; exact absurd k1 (by decide)
  · rw [hr] at q1
    cases q1
    exact absurd q4 hf

omit haddrs in
/-- **C85**.  What the functions that symbolize return if the last error is asked for on any thread, after any
calls of other goroutines: if there is an error there, which may be that of an unrelated call, its text; and
otherwise the results of the library, or `nil` even if it failed. -/
theorem C85_any (haddrs : ∀ (x : Nat), x ∈ addrs → x < 2 ^ 64) {res : Result} {s' : Store} {l' : LastErr}
    (h : symbolize core alloc s l sched req addrs = .ok (res, s', l')) :
    ∃ (own : Int), (∀ (t : Nat), ErrorAfter l ((sched.callThread, own) :: sched.others) t (l' t))
      ∧ (l' sched.errThread ≠ 0 → res = .error (errText (l' sched.errThread)))
      ∧ (∀ (e : ErrorKind), core.symbolize req.source (req.input addrs) = .error e →
          own = errCode e ∧ (l' sched.errThread = 0 → res = .ok none))
      ∧ (core.symbolize req.source (req.input addrs) = .ok [] → own = 0 ∧ (l' sched.errThread = 0 → res = .ok none))
      ∧ ∀ (results : List Symbolized), core.symbolize req.source (req.input addrs) = .ok results → results ≠ [] →
          (own = 0 ∧ (l' sched.errThread = 0 →
              ∃ (gs : List GoSym), res = .ok (some gs) ∧ List.Forall₂ Shows results gs))
          ∨ (own = -12 ∧ (l' sched.errThread = 0 → res = .ok none)
              ∧ ∃ (t : Store), alloc t (bufSize results) 8 = none) := by
  rcases symbolize_spec hcore ha hs l sched hreq haddrs with ⟨f, h1, _⟩ | ⟨res', s'', l'', own, leak, h1, h2, _, told, _⟩
  · rw [h] at h1; cases h1
  rw [h] at h1
  simp only [Except.ok.injEq, Prod.mk.injEq] at h1
  obtain ⟨rfl, rfl, rfl⟩ := h1
  refine ⟨own, fun t => ?_, told_any told⟩
  rw [h2]
  exact errorAfter_others l ((sched.callThread, own) :: sched.others) t

/-- **C86**.  If its goroutine stays on its thread, a function that symbolizes frees all memory it allocates, and
does not change other memory.  See `C86_leak_wrong` for what happens otherwise. -/
theorem C86_released_partial (hl : sched.Locked) {res : Result} {s' : Store} {l' : LastErr}
    (h : symbolize core alloc s l sched req addrs = .ok (res, s', l')) : Released s s' := by
  rcases symbolize_spec hcore ha hs l sched hreq haddrs with ⟨f, h1, _⟩ | ⟨res', s'', l'', own, leak, h1, h2, e, told, _⟩
  · rw [h] at h1; cases h1
  rw [h] at h1
  simp only [Except.ok.injEq, Prod.mk.injEq] at h1
  obtain ⟨rfl, rfl, rfl⟩ := h1
  rw [h2, locked_seen hl] at told
  have := (told_locked told).2
  subst this
  exact ⟨e.blocks, e.same, e.valid⟩

/-- **C86**.  In any case nothing is left allocated but the buffer with the results of the library, and that only
if an error is reported in spite of them. -/
theorem C86_any {res : Result} {s' : Store} {l' : LastErr}
    (h : symbolize core alloc s l sched req addrs = .ok (res, s', l')) :
    Released s s'
      ∨ ∃ (results : List Symbolized) (text : Bytes) (p : Nat), core.symbolize req.source (req.input addrs) = .ok results
          ∧ results ≠ [] ∧ res = .error text ∧ Leaked s s' [⟨p, bufSize results, 8⟩] := by
  rcases symbolize_spec hcore ha hs l sched hreq haddrs with ⟨f, h1, _⟩ | ⟨res', s'', l'', own, leak, h1, h2, e, told, _⟩
  · rw [h] at h1; cases h1
  rw [h] at h1
  simp only [Except.ok.injEq, Prod.mk.injEq] at h1
  obtain ⟨rfl, rfl, rfl⟩ := h1
  have nil (hn : leak = []) : Released s s' := by
    subst hn
    exact ⟨e.blocks, e.same, e.valid⟩
  rcases told with ⟨k1, k2, ⟨_, _, _, q⟩ | ⟨_, _, q⟩ | ⟨r, q1, q2, ⟨_, q, _⟩ | ⟨_, p, q⟩⟩⟩ | ⟨k1, q, _⟩
  · exact Or.inl (nil q)
  · exact Or.inl (nil q)
  · exact Or.inl (nil q)
  · subst q
    exact Or.inr ⟨r, _, p, q1, q2, k2, e.blocks, e.same, e.valid⟩
  · exact Or.inl (nil q)

end

/-- The full property would be that GSYM data may be empty (which is then reported as an error by the library).
Looking at its first byte panics. -/
theorem C84_empty_data_panics (core : Core) (alloc : Allocator) (s : Store) (l : LastErr) (sched : Schedule)
    (addrs : List Nat) : symbolize core alloc s l sched (.gsymDataVirtOffsets []) addrs = .error .index := rfl

/-- **C85**.  If a goroutine stays on its thread, what it is told, and what happens to memory, does not depend on
the thread, on what happened before, or on what other goroutines do at the same time. -/
theorem C85_locked_partial (core : Core) (alloc : Allocator) (s : Store) (l₁ l₂ : LastErr) (sched₁ sched₂ : Schedule)
    (h₁ : sched₁.Locked) (h₂ : sched₂.Locked) (req : Request) (addrs : List Nat) :
    (symbolize core alloc s l₁ sched₁ req addrs).map (fun r => (r.1, r.2.1))
      = (symbolize core alloc s l₂ sched₂ req addrs).map (fun r => (r.1, r.2.1)) := by
  unfold symbolize
  simp only [locked_seen h₁, locked_seen h₂, bind, Except.bind]
  cases prepare alloc s req with
  | error f => rfl
  | ok r =>
    simp only
    cases addrsToPtr alloc r.2 addrs with
    | error f => rfl
    | ok r2 =>
      simp only
      cases goNew alloc r2.2 r.1.source with
      | error f => rfl
      | ok r3 =>
        simp only
        cases lift (run core (fun size => alloc r3.2 size 8) r3.2.mem (.symbolize req.fn r3.1 r2.1.1 r2.1.2)) with
        | error f => rfl
        | ok r4 =>
          simp only [locked_seen h₁, locked_seen h₂]
          cases processSyms (takeRet r3.2 r4.1).2 (takeRet r3.2 r4.1).1 r4.2 with
          | error f => rfl
          | ok r5 =>
            simp only
            cases cFree r5.2 r.1.malloced with
            | error f => rfl
            | ok s6 =>
              simp only
              cases goDrop s6 r3.1 r.1.source.length with
              | error f => rfl
              | ok s7 =>
                simp only
                cases goDrop s7 r2.1.1 (8 * r2.1.2) with
                | error f => rfl
                | ok s8 =>
                  simp only
                  cases goDrop s8 r.1.object r.1.objectSize with
                  | error f => rfl
                  | ok s9 => rfl

section
variable {alloc : Allocator} (ha : GoodAllocator alloc) {s : Store} (hs : s.Valid) (l : LastErr) (sched : Schedule)
  (options : List SymbolizerOption)
include ha hs

/-- **C84**.  A new symbolizer uses the settings asked for, whatever other goroutines do; creating it does not fail
unless memory runs out.  The full property would have directories with NULs arrive as they are. -/
theorem C84_new_partial :
    newSymbolizer alloc s l sched options = .error (.c .outOfMemory)
      ∨ ∃ (s' : Store) (l' : LastErr), newSymbolizer alloc s l sched options = .ok (.ok (settings options), s', l') := by
  rcases newSymbolizer_spec ha hs l sched options with h | ⟨s', leak, h, _⟩
  · exact Or.inl h
  · exact Or.inr ⟨s', _, h⟩

omit ha hs in
/-- **C85**.  What the bindings are told when they create a symbolizer is what the C function says: there is one or
there is none, and the last error. -/
theorem C85_new (core : Core) (room : Nat → Option Nat) (m : Mem) (opts : Nat) :
    run core room m (.symbolizerNewOpts opts) =
      match symbolizerNewOpts m opts with
      | .error f => .error f
      | .ok (some _, err) => .ok (.object, err)
      | .ok (none, err) => .ok (.null, err) := by
  simp only [run, symbolizerNewOpts, bind, Except.bind, pure, Except.pure]
  cases inputAs m opts .symbolizerOpts (symbolizerOpts m) with
  | error f => rfl
  | ok x => cases x <;> rfl

/-- **C86**.  Creating a symbolizer leaves one block of memory allocated for every empty list of debug directories
among the options, and nothing else. -/
theorem C86_new_any {res : Except Bytes SymbolizerOpts} {s' : Store} {l' : LastErr}
    (h : newSymbolizer alloc s l sched options = .ok (res, s', l')) :
    ∃ (leak : List Block), Leaked s s' leak ∧ leak.length = (emptyDirs options).length
      ∧ ∀ (b : Block), b ∈ leak → b.size = 1 := by
  rcases newSymbolizer_spec ha hs l sched options with h1 | ⟨s'', leak, h1, e, hl⟩
  · rw [h] at h1; cases h1
  rw [h] at h1
  simp only [Except.ok.injEq, Prod.mk.injEq] at h1
  obtain ⟨_, rfl, _⟩ := h1
  exact ⟨leak, ⟨e.blocks, e.same, e.valid⟩, hl.1, fun b hb => (hl.2 b hb).1⟩

/-- **C86**.  Creating a symbolizer frees all memory that it allocates, unless a list of debug directories is
empty. -/
theorem C86_new_partial (hd : ∀ (dirs : List Bytes), .withDebugDirs dirs ∈ options → dirs ≠ [])
    {res : Except Bytes SymbolizerOpts} {s' : Store} {l' : LastErr}
    (h : newSymbolizer alloc s l sched options = .ok (res, s', l')) : Released s s' := by
  obtain ⟨leak, h1, h2, _⟩ := C86_new_any ha hs l sched options h
  have : emptyDirs options = [] := by
    rw [emptyDirs, List.filter_eq_nil_iff]
    intro dirs hm
    rw [List.mem_filterMap] at hm
    obtain ⟨o, ho, ho'⟩ := hm
    cases o with
    | withDebugDirs ds =>
      simp only [optDebugDirs, Option.some.injEq] at ho'
      subst ho'
      simpa using hd ds ho
    | _ => simp [optDebugDirs] at ho'
  rw [this, List.length_nil, List.length_eq_zero_iff] at h2
  subst h2
  exact h1

end

/-- **C84**.  The constants of reasons.  The full property would be that every reason has one (see
`C84_reason_wrong`). -/
theorem C84_reason_partial (r : Reason) (h : r ≠ .ignoredError) (n : Nat) (hn : ReasonCode r n) :
    (reasonName r, n) ∈ reasonConstants
      ∧ ∀ (name : Bytes), (name, n) ∈ reasonConstants → name = reasonName r := by
  simp only [ReasonCode, List.mem_cons, Prod.mk.injEq, List.not_mem_nil, or_false] at hn
  rcases hn with ⟨rfl, rfl⟩ | ⟨rfl, rfl⟩ | ⟨rfl, rfl⟩ | ⟨rfl, rfl⟩ | ⟨rfl, rfl⟩ | ⟨rfl, rfl⟩ | ⟨rfl, rfl⟩
  all_goals first
    | exact absurd rfl h
    | exact ⟨by simp [reasonConstants, reasonName], fun name h => by simpa [reasonConstants, reasonName] using h⟩

/-- The full property would be that every reason has a constant.  The one for errors that were ignored has none. -/
theorem C84_reason_wrong (n : Nat) (hn : ReasonCode .ignoredError n) (name : Bytes) : (name, n) ∉ reasonConstants := by
  simp [ReasonCode] at hn
  subst hn
  simp [reasonConstants]

/-! ## Examples, and what is wrong -/

/-- A library that knows one file with two addresses, and reports an error for all else. -/
def demoCore : Core where
  symbolize
    | .elf [47, 97] false, .virtOffset [16, 99] => .ok
        [.sym ⟨ascii "f", some (ascii "/a"), 16, 0, some 4, some ⟨none, ascii "x.c", some 7, none⟩, [⟨ascii "g", none⟩]⟩,
         .unknown .unknownAddr]
    | _, _ => .error .notFound
  cacheElf _ := .ok ()
  cacheProcess _ := .ok ()
  normalize _ _ _ := .ok ()
  lookup _ _ := .ok []
  buildId _ := .ok none
  procmapQuery := .ok true

/-- The goroutine stays on thread 1; another one calls the library on thread 2, without success. -/
def demoLocked : Schedule := ⟨1, [(2, -2)], 1⟩

/-- The goroutine is moved from thread 1 to thread 2 after the call of the library. -/
def demoMoved : Schedule := ⟨1, [], 2⟩

/-- What is returned, and what is allocated afterwards. -/
def demoRun (l : LastErr) (sched : Schedule) (req : Request) (addrs : List Nat) : Option (Result × List Block) :=
  (symbolize demoCore bump demoStore l sched req addrs).toOption.map fun r => (r.1, r.2.1.blocks)

theorem demoStore_valid : demoStore.Valid := by
  refine ⟨fun b hb => ?_, List.pairwise_singleton _ _⟩
  rw [show demoStore.blocks = [⟨100, 1, 1⟩] from rfl, List.mem_singleton] at hb
  subst hb; decide

theorem demoCore_fits : FitResults demoCore := by
  intro src input results h
  simp only [demoCore] at h
  split at h
  · cases h
    refine ⟨fun sym hm => ?_, by decide +kernel⟩
    simp only [List.mem_cons, Symbolized.sym.injEq, reduceCtorEq, List.not_mem_nil, or_false] at hm
    subst hm
    refine ⟨by decide, by decide, fun info h => ?_, fun fn h info h' => ?_⟩
    · simp only [Option.some.injEq] at h
      subst h
      simp [CodeInfo.Fits]
    · simp only [List.mem_singleton] at h
      subst h
      simp at h'
  · cases h

theorem demoRun_ok {l : LastErr} {sched : Schedule} {req : Request} {addrs : List Nat} {res : Result} {bs : List Block}
    (h : demoRun l sched req addrs = some (res, bs)) :
    ∃ (s' : Store) (l' : LastErr), symbolize demoCore bump demoStore l sched req addrs = .ok (res, s', l')
      ∧ s'.blocks = bs := by
  rw [demoRun] at h
  cases hc : symbolize demoCore bump demoStore l sched req addrs with
  | error f => rw [hc] at h; cases h
  | ok r =>
    rw [hc] at h
    simp only [Except.toOption, Option.map_some, Option.some.injEq, Prod.mk.injEq] at h
    obtain ⟨rfl, rfl⟩ := h
    exact ⟨r.2.1, r.2.2, rfl, rfl⟩

/-- The hypotheses of `C84_symbolize_partial`, `C85_any`, `C85_locked_partial` and `C86_released_partial` are met. -/
example : demoLocked.Locked ∧ FitResults demoCore ∧ demoStore.Valid
    ∧ demoRun LastErr.init demoLocked (.elfVirtOffsets (ascii "/a") []) [16, 99] = some (.ok (some
      [⟨ascii "f", ascii "/a", 16, 0, 4, some ⟨[], ascii "x.c", 7, 0⟩, [⟨ascii "g", none⟩], 0⟩,
       ⟨[], [], 0, 0, 0, none, [], 5⟩]), [⟨100, 1, 1⟩])
    ∧ demoRun LastErr.init demoLocked (.elfVirtOffsets (ascii "/a") [.withDebugSyms true]) [16, 99]
      = some (.error (ascii "entity not found"), [⟨100, 1, 1⟩])
    ∧ demoRun LastErr.init demoLocked (.gsymDataVirtOffsets [1, 2]) []
      = some (.error (ascii "entity not found"), [⟨100, 1, 1⟩]) := by
  exact ⟨⟨rfl, by decide⟩, demoCore_fits, demoStore_valid, by decide +kernel, by decide +kernel, by decide +kernel⟩

/-- The hypotheses of `C84_inlined_panics` are met. -/
example : ∃ (results : List Symbolized), ¬FewInlined results
    ∧ (∀ (sym : Sym), .sym sym ∈ results → Sym.Fits sym) ∧ bufSize results ≤ 2 ^ 63 - 8 := by
  obtain ⟨fns, hfns⟩ : ∃ (fns : List InlinedFn), fns = List.replicate (2 ^ 30 + 1) ⟨[], none⟩ := ⟨_, rfl⟩
  have hl : fns.length = 2 ^ 30 + 1 := by rw [hfns, List.length_replicate]
  refine ⟨[.sym ⟨[], none, 0, 0, none, none, fns⟩], fun h => ?_, fun sym hs => ?_, ?_⟩
  · have := h _ (List.mem_singleton_self _)
    simp only [hl] at this
    omega
  · simp only [List.mem_singleton, Symbolized.sym.injEq] at hs
    subst hs
    refine ⟨by simp only; omega, by simp only; omega, fun info h => by simp at h, fun fn h info h' => ?_⟩
    simp only [hfns] at h
    rw [List.eq_of_mem_replicate h] at h'
    cases h'
  · have hm : (fns.map inlinedStrSize).sum = 2 ^ 30 + 1 := by
      rw [hfns, List.map_replicate, show inlinedStrSize ⟨[], none⟩ = 1 from rfl, List.sum_replicate_nat, Nat.mul_one]
    have e1 : symStrSize ⟨[], none, 0, 0, none, none, fns⟩ = 1 + (2 ^ 30 + 1) := by
      rw [symStrSize, hm]; rfl
    have d1 : symSize = 104 := rfl
    have d2 : symsSize = 8 := rfl
    have d3 : inlinedSize = 48 := rfl
    simp only [bufSize, totals_eq, sums, e1, hl, d1, d2, d3, List.length_singleton]
    omega

/-- The full property would be that a path is used as it is.  If it has a NUL, the file whose path ends before the
NUL is used. -/
theorem C84_nul_wrong : ∃ (core : Core) (alloc : Allocator) (s : Store) (path : Bytes) (addrs : List Nat) (gs : List GoSym)
    (s' : Store) (l' : LastErr), FitResults core ∧ GoodAllocator alloc ∧ s.Valid
      ∧ core.symbolize (.elf path false) (.virtOffset addrs) = .error .notFound
      ∧ symbolize core alloc s LastErr.init demoLocked (.elfVirtOffsets path []) addrs = .ok (.ok (some gs), s', l') := by
  have h : demoRun LastErr.init demoLocked (.elfVirtOffsets [47, 97, 0, 98] []) [16, 99] = some (.ok (some
      [⟨ascii "f", ascii "/a", 16, 0, 4, some ⟨[], ascii "x.c", 7, 0⟩, [⟨ascii "g", none⟩], 0⟩,
       ⟨[], [], 0, 0, 0, none, [], 5⟩]), [⟨100, 1, 1⟩]) := by decide +kernel
  obtain ⟨s', l', h1, _⟩ := demoRun_ok h
  exact ⟨demoCore, bump, demoStore, _, _, _, s', l', demoCore_fits, bump_good, demoStore_valid, rfl, h1⟩

/-- The full property would be that an error of the library is reported.  If the goroutine is moved to another
thread before it asks for the error, it is told that there are no results. -/
theorem C85_lost_wrong : ∃ (core : Core) (alloc : Allocator) (s : Store) (sched : Schedule) (req : Request) (addrs : List Nat)
    (s' : Store) (l' : LastErr), FitResults core ∧ GoodAllocator alloc ∧ s.Valid
      ∧ core.symbolize req.source (req.input addrs) = .error .notFound
      ∧ symbolize core alloc s LastErr.init sched req addrs = .ok (.ok none, s', l') := by
  have h : demoRun LastErr.init demoMoved (.elfVirtOffsets (ascii "/b") []) [16] = some (.ok none, [⟨100, 1, 1⟩]) := by
    decide +kernel
  obtain ⟨s', l', h1, _⟩ := demoRun_ok h
  exact ⟨demoCore, bump, demoStore, _, _, _, s', l', demoCore_fits, bump_good, demoStore_valid, rfl, h1⟩

/-- A goroutine on thread 2 asks for a file that does not exist, then another one is moved from thread 1 to thread
2: what both are told, and what is allocated in the end. -/
def demoTwo : Option (Result × Result × List Block) :=
  (symbolize demoCore bump demoStore LastErr.init ⟨2, [], 2⟩ (.elfVirtOffsets (ascii "/b") []) [16, 99]).toOption.bind
    fun r => (symbolize demoCore bump r.2.1 r.2.2 demoMoved (.elfVirtOffsets (ascii "/a") []) [16, 99]).toOption.map
      fun r' => (r.1, r'.1, r'.2.1.blocks)

theorem demoTwo_eq : demoTwo = some (.error (errorText .notFound), .error (errorText .notFound),
    [⟨176, 283, 8⟩, ⟨100, 1, 1⟩]) := by decide +kernel

theorem demoTwo_ok : ∃ (s₁ s₂ : Store) (l₁ l₂ : LastErr),
    symbolize demoCore bump demoStore LastErr.init ⟨2, [], 2⟩ (.elfVirtOffsets (ascii "/b") []) [16, 99]
        = .ok (.error (errorText .notFound), s₁, l₁)
      ∧ symbolize demoCore bump s₁ l₁ demoMoved (.elfVirtOffsets (ascii "/a") []) [16, 99]
        = .ok (.error (errorText .notFound), s₂, l₂)
      ∧ s₂.blocks = [⟨176, 283, 8⟩, ⟨100, 1, 1⟩] := by
  have h := demoTwo_eq
  rw [demoTwo] at h
  cases h1 : symbolize demoCore bump demoStore LastErr.init ⟨2, [], 2⟩ (.elfVirtOffsets (ascii "/b") []) [16, 99] with
  | error f => rw [h1] at h; cases h
  | ok r =>
    rw [h1] at h
    simp only [Except.toOption, Option.bind_some] at h
    cases h2 : symbolize demoCore bump r.2.1 r.2.2 demoMoved (.elfVirtOffsets (ascii "/a") []) [16, 99] with
    | error f => rw [h2] at h; cases h
    | ok r' =>
      rw [h2] at h
      simp only [Option.map_some, Option.some.injEq, Prod.mk.injEq] at h
      obtain ⟨k1, k2, k3⟩ := h
      refine ⟨r.2.1, r'.2.1, r.2.2, r'.2.2, by rw [← k1], ?_, k3⟩
      rw [h2, ← k2]

/-- The full property would be that no error is reported if the library finds results.  If the goroutine is moved to
a thread on which another one called the library without success, that error is reported. -/
theorem C85_stale_wrong : ∃ (core : Core) (alloc : Allocator) (s : Store) (req₁ req₂ : Request) (addrs : List Nat)
    (results : List Symbolized) (s₁ s₂ : Store) (l₁ l₂ : LastErr), FitResults core ∧ GoodAllocator alloc ∧ s.Valid
      ∧ core.symbolize req₁.source (req₁.input addrs) = .error .notFound
      ∧ core.symbolize req₂.source (req₂.input addrs) = .ok results
      ∧ symbolize core alloc s LastErr.init ⟨2, [], 2⟩ req₁ addrs = .ok (.error (errorText .notFound), s₁, l₁)
      ∧ symbolize core alloc s₁ l₁ ⟨1, [], 2⟩ req₂ addrs = .ok (.error (errorText .notFound), s₂, l₂) := by
  obtain ⟨s₁, s₂, l₁, l₂, h1, h2, _⟩ := demoTwo_ok
  exact ⟨demoCore, bump, demoStore, _, _, _, _, s₁, s₂, l₁, l₂, demoCore_fits, bump_good, demoStore_valid, rfl, rfl, h1, h2⟩

/-- The full property would be that all memory is freed.  If the error of another goroutine is reported, the results
of the library are not freed. -/
theorem C86_leak_wrong : ∃ (core : Core) (alloc : Allocator) (s : Store) (req₁ req₂ : Request) (addrs : List Nat)
    (res₁ res₂ : Result) (s₁ s₂ : Store) (l₁ l₂ : LastErr), FitResults core ∧ GoodAllocator alloc ∧ s.Valid
      ∧ symbolize core alloc s LastErr.init ⟨2, [], 2⟩ req₁ addrs = .ok (res₁, s₁, l₁)
      ∧ symbolize core alloc s₁ l₁ ⟨1, [], 2⟩ req₂ addrs = .ok (res₂, s₂, l₂)
      ∧ s₂.blocks.length = s.blocks.length + 1 := by
  obtain ⟨s₁, s₂, l₁, l₂, h1, h2, h3⟩ := demoTwo_ok
  exact ⟨demoCore, bump, demoStore, _, _, _, _, _, s₁, s₂, l₁, l₂, demoCore_fits, bump_good, demoStore_valid, h1, h2,
    by rw [h3]; rfl⟩

/-- What a symbolizer is created with, and what is allocated afterwards. -/
def demoNew (options : List SymbolizerOption) : Option (Except Bytes SymbolizerOpts × List Block) :=
  (newSymbolizer bump demoStore LastErr.init demoMoved options).toOption.map fun r => (r.1, r.2.1.blocks)

/-- The hypotheses of `C84_new_partial`, `C86_new_any` and `C86_new_partial` are met. -/
example : demoNew [.withDebugDirs [ascii "/a", ascii "/b"], .withDemangle false, .withDebugDirs [ascii "/c"]]
      = some (.ok ⟨some [ascii "/c"], true, true, true, false, none⟩, [⟨100, 1, 1⟩])
    ∧ demoNew [] = some (.ok ⟨none, true, true, true, true, none⟩, [⟨100, 1, 1⟩]) := by
  constructor <;> decide +kernel

/-- The full property would be that creating a symbolizer frees all memory that it allocates.  An empty list of debug
directories is not freed. -/
theorem C86_empty_dirs_wrong : ∃ (alloc : Allocator) (s : Store) (l : LastErr) (sched : Schedule)
    (options : List SymbolizerOption) (opts : SymbolizerOpts) (s' : Store) (l' : LastErr), GoodAllocator alloc ∧ s.Valid
      ∧ newSymbolizer alloc s l sched options = .ok (.ok opts, s', l') ∧ s'.blocks.length = s.blocks.length + 1 := by
  have h : demoNew [.withDebugDirs []] = some (.ok ⟨some [], true, true, true, true, none⟩, [⟨112, 1, 16⟩, ⟨100, 1, 1⟩]) := by
    decide +kernel
  rw [demoNew] at h
  cases hc : newSymbolizer bump demoStore LastErr.init demoMoved [.withDebugDirs []] with
  | error f => rw [hc] at h; cases h
  | ok r =>
    rw [hc] at h
    simp only [Except.toOption, Option.map_some, Option.some.injEq, Prod.mk.injEq] at h
    exact ⟨bump, demoStore, LastErr.init, demoMoved, [.withDebugDirs []], _, r.2.1, r.2.2, bump_good, demoStore_valid,
      by rw [hc, ← h.1], by rw [h.2]; rfl⟩

end Blazesym.Go
