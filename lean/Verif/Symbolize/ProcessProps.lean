import Verif.Symbolize.SymbolizerProps

/-! Property theorems C43 and C44 for process symbolization. -/

set_option autoImplicit false

namespace Blazesym.Symbolize
open Blazesym.Util Blazesym.Maps Blazesym.Normalize Blazesym.Spec.Symbolize Blazesym.Spec.Normalize

/-! ## The handler on one address and on several -/

/-- What an address of a process gets, with the dispatcher's answers so far in a cache. -/
def oneAddr (env : Env) (src : ProcessSource) (es : List Entry) (cache : DispatchCache) (addr : Nat) :
    Except Err (Symbolized × DispatchCache) :=
  match mappingOf es addr with
  | none => .ok (.unknown .unmapped, cache)
  | some e => handleEntryAddr env src cache addr e

/-- Addresses one after the other. -/
def several (env : Env) (src : ProcessSource) (es : List Entry) :
    DispatchCache → List Nat → Except Err (List Symbolized × DispatchCache)
  | cache, [] => .ok ([], cache)
  | cache, a :: t =>
    match oneAddr env src es cache a with
    | .error e => .error e
    | .ok (s, cache) =>
      match several env src es cache t with
      | .error e => .error e
      | .ok (l, cache) => .ok (s :: l, cache)

theorem each_several (env : Env) (src : ProcessSource) (es : List Entry) (addrs : List Nat)
    (acc : List Symbolized) (cache : DispatchCache) :
    each (symHandler env src).unknown (symHandler env src).entryAddr es addrs (acc, cache) =
      (match several env src es cache addrs with
        | .error e => .error e
        | .ok (l, cache) => .ok (acc ++ l, cache)) := by
  induction addrs generalizing acc cache with
  | nil => simp [each, several]
  | cons a t ih =>
    simp only [each, several, oneAddr]
    cases hm : mappingOf es a with
    | none =>
      simp only [symHandler] at ih ⊢
      rw [ih]
      cases several env src es cache t with
      | error e => rfl
      | ok r => simp
    | some e =>
      simp only [symHandler] at ih ⊢
      cases hh : handleEntryAddr env src cache a e with
      | error e => rfl
      | ok r =>
        simp only
        rw [ih]
        cases several env src es r.2 t with
        | error e => rfl
        | ok r => simp

theorem several_length (env : Env) (src : ProcessSource) (es : List Entry) (addrs : List Nat)
    (cache cache' : DispatchCache) (l : List Symbolized)
    (h : several env src es cache addrs = .ok (l, cache')) : l.length = addrs.length := by
  induction addrs generalizing cache l with
  | nil => simp [several] at h; simp [h.1]
  | cons a t ih =>
    simp only [several] at h
    cases h1 : oneAddr env src es cache a with
    | error e => rw [h1] at h; simp at h
    | ok r =>
      rw [h1] at h
      simp only at h
      cases h2 : several env src es r.2 t with
      | error e => rw [h2] at h; simp at h
      | ok r' =>
        rw [h2] at h
        simp only [Except.ok.injEq, Prod.mk.injEq] at h
        obtain ⟨rfl, hc⟩ := h
        have := ih r.2 r'.1 (by rw [h2, ← hc])
        simp [this]

/-- What the request comes down to: sorted, the addresses are treated one after the other. -/
theorem userAddrs_several (env : Env) (src : ProcessSource) (es : List Entry) (addrs : List Nat)
    (hm : env.maps src.pid = .ok (es.map .ok)) (hl : Listing es) (hne : es ≠ []) :
    ∃ sorted : List Nat, sorted.Perm addrs ∧ sorted.Pairwise (· ≤ ·) ∧
      ((∃ e, several env src es env.dispatched sorted = .error e ∧ symbolizeUserAddrs env src addrs = .error e) ∨
        ∃ outs cache outs', several env src es env.dispatched sorted = .ok (outs, cache) ∧
          symbolizeUserAddrs env src addrs = .ok outs' ∧
            ∀ P : Nat → Symbolized → Prop, List.Forall₂ P sorted outs → List.Forall₂ P addrs outs') := by
  have hhandle : ∀ sorted : List Nat, sorted.Pairwise (· ≤ ·) →
      walk (symHandler env src) sorted (.list (es.map .ok)) ([], env.dispatched) =
        several env src es env.dispatched sorted := by
    intro sorted hs
    rw [C02_walk _ es sorted _ hl hne hs, each_several]
    cases several env src es env.dispatched sorted with
    | error e => rfl
    | ok r => simp
  have hlenAll : ∀ (l : List Nat) (r : DispatchCache) (outs : List Symbolized),
      userHandle env src (es.map .ok) l = .ok (r, outs) → outs.length = l.length := by
    intro l r outs h
    unfold userHandle at h
    by_cases hs : l.Pairwise (· ≤ ·)
    · rw [hhandle l hs] at h
      cases hv : several env src es env.dispatched l with
      | error e => rw [hv] at h; simp at h
      | ok p =>
        rw [hv] at h
        simp only [Except.ok.injEq, Prod.mk.injEq] at h
        rw [← h.2]
        exact several_length env src es l env.dispatched p.2 p.1 hv
    · obtain ⟨err, he⟩ := C02_unsorted_refused (symHandler env src) l (.list (es.map .ok)) ([], env.dispatched) hs
      rw [he] at h; simp at h
  obtain ⟨sorted, hp, hs, hr⟩ := C01_results_kept addrs (userHandle env src (es.map .ok)) hlenAll
  refine ⟨sorted, hp, hs, ?_⟩
  unfold symbolizeUserAddrs
  simp only [hm]
  rcases hr with ⟨e, h1, h2⟩ | ⟨rest, outs, outs', h1, h2, _, h3⟩
  · left
    refine ⟨e, ?_, by rw [h2]⟩
    unfold userHandle at h1
    rw [hhandle sorted hs] at h1
    cases hv : several env src es env.dispatched sorted with
    | error e' => rw [hv] at h1; simpa using h1
    | ok p => rw [hv] at h1; simp at h1
  · right
    unfold userHandle at h1
    rw [hhandle sorted hs] at h1
    cases hv : several env src es env.dispatched sorted with
    | error e' => rw [hv] at h1; simp at h1
    | ok p =>
      rw [hv] at h1
      simp only [Except.ok.injEq, Prod.mk.injEq] at h1
      refine ⟨outs, rest, outs', ?_, by rw [h2], h3⟩
      rw [← h1.1, ← h1.2]

/-- A single request for a process. -/
theorem single_process (env : Env) (src : ProcessSource) (es : List Entry) (addr : Nat)
    (hm : env.maps src.pid = .ok (es.map .ok)) (hl : Listing es) (hne : es ≠ []) :
    symbolizeSingle env (.process src) (.absAddr addr) =
      (match oneAddr env src es env.dispatched addr with
        | .error e => .error e
        | .ok (s, _) => .ok s) := by
  obtain ⟨sorted, hp, _, h⟩ := userAddrs_several env src es [addr] hm hl hne
  have : sorted = [addr] := List.perm_singleton.mp hp
  subst this
  simp only [several] at h
  unfold symbolizeSingle
  simp only [Input.map, symbolizeImpl]
  cases ho : oneAddr env src es env.dispatched addr with
  | error e =>
    rw [ho] at h
    rcases h with ⟨e', h1, h2⟩ | ⟨outs, cache, outs', h1, _⟩
    · rw [h2]
      have : e = e' := by simpa using h1
      rw [this]
    · simp at h1
  | ok r =>
    rw [ho] at h
    rcases h with ⟨e', h1, h2⟩ | ⟨outs, cache, outs', h1, h2, h3⟩
    · simp at h1
    · simp only [Except.ok.injEq, Prod.mk.injEq] at h1
      have hf := h3 (fun _ s => s = r.1) (by rw [← h1.1]; exact .cons rfl .nil)
      rw [h2]
      cases hf with
      | cons hx ht => cases ht; subst hx; rfl

/-! ## The mapping of an address -/

theorem mappingOf_of_mem (es : List Entry) (hl : Listing es) (e : Entry) (he : e ∈ es) (addr : Nat)
    (ha : Has e addr) : mappingOf es addr = some e := by
  unfold mappingOf
  obtain ⟨h1, h2⟩ := hl
  induction es with
  | nil => cases he
  | cons x t ih =>
    rw [List.pairwise_cons] at h1
    rw [List.find?_cons]
    rcases List.mem_cons.mp he with rfl | ht
    · have : (decide (e.start ≤ addr) && decide (addr < e.stop)) = true := by simpa [Has] using ha
      rw [this]
    · have hx := h1.1 e ht
      have : (decide (x.start ≤ addr) && decide (addr < x.stop)) = false := by
        simp only [Bool.and_eq_false_iff, decide_eq_false_iff_not]
        right
        have := ha.1
        omega
      rw [this]
      exact ih ht h1.2 (fun e he => h2 e (List.mem_cons_of_mem _ he))

/-- **C44** (unmapped): an address in no mapping is reported as unmapped. -/
theorem C44_unmapped (env : Env) (src : ProcessSource) (es : List Entry) (addr : Nat)
    (hm : env.maps src.pid = .ok (es.map .ok)) (hl : Listing es) (hne : es ≠ [])
    (hn : ∀ e ∈ es, ¬ Has e addr) :
    symbolizeSingle env (.process src) (.absAddr addr) = .ok (.unknown .unmapped) := by
  rw [single_process env src es addr hm hl hne]
  have : mappingOf es addr = none := by
    unfold mappingOf
    rw [List.find?_eq_none]
    intro e he
    have := hn e he
    simpa [Has] using this
  simp [oneAddr, this]

theorem single_mapped (env : Env) (src : ProcessSource) (es : List Entry) (addr : Nat) (e : Entry)
    (hm : env.maps src.pid = .ok (es.map .ok)) (hl : Listing es) (he : e ∈ es)
    (ha : Has e addr) :
    symbolizeSingle env (.process src) (.absAddr addr) =
      (match handleEntryAddr env src env.dispatched addr e with
        | .error e => .error e
        | .ok (s, _) => .ok s) := by
  rw [single_process env src es addr hm hl (List.ne_nil_of_mem he)]
  simp only [oneAddr, mappingOf_of_mem es hl e he addr ha]

theorem addU64_fits (a b : Nat) (h : a + b < 2 ^ 64) : addU64 a b = .ok (a + b) := by
  unfold addU64
  rw [if_pos (by simpa [u64Size] using h)]

theorem addU64_over (a b : Nat) (h : 2 ^ 64 ≤ a + b) : addU64 a b = .error .panic := by
  unfold addU64
  rw [if_neg (by simpa [u64Size] using h)]

/-- **C44** (overflow): an offset of a mapping that, with the address, exceeds 64 bits is a panic;
the kernel reports no such mappings. -/
theorem C44_overflow (env : Env) (src : ProcessSource) (es : List Entry) (addr : Nat) (e : Entry)
    (hm : env.maps src.pid = .ok (es.map .ok)) (hl : Listing es) (he : e ∈ es)
    (ha : Has e addr) (hov : 2 ^ 64 ≤ addr - e.start + e.offset) :
    symbolizeSingle env (.process src) (.absAddr addr) = .error .panic := by
  rw [single_mapped env src es addr e hm hl he ha]
  simp only [handleEntryAddr, addU64_over _ _ hov]

theorem notDispatched (env : Env) (e : Entry) (name : PathName) (hn : e.pathName = some name)
    (hd : NotDispatched env e) :
    ∃ cache, dispatchResolver env env.dispatched e.start e.stop name = .ok (none, cache) := by
  unfold dispatchResolver
  cases hdd : env.dispatch with
  | none => exact ⟨_, rfl⟩
  | some d =>
    rcases hd name hn d hdd with h | ⟨h1, h2⟩
    · simp only [h]; exact ⟨_, rfl⟩
    · simp only [h1, h2]; exact ⟨_, rfl⟩

theorem single_default (env : Env) (src : ProcessSource) (es : List Entry) (addr : Nat) (e : Entry)
    (hm : env.maps src.pid = .ok (es.map .ok)) (hl : Listing es) (he : e ∈ es)
    (ha : Has e addr) (hov : addr - e.start + e.offset < 2 ^ 64) (hd : NotDispatched env e) :
    symbolizeSingle env (.process src) (.absAddr addr) =
      handleDefault env src addr (addr - e.start + e.offset) e := by
  rw [single_mapped env src es addr e hm hl he ha]
  simp only [handleEntryAddr, addU64_fits _ _ hov]
  cases hn : e.pathName with
  | none =>
    simp only
    cases handleDefault env src addr (addr - e.start + e.offset) e <;> rfl
  | some name =>
    obtain ⟨cache, hc⟩ := notDispatched env e name hn hd
    simp only [hc]
    cases handleDefault env src addr (addr - e.start + e.offset) e <;> rfl

/-- **C44** (mapped files): an address in the mapping of a file (no archive) is looked up in that
file, at offset `addr - start + offset`; the file is read through the process's `map_files` entry or
by its path, as requested, and named by its path. -/
theorem C44_file (env : Env) (src : ProcessSource) (es : List Entry) (addr : Nat) (e : Entry) (p : EntryPath)
    (hm : env.maps src.pid = .ok (es.map .ok)) (hl : Listing es) (he : e ∈ es)
    (ha : Has e addr) (hov : addr - e.start + e.offset < 2 ^ 64) (hd : NotDispatched env e)
    (hp : e.pathName = some (.path p))
    (hx : extension p.symbolicPath ≠ some (ascii "apk") ∧ extension p.symbolicPath ≠ some (ascii "zip")) :
    (∀ r out, env.elf (if src.mapFiles then p.mapsFile else p.symbolicPath) p.symbolicPath src.debugSyms = .ok r →
      (symbolizeSingle env (.process src) (.absAddr addr) = out ↔
        LookedAt env r (addr - e.start + e.offset) out)) ∧
    (∀ err, env.elf (if src.mapFiles then p.mapsFile else p.symbolicPath) p.symbolicPath src.debugSyms = .error err →
      symbolizeSingle env (.process src) (.absAddr addr) = .error err) := by
  have hne : ¬ ((extension p.symbolicPath).getD [] = ascii "apk" ∨ (extension p.symbolicPath).getD [] = ascii "zip") := by
    cases hext : extension p.symbolicPath with
    | none =>
      simp only [Option.getD_none]
      decide +kernel
    | some x =>
      rw [hext] at hx
      simp only [Option.getD_some]
      rintro (h | h)
      · exact hx.1 (by rw [h])
      · exact hx.2 (by rw [h])
  have hs : symbolizeSingle env (.process src) (.absAddr addr) =
      (match env.elf (if src.mapFiles then p.mapsFile else p.symbolicPath) p.symbolicPath src.debugSyms with
        | .error e => .error e
        | .ok resolver => env.symbolizeOffset resolver (addr - e.start + e.offset)) := by
    rw [single_default env src es addr e hm hl he ha hov hd]
    simp only [handleDefault, hp]
    rw [if_neg hne]
    cases env.elf (if src.mapFiles = true then p.mapsFile else p.symbolicPath) p.symbolicPath src.debugSyms <;> rfl
  constructor
  · intro r out hr
    rw [hs, hr, ← C44_looked_at]
  · intro err hr
    rw [hs, hr]

/-- **C44** (mapped archives): an address in the mapping of an archive is looked up in the member at
offset `addr - start + offset`. -/
theorem C44_archive (env : Env) (src : ProcessSource) (es : List Entry) (addr : Nat) (e : Entry) (p : EntryPath)
    (hm : env.maps src.pid = .ok (es.map .ok)) (hl : Listing es) (he : e ∈ es)
    (ha : Has e addr) (hov : addr - e.start + e.offset < 2 ^ 64) (hd : NotDispatched env e)
    (hp : e.pathName = some (.path p))
    (hx : extension p.symbolicPath = some (ascii "apk") ∨ extension p.symbolicPath = some (ascii "zip")) :
    (∀ find v out, env.apk (if src.mapFiles then p.mapsFile else p.symbolicPath) p.symbolicPath
        (addr - e.start + e.offset) src.debugSyms = .ok (some (find, v)) →
      (symbolizeSingle env (.process src) (.absAddr addr) = out ↔ Looked env find v out)) ∧
    (env.apk (if src.mapFiles then p.mapsFile else p.symbolicPath) p.symbolicPath
        (addr - e.start + e.offset) src.debugSyms = .ok none →
      symbolizeSingle env (.process src) (.absAddr addr) = .ok (.unknown .invalidFileOffset)) ∧
    (∀ err, env.apk (if src.mapFiles then p.mapsFile else p.symbolicPath) p.symbolicPath
        (addr - e.start + e.offset) src.debugSyms = .error err →
      symbolizeSingle env (.process src) (.absAddr addr) = .error err) := by
  have hyes : ((extension p.symbolicPath).getD [] = ascii "apk" ∨ (extension p.symbolicPath).getD [] = ascii "zip") := by
    rcases hx with h | h
    · left; rw [h]; rfl
    · right; rw [h]; rfl
  have hs : symbolizeSingle env (.process src) (.absAddr addr) =
      env.symbolizeApk (if src.mapFiles then p.mapsFile else p.symbolicPath) p.symbolicPath
        (addr - e.start + e.offset) src.debugSyms := by
    rw [single_default env src es addr e hm hl he ha hov hd]
    simp only [handleDefault, hp]
    rw [if_pos hyes]
  rw [hs]
  unfold Env.symbolizeApk
  refine ⟨?_, ?_, ?_⟩
  · intro find v out h; rw [h, ← C44_looked]
  · intro h; rw [h]
  · intro err h; rw [h]

/-- **C44** (vDSO): an address in the vDSO is looked up in it if so requested; addresses in other
special mappings are reported as unsupported. -/
theorem C44_component (env : Env) (src : ProcessSource) (es : List Entry) (addr : Nat) (e : Entry) (c : Bytes)
    (hm : env.maps src.pid = .ok (es.map .ok)) (hl : Listing es) (he : e ∈ es)
    (ha : Has e addr) (hov : addr - e.start + e.offset < 2 ^ 64) (hd : NotDispatched env e)
    (hp : e.pathName = some (.component c)) :
    (src.vdso = true ∧ c = ascii "[vdso]" →
      (∀ r out, env.vdso src.pid e.start e.stop = .ok r →
        (symbolizeSingle env (.process src) (.absAddr addr) = out ↔
          LookedAt env r (addr - e.start + e.offset) out)) ∧
      (∀ err, env.vdso src.pid e.start e.stop = .error err →
        symbolizeSingle env (.process src) (.absAddr addr) = .error err)) ∧
    (src.vdso = false ∨ c ≠ ascii "[vdso]" →
      symbolizeSingle env (.process src) (.absAddr addr) = .ok (.unknown .unsupported)) := by
  rw [single_default env src es addr e hm hl he ha hov hd]
  simp only [handleDefault, hp]
  constructor
  · intro h
    rw [if_pos h]
    constructor
    · intro r out hr; rw [hr, ← C44_looked_at]
    · intro err hr; rw [hr]
  · intro h
    rw [if_neg]
    rintro ⟨h1, h2⟩
    rcases h with h | h
    · rw [h] at h1; simp at h1
    · exact h h2

/-- **C44** (anonymous mappings): an address in a mapping without a name is looked up in the
process's perf map, as it is, if so requested and if there is one; otherwise it is unknown. -/
theorem C44_anonymous (env : Env) (src : ProcessSource) (es : List Entry) (addr : Nat) (e : Entry)
    (hm : env.maps src.pid = .ok (es.map .ok)) (hl : Listing es) (he : e ∈ es)
    (ha : Has e addr) (hov : addr - e.start + e.offset < 2 ^ 64) (hp : e.pathName = none) :
    (src.perfMap = false → symbolizeSingle env (.process src) (.absAddr addr) = .ok (.unknown .unknownAddr)) ∧
    (src.perfMap = true →
      (∀ find out, env.perfMap src.pid = .ok (some find) →
        (symbolizeSingle env (.process src) (.absAddr addr) = out ↔ Looked env find addr out)) ∧
      (env.perfMap src.pid = .ok none →
        symbolizeSingle env (.process src) (.absAddr addr) = .ok (.unknown .unknownAddr)) ∧
      (∀ err, env.perfMap src.pid = .error err →
        symbolizeSingle env (.process src) (.absAddr addr) = .error err)) := by
  have hd : NotDispatched env e := by intro name hn; rw [hp] at hn; simp at hn
  rw [single_default env src es addr e hm hl he ha hov hd]
  simp only [handleDefault, hp, handlePerfMapAddr]
  constructor
  · intro h; rw [h]; rfl
  · intro h
    rw [h]
    simp only [if_true]
    refine ⟨?_, ?_, ?_⟩
    · intro find out hf; rw [hf, ← C44_looked]
    · intro hf; rw [hf]
    · intro err hf; rw [hf]

/-- **C44** (only anonymous mappings use the perf map): the outcome for an address in a mapping with
a name does not depend on it. -/
theorem C44_perf_map_only_anonymous (env : Env) (src : ProcessSource) (es : List Entry) (addr : Nat) (e : Entry)
    (perfMap : Nat → Except Err (Option SymFn)) (b : Bool)
    (hm : env.maps src.pid = .ok (es.map .ok)) (hl : Listing es) (he : e ∈ es)
    (ha : Has e addr) (hp : e.pathName ≠ none) :
    symbolizeSingle { env with perfMap } (.process { src with perfMap := b }) (.absAddr addr) =
      symbolizeSingle env (.process src) (.absAddr addr) := by
  rw [single_mapped env src es addr e hm hl he ha,
    single_mapped { env with perfMap } { src with perfMap := b } es addr e hm hl he ha]
  have h1 : ∀ off, handleDefault { env with perfMap } { src with perfMap := b } addr off e =
      handleDefault env src addr off e := by
    intro off
    unfold handleDefault
    cases hn : e.pathName with
    | none => exact absurd hn hp
    | some name => cases name <;> rfl
  have h2 : ∀ cache start stop name, dispatchResolver { env with perfMap } cache start stop name =
      dispatchResolver env cache start stop name := fun _ _ _ _ => rfl
  have h3 : ∀ r off, Env.symbolizeOffset { env with perfMap } r off = env.symbolizeOffset r off := fun _ _ => rfl
  unfold handleEntryAddr
  simp only [h1, h2, h3]

/-- **C44** (dispatcher): if the dispatcher supplies a resolver for a mapping's name (now, not having
been asked for the name before, or then) the address is looked up with it, at the same offset, and
whatever is mapped there. -/
theorem C44_dispatcher (env : Env) (src : ProcessSource) (es : List Entry) (addr : Nat) (e : Entry)
    (name : PathName) (d : Nat → Nat → PathName → Except Err (Option Resolver)) (r : Resolver)
    (out : Except Err Symbolized)
    (hm : env.maps src.pid = .ok (es.map .ok)) (hl : Listing es) (he : e ∈ es)
    (ha : Has e addr) (hov : addr - e.start + e.offset < 2 ^ 64)
    (hp : e.pathName = some name) (hd : env.dispatch = some d)
    (hr : env.dispatched.lookup name = some (some r) ∨
      (env.dispatched.lookup name = none ∧ d e.start e.stop name = .ok (some r))) :
    symbolizeSingle env (.process src) (.absAddr addr) = out ↔ LookedAt env r (addr - e.start + e.offset) out := by
  have hdr : ∃ cache, dispatchResolver env env.dispatched e.start e.stop name = .ok (some r, cache) := by
    unfold dispatchResolver
    simp only [hd]
    rcases hr with h | ⟨h1, h2⟩
    · simp only [h]; exact ⟨_, rfl⟩
    · simp only [h1, h2]; exact ⟨_, rfl⟩
  obtain ⟨cache, hc⟩ := hdr
  rw [single_mapped env src es addr e hm hl he ha, ← C44_looked_at]
  simp only [handleEntryAddr, addU64_fits _ _ hov, hp, hc]
  cases env.symbolizeOffset r (addr - e.start + e.offset) <;> rfl

/-- **C44** (dispatcher errors): are reported. -/
theorem C44_dispatcher_error (env : Env) (src : ProcessSource) (es : List Entry) (addr : Nat) (e : Entry)
    (name : PathName) (d : Nat → Nat → PathName → Except Err (Option Resolver)) (err : Err)
    (hm : env.maps src.pid = .ok (es.map .ok)) (hl : Listing es) (he : e ∈ es)
    (ha : Has e addr) (hov : addr - e.start + e.offset < 2 ^ 64)
    (hp : e.pathName = some name) (hd : env.dispatch = some d)
    (hr : env.dispatched.lookup name = none ∧ d e.start e.stop name = .error err) :
    symbolizeSingle env (.process src) (.absAddr addr) = .error err := by
  rw [single_mapped env src es addr e hm hl he ha]
  simp only [handleEntryAddr, addU64_fits _ _ hov, hp, dispatchResolver, hd, hr.1, hr.2]

/-- **C44** (listing errors): if the mappings cannot be read, or there are none, that is reported. -/
theorem C44_no_listing (env : Env) (src : ProcessSource) (addrs : List Nat) :
    (∀ e, env.maps src.pid = .error e → symbolize env (.process src) (.absAddr addrs) = .error e) ∧
    (env.maps src.pid = .ok [] → symbolize env (.process src) (.absAddr addrs) = .error .unexpectedEof) := by
  constructor
  · intro e h
    simp [symbolize, symbolizeImpl, symbolizeUserAddrs, withOrderedElems, h]
  · intro h
    simp [symbolize, symbolizeImpl, symbolizeUserAddrs, withOrderedElems, userHandle, h, C02_no_mapping]

/-! ## C43 for processes -/

/-- The cache agrees with the dispatcher. -/
def Agrees (env : Env) (cache : DispatchCache) : Prop :=
  ∀ d, env.dispatch = some d → ∀ name r, cache.lookup name = some r → d 0 0 name = .ok r

theorem dispatch_agrees (env : Env) (hb : ByName env) (cache : DispatchCache) (hc : Agrees env cache)
    (start stop : Nat) (name : PathName) :
    (∀ e, dispatchResolver env cache start stop name = .error e →
      dispatchResolver env env.dispatched start stop name = .error e) ∧
    ∀ r cache', dispatchResolver env cache start stop name = .ok (r, cache') → Agrees env cache' ∧
      ∃ cache'', dispatchResolver env env.dispatched start stop name = .ok (r, cache'') := by
  cases hd : env.dispatch with
  | none =>
    unfold dispatchResolver
    simp only [hd]
    refine ⟨(by intro e h; simp at h), ?_⟩
    intro r cache' h
    simp only [Except.ok.injEq, Prod.mk.injEq] at h
    exact ⟨by intro d h; rw [hd] at h; simp at h, _, by rw [← h.1]⟩
  | some d =>
    obtain ⟨h1, h2⟩ := hb d hd
    have hc := hc d hd
    have value : ∀ (c : DispatchCache), (∀ name r, c.lookup name = some r → d 0 0 name = .ok r) →
        dispatchResolver env c start stop name =
        (match d 0 0 name with
          | .error e => .error e
          | .ok r => .ok (r, if (c.lookup name).isSome then c else (name, r) :: c)) := by
      intro c hcc
      unfold dispatchResolver
      simp only [hd]
      cases hl : c.lookup name with
      | some r => simp [hcc name r hl]
      | none =>
        simp only [h1 start stop 0 0 name]
        cases d 0 0 name <;> rfl
    rw [value cache hc, value env.dispatched h2]
    constructor
    · intro e h
      cases hv : d 0 0 name with
      | error e' => rw [hv] at h; simpa using h
      | ok r => rw [hv] at h; simp at h
    · intro r cache' h
      cases hv : d 0 0 name with
      | error e' => rw [hv] at h; simp at h
      | ok r' =>
        rw [hv] at h
        simp only [Except.ok.injEq, Prod.mk.injEq] at h
        obtain ⟨rfl, rfl⟩ := h
        refine ⟨?_, _, rfl⟩
        intro d' hd' name' r'' hl
        have : d = d' := by rw [hd] at hd'; simpa using hd'
        subst this
        split at hl
        · exact hc name' r'' hl
        · rw [List.lookup_cons] at hl
          by_cases hnn : name' = name
          · subst hnn
            simp at hl
            rw [← hl]; exact hv
          · have : (name' == name) = false := by simpa using hnn
            rw [this] at hl
            exact hc name' r'' hl

theorem handle_agrees (env : Env) (src : ProcessSource) (hb : ByName env) (cache : DispatchCache)
    (hc : Agrees env cache) (addr : Nat) (e : Entry) :
    (∀ err, handleEntryAddr env src cache addr e = .error err →
      handleEntryAddr env src env.dispatched addr e = .error err) ∧
    ∀ s cache', handleEntryAddr env src cache addr e = .ok (s, cache') → Agrees env cache' ∧
      ∃ cache'', handleEntryAddr env src env.dispatched addr e = .ok (s, cache'') := by
  unfold handleEntryAddr
  cases ha : addU64 (addr - e.start) e.offset with
  | error err => simp
  | ok off =>
    simp only
    cases hn : e.pathName with
    | none =>
      simp only
      cases hdef : handleDefault env src addr off e with
      | error err => simp
      | ok s =>
        simp only
        refine ⟨(by intro err h; simp at h), ?_⟩
        intro s' cache' h
        simp only [Except.ok.injEq, Prod.mk.injEq] at h
        obtain ⟨rfl, rfl⟩ := h
        exact ⟨hc, _, rfl⟩
    | some name =>
      simp only
      obtain ⟨g1, g2⟩ := dispatch_agrees env hb cache hc e.start e.stop name
      cases hd : dispatchResolver env cache e.start e.stop name with
      | error err =>
        simp only [g1 err hd]
        exact ⟨fun err' h => h, fun s cache' h => by simp at h⟩
      | ok rc =>
        obtain ⟨r, c⟩ := rc
        obtain ⟨k1, c'', k2⟩ := g2 r c hd
        simp only [k2]
        cases r with
        | none =>
          simp only
          cases hdef : handleDefault env src addr off e with
          | error err => simp
          | ok s =>
            simp only
            refine ⟨(by intro err h; simp at h), ?_⟩
            intro s' cache' h
            simp only [Except.ok.injEq, Prod.mk.injEq] at h
            obtain ⟨rfl, rfl⟩ := h
            exact ⟨k1, _, rfl⟩
        | some r =>
          simp only
          cases hso : env.symbolizeOffset r off with
          | error err => simp
          | ok s =>
            simp only
            refine ⟨(by intro err h; simp at h), ?_⟩
            intro s' cache' h
            simp only [Except.ok.injEq, Prod.mk.injEq] at h
            obtain ⟨rfl, rfl⟩ := h
            exact ⟨k1, _, rfl⟩

theorem several_agrees (env : Env) (src : ProcessSource) (es : List Entry) (hb : ByName env)
    (single : Nat → Except Err Symbolized)
    (hs : ∀ a, single a = (match oneAddr env src es env.dispatched a with
        | .error e => .error e
        | .ok (s, _) => .ok s)) (addrs : List Nat) (cache : DispatchCache) (hc : Agrees env cache) :
    (∀ e, several env src es cache addrs = .error e → ∃ a ∈ addrs, single a = .error e) ∧
    ∀ l cache', several env src es cache addrs = .ok (l, cache') →
      List.Forall₂ (fun a o => single a = .ok o) addrs l := by
  induction addrs generalizing cache with
  | nil =>
    constructor
    · intro e h; simp [several] at h
    · intro l cache' h
      simp [several] at h
      rw [h.1]; exact .nil
  | cons a t ih =>
    have one : (∀ e, oneAddr env src es cache a = .error e → single a = .error e) ∧
        ∀ s c, oneAddr env src es cache a = .ok (s, c) → Agrees env c ∧ single a = .ok s := by
      rw [hs]
      unfold oneAddr
      cases hm : mappingOf es a with
      | none =>
        refine ⟨(by intro e h; simp at h), ?_⟩
        intro s c h
        simp only [Except.ok.injEq, Prod.mk.injEq] at h
        exact ⟨h.2 ▸ hc, by simp [h.1]⟩
      | some e =>
        simp only
        obtain ⟨g1, g2⟩ := handle_agrees env src hb cache hc a e
        constructor
        · intro err h; rw [g1 err h]
        · intro s c h
          obtain ⟨k1, c'', k2⟩ := g2 s c h
          exact ⟨k1, by rw [k2]⟩
    simp only [several]
    cases ho : oneAddr env src es cache a with
    | error e =>
      simp only
      constructor
      · intro e' h
        have : e = e' := by simpa using h
        subst this
        exact ⟨a, List.mem_cons_self, one.1 e ho⟩
      · intro l c h; simp at h
    | ok r =>
      obtain ⟨hr1, hr2⟩ := one.2 r.1 r.2 ho
      obtain ⟨i1, i2⟩ := ih r.2 hr1
      simp only
      cases hv : several env src es r.2 t with
      | error e =>
        simp only
        constructor
        · intro e' h
          obtain ⟨b, hb, h1⟩ := i1 e hv
          have : e = e' := by simpa using h
          subst this
          exact ⟨b, List.mem_cons_of_mem _ hb, h1⟩
        · intro l c h; simp at h
      | ok r' =>
        simp only
        constructor
        · intro e h; simp at h
        · intro l c h
          simp only [Except.ok.injEq, Prod.mk.injEq] at h
          rw [← h.1]
          exact .cons hr2 (i2 r'.1 r'.2 hv)

theorem collect_all_ok (l : List Symbolized) (fold : Err → Except Err Symbolized) :
    collect (l.map fun s => orElse fold (.ok s)) = .ok l := by
  induction l with
  | nil => rfl
  | cons a t ih => simp only [List.map_cons, orElse, collect] at ih ⊢; rw [ih]

theorem forall₂_mem_left {α β : Type} {R : α → β → Prop} {l : List α} {m : List β} (h : List.Forall₂ R l m)
    {a : α} (ha : a ∈ l) : ∃ b, R a b := by
  induction h with
  | nil => cases ha
  | cons h1 h2 ih =>
    rcases List.mem_cons.mp ha with rfl | h
    · exact ⟨_, h1⟩
    · exact ih h

/-- **C43** (process batches): if the batch succeeds it has one result per address, in their order,
each that of a single request.  Missing for the full property: the dispatcher may not go by more
than the name (`C44_dispatcher_shared_wrong`); and a failure for one address is not just reported for
that one (`C43_process_one_fails_wrong`). -/
theorem C43_process_batch_partial (env : Env) (src : ProcessSource) (es : List Entry) (addrs : List Nat)
    (outs : List Symbolized) (hb : ByName env)
    (hm : env.maps src.pid = .ok (es.map .ok)) (hl : Listing es) (hne : es ≠ [])
    (h : symbolize env (.process src) (.absAddr addrs) = .ok outs) :
    List.Forall₂ (fun a o => symbolizeSingle env (.process src) (.absAddr a) = .ok o) addrs outs := by
  obtain ⟨sorted, hp, hs, hr⟩ := userAddrs_several env src es addrs hm hl hne
  have hagree : Agrees env env.dispatched := fun d hd => (hb d hd).2
  obtain ⟨_, g2⟩ := several_agrees env src es hb (fun a => symbolizeSingle env (.process src) (.absAddr a))
    (fun a => single_process env src es a hm hl hne) sorted env.dispatched hagree
  rcases hr with ⟨e, _, h2⟩ | ⟨outs1, cache, outs', h1, h2, h3⟩
  · simp [symbolize, symbolizeImpl, h2] at h
  · simp only [symbolize, symbolizeImpl, h2, collect_all_ok] at h
    have : outs' = outs := by simpa using h
    subst this
    exact h3 _ (g2 outs1 cache h1)

/-- **C43** (failing process batches): a batch fails exactly if a single request for one of its
addresses does; the error is that of such a request. -/
theorem C43_process_batch_error (env : Env) (src : ProcessSource) (es : List Entry) (addrs : List Nat)
    (hb : ByName env) (hm : env.maps src.pid = .ok (es.map .ok)) (hl : Listing es) (hne : es ≠ []) :
    (∀ e, symbolize env (.process src) (.absAddr addrs) = .error e →
      ∃ a ∈ addrs, symbolizeSingle env (.process src) (.absAddr a) = .error e) ∧
    ∀ a ∈ addrs, ∀ e, symbolizeSingle env (.process src) (.absAddr a) = .error e →
      ∃ e', symbolize env (.process src) (.absAddr addrs) = .error e' := by
  constructor
  · intro e h
    obtain ⟨sorted, hp, hs, hr⟩ := userAddrs_several env src es addrs hm hl hne
    have hagree : Agrees env env.dispatched := fun d hd => (hb d hd).2
    obtain ⟨g1, _⟩ := several_agrees env src es hb (fun a => symbolizeSingle env (.process src) (.absAddr a))
      (fun a => single_process env src es a hm hl hne) sorted env.dispatched hagree
    rcases hr with ⟨e', h1, h2⟩ | ⟨outs1, cache, outs', h1, h2, h3⟩
    · simp only [symbolize, symbolizeImpl, h2] at h
      have : e' = e := by simpa using h
      subst this
      obtain ⟨a, ha, k⟩ := g1 e' h1
      exact ⟨a, hp.mem_iff.mp ha, k⟩
    · simp only [symbolize, symbolizeImpl, h2, collect_all_ok] at h
      simp at h
  · intro a ha e h
    cases hh : symbolize env (.process src) (.absAddr addrs) with
    | error e' => exact ⟨e', rfl⟩
    | ok outs =>
      obtain ⟨o, ho⟩ := forall₂_mem_left (C43_process_batch_partial env src es addrs outs hb hm hl hne hh) ha
      rw [h] at ho; simp at ho

/-- **C43 does not hold for processes**: an address for which the file mapped there cannot be opened
makes the whole batch fail, though `symbolize` documents that problems with individual addresses are
reported as such, and though other addresses of the batch can be symbolized on their own. -/
theorem C43_process_one_fails_wrong (env : Env) (src : ProcessSource) (es : List Entry) (a b : Nat)
    (e : Entry) (p : EntryPath) (err : Err) (hb : ByName env)
    (hm : env.maps src.pid = .ok (es.map .ok)) (hl : Listing es) (he : e ∈ es)
    (ha : Has e a) (hov : a - e.start + e.offset < 2 ^ 64) (hd : NotDispatched env e)
    (hp : e.pathName = some (.path p))
    (hx : extension p.symbolicPath ≠ some (ascii "apk") ∧ extension p.symbolicPath ≠ some (ascii "zip"))
    (hf : env.elf (if src.mapFiles then p.mapsFile else p.symbolicPath) p.symbolicPath src.debugSyms = .error err)
    (hu : ∀ e ∈ es, ¬ Has e b) :
    (∃ e', symbolize env (.process src) (.absAddr [b, a]) = .error e') ∧
      symbolizeSingle env (.process src) (.absAddr b) = .ok (.unknown .unmapped) := by
  refine ⟨?_, C44_unmapped env src es b hm hl (List.ne_nil_of_mem he) hu⟩
  have h1 := (C44_file env src es a e p hm hl he ha hov hd hp hx).2 err hf
  exact (C43_process_batch_error env src es [b, a] hb hm hl (List.ne_nil_of_mem he)).2 a (by simp) err h1

/-- **C44 does not hold for a dispatcher that goes by the address range it is given**: of two mappings
with the same name the dispatcher is only asked about the first that is needed; its resolver is used
for the other as well, though on its own that would get another one. -/
theorem C44_dispatcher_shared_wrong (env : Env) (src : ProcessSource) (es : List Entry) (a b : Nat)
    (e e' : Entry) (name : PathName) (d : Nat → Nat → PathName → Except Err (Option Resolver))
    (r r' : Resolver) (s t : Symbolized) (out : Except Err Symbolized)
    (hm : env.maps src.pid = .ok (es.map .ok)) (hl : Listing es) (he : e ∈ es) (he' : e' ∈ es)
    (ha : Has e a) (hb : Has e' b) (hab : a < b)
    (hoa : a - e.start + e.offset < 2 ^ 64) (hob : b - e'.start + e'.offset < 2 ^ 64)
    (hn : e.pathName = some name) (hn' : e'.pathName = some name)
    (hd : env.dispatch = some d) (hfresh : env.dispatched.lookup name = none)
    (hr : d e.start e.stop name = .ok (some r)) (hr' : d e'.start e'.stop name = .ok (some r'))
    (hs : LookedAt env r (a - e.start + e.offset) (.ok s))
    (ht : LookedAt env r (b - e'.start + e'.offset) (.ok t))
    (ho : LookedAt env r' (b - e'.start + e'.offset) out) :
    symbolize env (.process src) (.absAddr [a, b]) = .ok [s, t] ∧
      symbolizeSingle env (.process src) (.absAddr b) = out := by
  constructor
  · obtain ⟨sorted, hp, hsort, h⟩ := userAddrs_several env src es [a, b] hm hl (List.ne_nil_of_mem he)
    have hsorted : sorted = [a, b] := by
      refine List.Perm.eq_of_pairwise (le := (· ≤ ·)) (fun a b _ _ h1 h2 => Nat.le_antisymm h1 h2) hsort ?_ hp
      simp; omega
    subst hsorted
    have hs' := (C44_looked_at env r _ _).mpr hs
    have ht' := (C44_looked_at env r _ _).mpr ht
    have h1 : oneAddr env src es env.dispatched a = .ok (s, (name, some r) :: env.dispatched) := by
      simp only [oneAddr, mappingOf_of_mem es hl e he a ha, handleEntryAddr, addU64_fits _ _ hoa, hn,
        dispatchResolver, hd, hfresh, hr, hs']
    have h2 : oneAddr env src es ((name, some r) :: env.dispatched) b = .ok (t, (name, some r) :: env.dispatched) := by
      simp only [oneAddr, mappingOf_of_mem es hl e' he' b hb, handleEntryAddr, addU64_fits _ _ hob, hn',
        dispatchResolver, hd, List.lookup_cons, beq_self_eq_true, ht']
    simp only [several, h1, h2] at h
    rcases h with ⟨e0, h3, _⟩ | ⟨outs, cache, outs', h3, h4, h5⟩
    · simp at h3
    · simp only [Except.ok.injEq, Prod.mk.injEq] at h3
      simp only [symbolize, symbolizeImpl, h4, collect_all_ok]
      have hf := h5 (fun x o => (x = a ∧ o = s) ∨ (x = b ∧ o = t)) (by
        rw [← h3.1]; exact .cons (Or.inl ⟨rfl, rfl⟩) (.cons (Or.inr ⟨rfl, rfl⟩) .nil))
      cases hf with
      | cons k1 k2 =>
        cases k2 with
        | cons k3 k4 =>
          cases k4
          rcases k1 with ⟨_, rfl⟩ | ⟨k1, _⟩
          · rcases k3 with ⟨k3, _⟩ | ⟨_, rfl⟩
            · omega
            · rfl
          · omega
  · exact (C44_dispatcher env src es b e' name d r' out hm hl he' hb hob hn' hd (Or.inr ⟨hfresh, hr'⟩)).mpr ho

/-! ## A process for the examples -/

/-- A file with one function, at offset 0 and address 0x1000. -/
def demoFile : Resolver where
  find := fun addr _ =>
    if 4096 ≤ addr ∧ addr < 4112 then .ok (.ok ⟨ascii "main", none, 4096, some 16, .unknown, none, []⟩)
    else .ok (.error .unknownAddr)
  toVirt := fun off => .ok (if off < 8192 then some (off + 4096) else none)

/-- A mapping of it, one of a file that cannot be read, two with the same special name and an
anonymous one. -/
def demoMaps : List Entry :=
  [⟨65536, 69632, 5, 0, some (.path ⟨ascii "/proc/1/map_files/10000-11000", ascii "/bin/a"⟩), none⟩,
   ⟨69632, 73728, 5, 0, some (.path ⟨ascii "/proc/1/map_files/11000-12000", ascii "/bin/b"⟩), none⟩,
   ⟨131072, 135168, 5, 0, some (.component (ascii "[anon:x]")), none⟩,
   ⟨135168, 139264, 5, 0, some (.component (ascii "[anon:x]")), none⟩,
   ⟨196608, 200704, 5, 0, none, none⟩]

/-- The process's surroundings; the dispatcher has something for the special mappings, depending on
where they are. -/
def demoEnv (dispatcher : Bool) : Env where
  opts := .basic
  demangle := false
  demangler := ⟨fun _ => none, fun _ => none⟩
  apk := fun _ _ _ _ => .error .notFound
  breakpad := fun _ => .error .notFound
  elf := fun _ path _ => if path = ascii "/bin/a" then .ok demoFile else .error .permissionDenied
  kernel := fun _ => .error .notFound
  gsymData := fun _ => .error .notFound
  gsymFile := fun _ => .error .notFound
  perfMap := fun _ => .ok none
  vdso := fun _ _ _ => .error .notFound
  maps := fun _ => .ok (demoMaps.map .ok)
  dispatch :=
    if dispatcher then
      some (fun start _ name =>
        if name = .component (ascii "[anon:x]") then
          .ok (some { demoFile with toVirt := fun off => .ok (some (if start = 131072 then 4096 + off else 0)) })
        else .ok none)
    else none
  dispatched := []

instance (e : Entry) (addr : Nat) : Decidable (Has e addr) := inferInstanceAs (Decidable (_ ∧ _))

theorem demo_listing : Listing demoMaps := by
  unfold Listing demoMaps
  refine ⟨?_, ?_⟩
  · simp
  · decide

/-- An address in the readable file. -/
example : symbolizeSingle (demoEnv false) (.process ⟨1, true, true, true, true⟩) (.absAddr 65540) =
    .ok (.sym ⟨ascii "main", none, 4096, 4, some 16, none, []⟩) := by
  refine ((C44_file (demoEnv false) _ demoMaps 65540 _ _ rfl demo_listing (List.mem_cons_self) (by decide) (by decide)
    ?_ rfl ?_).1 demoFile _ ?_).mpr ?_
  · intro name _ d hd; simp [demoEnv] at hd
  · decide +kernel
  · simp [demoEnv]
  · exact .found 4100 _ (by decide) (.sym ⟨ascii "main", none, 4096, some 16, .unknown, none, []⟩ _ _ rfl (by decide) rfl rfl)

/-- Of two addresses one is in the file that cannot be read: the batch fails. -/
example : ∃ e, symbolize (demoEnv false) (.process ⟨1, true, true, true, true⟩) (.absAddr [5, 69640]) = .error e := by
  refine (C43_process_one_fails_wrong (demoEnv false) _ demoMaps 69640 5
    ⟨69632, 73728, 5, 0, some (.path ⟨ascii "/proc/1/map_files/11000-12000", ascii "/bin/b"⟩), none⟩ _
    .permissionDenied ?_ rfl demo_listing (by simp [demoMaps]) (by decide) (by decide) ?_ rfl (by decide +kernel)
    (by simp only [demoEnv]; rw [if_neg (by decide +kernel)]) (by decide)).1
  · intro d hd; simp [demoEnv] at hd
  · intro name _ d hd; simp [demoEnv] at hd

/-- The two mappings with the same special name. -/
example : symbolize (demoEnv true) (.process ⟨1, true, true, true, true⟩) (.absAddr [131076, 135172]) =
      .ok [.sym ⟨ascii "main", none, 4096, 4, some 16, none, []⟩, .sym ⟨ascii "main", none, 4096, 4, some 16, none, []⟩] ∧
    symbolizeSingle (demoEnv true) (.process ⟨1, true, true, true, true⟩) (.absAddr 135172) =
      .ok (.unknown .unknownAddr) := by
  refine C44_dispatcher_shared_wrong (demoEnv true) _ demoMaps 131076 135172
    ⟨131072, 135168, 5, 0, some (.component (ascii "[anon:x]")), none⟩
    ⟨135168, 139264, 5, 0, some (.component (ascii "[anon:x]")), none⟩ (.component (ascii "[anon:x]"))
    _ { demoFile with toVirt := fun off => .ok (some (4096 + off)) } { demoFile with toVirt := fun _ => .ok (some 0) }
    _ _ _ rfl demo_listing (by simp [demoMaps]) (by simp [demoMaps])
    (by decide) (by decide) (by decide) (by decide) (by decide) rfl rfl rfl rfl (by simp) (by simp) ?_ ?_ ?_
  · exact .found 4100 _ (by decide) (.sym ⟨ascii "main", none, 4096, some 16, .unknown, none, []⟩ _ _ rfl (by decide) rfl rfl)
  · exact .found 4100 _ (by decide) (.sym ⟨ascii "main", none, 4096, some 16, .unknown, none, []⟩ _ _ rfl (by decide) rfl rfl)
  · exact .found 0 _ (by decide) (.reason .unknownAddr (by decide))

/-- An address in no mapping, and one in the anonymous mapping. -/
example : symbolizeSingle (demoEnv false) (.process ⟨1, true, true, true, true⟩) (.absAddr 5) = .ok (.unknown .unmapped) ∧
    symbolizeSingle (demoEnv false) (.process ⟨1, true, true, true, true⟩) (.absAddr 196610) =
      .ok (.unknown .unknownAddr) :=
  ⟨C44_unmapped _ _ demoMaps 5 rfl demo_listing (by decide) (by decide),
   ((C44_anonymous (demoEnv false) ⟨1, true, true, true, true⟩ demoMaps 196610 ⟨196608, 200704, 5, 0, none, none⟩ rfl
      demo_listing (by simp [demoMaps]) (by decide) (by decide) rfl).2 rfl).2.1 rfl⟩

/-- The vDSO of this process is not available, other special mappings are not supported. -/
example : symbolizeSingle (demoEnv false) (.process ⟨1, true, true, true, true⟩) (.absAddr 131076) =
    .ok (.unknown .unsupported) := by
  refine (C44_component (demoEnv false) _ demoMaps 131076 ⟨131072, 135168, 5, 0, some (.component (ascii "[anon:x]")), none⟩
    _ rfl demo_listing (by simp [demoMaps]) (by decide) (by decide) ?_ rfl).2 (Or.inr (by decide +kernel))
  intro name _ d hd; simp [demoEnv] at hd

/-- Sources and inputs: the ELF file that can be read, and the one that cannot. -/
example : (∃ r, (demoEnv false).elf (ascii "/bin/a") (ascii "/bin/a") true = .ok r) ∧
    accepts (.elf (ascii "/bin/a") true) .absAddr = false ∧
    (demoEnv false).elf (ascii "/bin/b") (ascii "/bin/b") true = .error .permissionDenied :=
  ⟨⟨demoFile, by simp [demoEnv]⟩, rfl, by simp [demoEnv]; decide +kernel⟩

/-- A batch of offsets of the file, one of which is in no segment. -/
example : symbolize (demoEnv false) (.elf (ascii "/bin/a") true) (.fileOffset [8192, 1]) =
    .ok [.unknown .invalidFileOffset, .sym ⟨ascii "main", none, 4096, 1, some 16, none, []⟩] := by
  decide +kernel

end Blazesym.Symbolize
