import Verif.CApi.CallSpec
import Verif.CApi.InputProps

/-!
# C61: the last error
-/

set_option autoImplicit false

namespace Blazesym.CApi

open Blazesym.Error Blazesym.Symbolize Blazesym.Util

theorem fbind_ok_iff {α β : Type} (x : Except Fault α) (f : α → Except Fault β) (b : β) :
    (x >>= f) = .ok b ↔ ∃ (a : α), x = .ok a ∧ f a = .ok b := by
  cases x with
  | error e => simp [bind, Except.bind]
  | ok a => simp [bind, Except.bind]

/-- **C61**.  Whatever calls the threads of a program make, in whatever order: the last error of a thread is the
one of its own last call, and there is none as long as it made no call. -/
theorem C61_history (l l' : LastErr) (steps : List Step) (rets : List Ret) (h : runAll l steps = .ok (l', rets)) :
    (∀ (t : Nat), (∀ (s : Step), s ∈ steps → s.thread ≠ t) → l' t = l t)
      ∧ (∀ (before after : List Step) (s : Step), steps = before ++ s :: after →
          (∀ (s' : Step), s' ∈ after → s'.thread ≠ s.thread) →
          ∃ (ret : Ret), rets[before.length]? = some ret ∧ run s.core s.alloc s.mem s.call = .ok (ret, l' s.thread))
      ∧ rets.length = steps.length := by
  induction steps generalizing l rets with
  | nil =>
    simp only [runAll, Except.ok.injEq, Prod.mk.injEq] at h
    obtain ⟨rfl, rfl⟩ := h
    exact ⟨fun _ _ => rfl, fun before after s hs => by simp at hs, rfl⟩
  | cons s rest ih =>
    rw [runAll] at h
    obtain ⟨⟨ret, err⟩, hr, h⟩ := (fbind_ok_iff _ _ _).mp h
    obtain ⟨⟨l₁, rets₁⟩, hr₁, h⟩ := (fbind_ok_iff _ _ _).mp h
    simp only [pure, Except.pure, Except.ok.injEq, Prod.mk.injEq] at h
    obtain ⟨rfl, rfl⟩ := h
    obtain ⟨h1, h2, h3⟩ := ih _ _ hr₁
    refine ⟨fun t ht => ?_, fun before after s' hs hafter => ?_, by simp [h3]⟩
    · rw [h1 t fun s' hs' => ht s' (by simp [hs']), LastErr.set, if_neg (ht s (by simp)).symm]
    · cases before with
      | nil =>
        simp only [List.nil_append, List.cons.injEq] at hs
        obtain ⟨rfl, rfl⟩ := hs
        refine ⟨ret, rfl, ?_⟩
        rw [h1 s.thread hafter, LastErr.set, if_pos rfl, hr]
      | cons b before =>
        simp only [List.cons_append, List.cons.injEq] at hs
        obtain ⟨rfl, rfl⟩ := hs
        obtain ⟨ret', e1, e2⟩ := h2 before after s' rfl hafter
        exact ⟨ret', by simpa using e1, e2⟩

theorem errCode_ne (e : ErrorKind) : errCode e ≠ 0 := by cases e <;> decide

theorem errOf_ne {α : Type} (r : Except ErrorKind α) : errOf r ≠ 0 ↔ ∃ (e : ErrorKind), r = .error e := by
  cases r with
  | ok x => simp [errOf, ok]
  | error e => simp [errOf, errCode_ne]

theorem symbolizeImpl_null {core : Core} {alloc : Nat → Option Nat} {m : Mem} {src : Source}
    {kind : List Nat → Input (List Nat)} {addrs cnt : Nat} {ret : Ret} {err : Int}
    (h : symbolizeImpl core alloc m src kind addrs cnt = .ok (ret, err)) : err ≠ 0 → ret = .null := by
  rw [symbolizeImpl] at h
  obtain ⟨xs, _, h⟩ := (fbind_ok_iff _ _ _).mp h
  intro hne
  split at h
  · simp only [pure, Except.pure, Except.ok.injEq, Prod.mk.injEq] at h; exact h.1.symm
  · obtain ⟨buf, _, h⟩ := (fbind_ok_iff _ _ _).mp h
    cases buf with
    | none => simp only [reportBuffer, pure, Except.pure, Except.ok.injEq, Prod.mk.injEq] at h; exact h.1.symm
    | some b =>
      simp only [reportBuffer, pure, Except.pure, Except.ok.injEq, Prod.mk.injEq] at h; exact absurd h.2.symm hne
  · simp only [pure, Except.pure, Except.ok.injEq, Prod.mk.injEq] at h; exact h.1.symm

theorem normalizeImpl_null {core : Core} {m : Mem} {pid addrs cnt : Nat} {opts : NormalizeOpts} {ret : Ret} {err : Int}
    (h : normalizeImpl core m pid addrs cnt opts = .ok (ret, err)) : err ≠ 0 ↔ ret = .null := by
  rw [normalizeImpl] at h
  obtain ⟨xs, _, h⟩ := (fbind_ok_iff _ _ _).mp h
  split at h
  all_goals
    simp only [pure, Except.pure, Except.ok.injEq, Prod.mk.injEq] at h
    obtain ⟨rfl, rfl⟩ := h
    simp [ok, errCode_ne]

/-- **C61**.  Functions that return a pointer return `NULL` if they set an error, and only then, except for
those where `NULL` also stands for an empty answer. -/
theorem C61_null (core : Core) (alloc : Nat → Option Nat) (m : Mem) (call : Call) (hp : call.pointer) (ret : Ret) (err : Int)
    (h : run core alloc m call = .ok (ret, err)) :
    (err ≠ 0 → ret = .null) ∧ (ret = .null → err ≠ 0 ∨ call.mayBeEmpty) := by
  cases call with
  | symbolizerNew => simp only [run, Except.ok.injEq, Prod.mk.injEq] at h; obtain ⟨rfl, rfl⟩ := h; simp [ok]
  | normalizerNew => simp only [run, Except.ok.injEq, Prod.mk.injEq] at h; obtain ⟨rfl, rfl⟩ := h; simp [ok]
  | inspectorNew => simp only [run, Except.ok.injEq, Prod.mk.injEq] at h; obtain ⟨rfl, rfl⟩ := h; simp [ok]
  | symbolizerNewOpts opts =>
    rw [run] at h
    obtain ⟨r, _, h⟩ := (fbind_ok_iff _ _ _).mp h
    cases r <;> simp only [pure, Except.pure, Except.ok.injEq, Prod.mk.injEq] at h <;> obtain ⟨rfl, rfl⟩ := h <;>
      simp [ok, errCode_ne]
  | normalizerNewOpts opts =>
    rw [run] at h
    obtain ⟨r, _, h⟩ := (fbind_ok_iff _ _ _).mp h
    cases r <;> simp only [pure, Except.pure, Except.ok.injEq, Prod.mk.injEq] at h <;> obtain ⟨rfl, rfl⟩ := h <;>
      simp [ok, errCode_ne]
  | symbolize fn src addrs cnt =>
    refine ⟨?_, fun _ => Or.inr trivial⟩
    rw [run] at h
    obtain ⟨r, _, h⟩ := (fbind_ok_iff _ _ _).mp h
    cases r with
    | error e => simp only [pure, Except.pure, Except.ok.injEq, Prod.mk.injEq] at h; exact fun _ => h.1.symm
    | ok s => exact symbolizeImpl_null h
  | cacheElf src => exact absurd hp id
  | cacheProcess src => exact absurd hp id
  | procmapQuery => exact absurd hp id
  | normalize pid addrs cnt =>
    rw [run] at h
    have := normalizeImpl_null h
    exact ⟨this.mp, fun h => Or.inl (this.mpr h)⟩
  | normalizeOpts pid addrs cnt opts =>
    rw [run] at h
    obtain ⟨r, _, h⟩ := (fbind_ok_iff _ _ _).mp h
    cases r with
    | error e =>
      simp only [pure, Except.pure, Except.ok.injEq, Prod.mk.injEq] at h
      obtain ⟨rfl, rfl⟩ := h
      simp [errCode_ne]
    | ok s =>
      have := normalizeImpl_null h
      exact ⟨this.mp, fun h => Or.inl (this.mpr h)⟩
  | inspect src names cnt =>
    rw [run] at h
    obtain ⟨r, _, h⟩ := (fbind_ok_iff _ _ _).mp h
    cases r with
    | error e =>
      simp only [pure, Except.pure, Except.ok.injEq, Prod.mk.injEq] at h
      obtain ⟨rfl, rfl⟩ := h
      simp [errCode_ne]
    | ok s =>
      simp only [] at h
      obtain ⟨ns, _, h⟩ := (fbind_ok_iff _ _ _).mp h
      obtain ⟨ss, _, h⟩ := (fbind_ok_iff _ _ _).mp h
      obtain ⟨us, _, h⟩ := (fbind_ok_iff _ _ _).mp h
      split at h
      · obtain ⟨buf, _, h⟩ := (fbind_ok_iff _ _ _).mp h
        cases buf with
        | none =>
          simp only [reportBuffer, pure, Except.pure, Except.ok.injEq, Prod.mk.injEq] at h
          obtain ⟨rfl, rfl⟩ := h
          simp [errCode_ne]
        | some b =>
          simp only [reportBuffer, pure, Except.pure, Except.ok.injEq, Prod.mk.injEq] at h
          obtain ⟨rfl, rfl⟩ := h
          simp [ok]
      · simp only [pure, Except.pure, Except.ok.injEq, Prod.mk.injEq] at h
        obtain ⟨rfl, rfl⟩ := h
        simp [errCode_ne]
  | buildId path =>
    refine ⟨?_, fun _ => Or.inr trivial⟩
    rw [run] at h
    obtain ⟨s, _, h⟩ := (fbind_ok_iff _ _ _).mp h
    intro hne
    split at h
    · simp only [pure, Except.pure, Except.ok.injEq, Prod.mk.injEq] at h; exact h.1.symm
    · split at h
      · simp only [pure, Except.pure, Except.ok.injEq, Prod.mk.injEq] at h; exact h.1.symm
      · simp only [pure, Except.pure, Except.ok.injEq, Prod.mk.injEq] at h; exact absurd h.2.symm hne
    · simp only [pure, Except.pure, Except.ok.injEq, Prod.mk.injEq] at h; exact h.1.symm

/-- **C61**.  An input structure that is not acceptable is reported as `BLAZE_ERR_INVALID_INPUT`, and nothing
else is done. -/
theorem C61_invalid (core : Core) (alloc : Nat → Option Nat) (m : Mem) (call : Call) (type : InputType) (p n : Nat)
    (hc : call.struct = some (type, p)) (h : Struct m p n) (ha : ¬Acceptable type m p n) :
    run core alloc m call = .ok (.null, -256) ∨ run core alloc m call = .ok (.void, -256) ∧ ¬call.pointer := by
  have key {α : Type} (convert : Bytes → Except Fault α) : inputAs m p type convert = .ok (.error .invalidInput) := by
    rw [inputAs, C60_refused_partial type m p n h ha]; rfl
  cases call with
  | symbolize fn src addrs cnt =>
    cases fn <;>
      (simp only [Call.struct, Option.some.injEq, Prod.mk.injEq] at hc
       obtain ⟨rfl, rfl⟩ := hc
       left
       rw [run, sourceOf, key]
       rfl)
  | symbolizerNewOpts opts =>
    simp only [Call.struct, Option.some.injEq, Prod.mk.injEq] at hc
    obtain ⟨rfl, rfl⟩ := hc
    left; rw [run, key]; rfl
  | normalizerNewOpts opts =>
    simp only [Call.struct, Option.some.injEq, Prod.mk.injEq] at hc
    obtain ⟨rfl, rfl⟩ := hc
    left; rw [run, key]; rfl
  | normalizeOpts pid addrs cnt opts =>
    simp only [Call.struct, Option.some.injEq, Prod.mk.injEq] at hc
    obtain ⟨rfl, rfl⟩ := hc
    left; rw [run, key]; rfl
  | inspect src names cnt =>
    simp only [Call.struct, Option.some.injEq, Prod.mk.injEq] at hc
    obtain ⟨rfl, rfl⟩ := hc
    left; rw [run, key]; rfl
  | cacheElf src =>
    simp only [Call.struct, Option.some.injEq, Prod.mk.injEq] at hc
    obtain ⟨rfl, rfl⟩ := hc
    right; rw [run, key]; exact ⟨rfl, id⟩
  | cacheProcess src =>
    simp only [Call.struct, Option.some.injEq, Prod.mk.injEq] at hc
    obtain ⟨rfl, rfl⟩ := hc
    right; rw [run, key]; exact ⟨rfl, id⟩
  | _ => simp [Call.struct] at hc

/-- **C61**.  What the symbolization functions return and report. -/
theorem C61_symbolize (core : Core) (alloc : Nat → Option Nat) (m : Mem) (fn : SymbolizeFn) (src addrs cnt : Nat)
    (s : Source) (i : Input (List Nat)) (h : SymbolizeArgs m src addrs cnt fn s i) :
    (∀ (e : ErrorKind), core.symbolize s i = .error e →
        run core alloc m (.symbolize fn src addrs cnt) = .ok (.null, errCode e))
      ∧ (core.symbolize s i = .ok [] → run core alloc m (.symbolize fn src addrs cnt) = .ok (.null, 0))
      ∧ ∀ (results : List Symbolized), core.symbolize s i = .ok results → results ≠ [] →
        (convertResults alloc results = .ok none →
            run core alloc m (.symbolize fn src addrs cnt) = .ok (.null, -12))
          ∧ ∀ (p : Nat) (st : Cur), convertResults alloc results = .ok (some (p, st)) →
            run core alloc m (.symbolize fn src addrs cnt) = .ok (.buffer p st, 0) := by
  obtain ⟨xs, hx, hs, hi⟩ : ∃ (xs : List Nat), userArray m addrs 8 cnt = .ok xs ∧ sourceOf m src fn = .ok (.ok s)
      ∧ i = kindOf fn xs := by
    cases h <;> rename_i xs hx h <;> exact ⟨xs, hx, h, rfl⟩
  have hrun : run core alloc m (.symbolize fn src addrs cnt) = symbolizeImpl core alloc m s (kindOf fn) addrs cnt := by
    rw [run, hs]; rfl
  rw [hrun, symbolizeImpl, hx, hi]
  simp only [bind, Except.bind]
  refine ⟨fun e he => ?_, fun he => ?_, fun results he hne => ?_⟩
  · rw [he]; rfl
  · rw [he]; rfl
  · cases results with
    | nil => exact absurd rfl hne
    | cons r rs =>
      rw [he]
      simp only []
      refine ⟨fun hc => ?_, fun p st hc => ?_⟩
      · rw [hc]; rfl
      · rw [hc]; rfl

/-- **C61**.  What the functions that cache report. -/
theorem C61_cache (core : Core) (alloc : Nat → Option Nat) (m : Mem) (src : Nat) :
    (∀ (path : Bytes), inputAs m src .cacheElf (cacheElf m) = .ok (.ok path) →
        (core.cacheElf path = .ok () → run core alloc m (.cacheElf src) = .ok (.void, 0))
          ∧ ∀ (e : ErrorKind), core.cacheElf path = .error e → run core alloc m (.cacheElf src) = .ok (.void, errCode e))
      ∧ ∀ (pid : Nat) (vmas : Bool), inputAs m src .cacheProcess cacheProcess = .ok (.ok (pid, vmas)) →
        (core.cacheProcess (pid, vmas) = .ok () → run core alloc m (.cacheProcess src) = .ok (.void, 0))
          ∧ ∀ (e : ErrorKind), core.cacheProcess (pid, vmas) = .error e →
              run core alloc m (.cacheProcess src) = .ok (.void, errCode e) := by
  refine ⟨fun path hp => ⟨fun h => ?_, fun e h => ?_⟩, fun pid vmas hp => ⟨fun h => ?_, fun e h => ?_⟩⟩
  all_goals
    rw [run, hp]
    simp only [bind, Except.bind, h]
    rfl

/-- **C61**.  What the normalization functions return and report. -/
theorem C61_normalize (core : Core) (alloc : Nat → Option Nat) (m : Mem) (pid addrs cnt : Nat) (xs : List Nat)
    (hx : userArray m addrs 8 cnt = .ok xs) :
    ((core.normalize pid xs ⟨false, false, false⟩ = .ok () →
          run core alloc m (.normalize pid addrs cnt) = .ok (.object, 0))
        ∧ ∀ (e : ErrorKind), core.normalize pid xs ⟨false, false, false⟩ = .error e →
          run core alloc m (.normalize pid addrs cnt) = .ok (.null, errCode e))
      ∧ ∀ (p : Nat) (opts : NormalizeOpts), inputAs m p .normalizeOpts normalizeOpts = .ok (.ok opts) →
        (core.normalize pid xs opts = .ok () → run core alloc m (.normalizeOpts pid addrs cnt p) = .ok (.object, 0))
          ∧ ∀ (e : ErrorKind), core.normalize pid xs opts = .error e →
            run core alloc m (.normalizeOpts pid addrs cnt p) = .ok (.null, errCode e) := by
  refine ⟨⟨fun h => ?_, fun e h => ?_⟩, fun p opts hp => ⟨fun h => ?_, fun e h => ?_⟩⟩
  · rw [run, normalizeImpl, hx]; simp only [bind, Except.bind, h]; rfl
  · rw [run, normalizeImpl, hx]; simp only [bind, Except.bind, h]; rfl
  · rw [run, hp]; simp only [bind, Except.bind, normalizeImpl, hx, h]; rfl
  · rw [run, hp]; simp only [bind, Except.bind, normalizeImpl, hx, h]; rfl

theorem utf8Strings_of {ss : List Bytes} (h : ∀ (s : Bytes), s ∈ ss → isUtf8 s = true) : utf8Strings ss = .ok ss := by
  induction ss with
  | nil => rfl
  | cons s ss ih =>
    rw [utf8Strings, h s (by simp), ih fun s' hs' => h s' (by simp [hs'])]
    rfl

/-- **C61**.  What symbol lookup returns and reports, provided that all names are UTF-8. -/
theorem C61_inspect_partial (core : Core) (alloc : Nat → Option Nat) (m : Mem) (src names : Nat) (ptrs : List Nat)
    (ss : List Bytes) (path : Bytes) (debugSyms : Bool)
    (hs : inputAs m src .inspectElf (inspectElf m) = .ok (.ok (path, debugSyms)))
    (hn : NumsAt m names 8 ptrs) (h0 : names = 0 → ptrs = []) (hf : List.Forall₂ (CStrAt m) ptrs ss)
    (hu : ∀ (s : Bytes), s ∈ ss → isUtf8 s = true) :
    (∀ (e : ErrorKind), core.lookup (path, debugSyms) ss = .error e →
        run core alloc m (.inspect src names ptrs.length) = .ok (.null, errCode e))
      ∧ ∀ (lists : List (List SymInfo)), core.lookup (path, debugSyms) ss = .ok lists →
        (convertSymLists alloc lists = .ok none → run core alloc m (.inspect src names ptrs.length) = .ok (.null, -12))
          ∧ ∀ (p : Nat) (st : Cur), convertSymLists alloc lists = .ok (some (p, st)) →
            run core alloc m (.inspect src names ptrs.length) = .ok (.buffer p st, 0) := by
  rw [run, hs]
  simp only [bind, Except.bind]
  rw [(C60_array m names 8 ptrs hn h0).1]
  simp only
  rw [cstrings_of hf]
  simp only
  rw [utf8Strings_of hu]
  simp only
  refine ⟨fun e he => ?_, fun lists he => ⟨fun hc => ?_, fun p st hc => ?_⟩⟩
  · rw [he]; rfl
  · rw [he]; simp only [hc]; rfl
  · rw [he]; simp only [hc]; rfl

/-- **C61**.  What reading a build ID returns and reports. -/
theorem C61_build_id (core : Core) (alloc : Nat → Option Nat) (m : Mem) (p : Nat) (path : Bytes) (hp : CStrAt m p path) :
    (∀ (e : ErrorKind), core.buildId path = .error e → run core alloc m (.buildId p) = .ok (.null, errCode e))
      ∧ (core.buildId path = .ok none → run core alloc m (.buildId p) = .ok (.null, 0))
      ∧ ∀ (id : Bytes), core.buildId path = .ok (some id) →
        (alloc id.length = none → run core alloc m (.buildId p) = .ok (.null, -12))
          ∧ (alloc id.length ≠ none → run core alloc m (.buildId p) = .ok (.bytes id, 0)) := by
  rw [run, fromCStr_of hp]
  simp only [bind, Except.bind]
  refine ⟨fun e he => ?_, fun he => ?_, fun id he => ⟨fun ha => ?_, fun ha => ?_⟩⟩
  · rw [he]; rfl
  · rw [he]; rfl
  · rw [he]; simp only [ha]; rfl
  · rw [he]
    cases hal : alloc id.length with
    | none => exact absurd hal ha
    | some a => simp only [hal]; rfl

/-- **C61**.  What the check for kernel support returns and reports: `false` if it failed. -/
theorem C61_procmap (core : Core) (alloc : Nat → Option Nat) (m : Mem) :
    (∀ (b : Bool), core.procmapQuery = .ok b → run core alloc m .procmapQuery = .ok (.bool b, 0))
      ∧ ∀ (e : ErrorKind), core.procmapQuery = .error e → run core alloc m .procmapQuery = .ok (.bool false, errCode e) := by
  refine ⟨fun b h => ?_, fun e h => ?_⟩
  all_goals
    rw [run, h]
    rfl

/-- **C61**.  Objects are created, with options that are acceptable. -/
theorem C61_new (core : Core) (alloc : Nat → Option Nat) (m : Mem) :
    run core alloc m .symbolizerNew = .ok (.object, 0) ∧ run core alloc m .normalizerNew = .ok (.object, 0)
      ∧ run core alloc m .inspectorNew = .ok (.object, 0)
      ∧ (∀ (p : Nat) (opts : SymbolizerOpts), inputAs m p .symbolizerOpts (symbolizerOpts m) = .ok (.ok opts) →
          run core alloc m (.symbolizerNewOpts p) = .ok (.object, 0))
      ∧ ∀ (p : Nat) (opts : NormalizerOpts), inputAs m p .normalizerOpts normalizerOpts = .ok (.ok opts) →
          run core alloc m (.normalizerNewOpts p) = .ok (.object, 0) := by
  refine ⟨rfl, rfl, rfl, fun p opts h => ?_, fun p opts h => ?_⟩
  · rw [run, h]; rfl
  · rw [run, h]; rfl

/-- A `blaze_inspect_elf_src` at 4096 with the path "x" at 4200, and an array of one name at 4208, which is the
byte 255 and at 4216. -/
def badName : Mem :=
  Mem.set (Mem.set (fun _ => none) 4096 (leBytes 8 17 ++ leBytes 8 4200 ++ [0])) 4200
    ([120, 0, 0, 0, 0, 0, 0, 0] ++ leBytes 8 4216 ++ [255, 0])

/-- The full property would be that a symbol lookup always comes back, with an error if something is wrong.  It
aborts the program if a name is not UTF-8. -/
theorem C61_inspect_wrong (core : Core) (alloc : Nat → Option Nat) :
    CStrAt badName 4216 [255] ∧ run core alloc badName (.inspect 4096 4208 1) = .error .abort := by
  have h255 : CStrAt badName 4216 [255] := by
    refine ⟨fun i hi => ?_, by decide, by decide⟩
    have : i = 0 ∨ i = 1 := by simp at hi; omega
    rcases this with rfl | rfl <;> rfl
  have hx : CStrAt badName 4200 [120] := by
    refine ⟨fun i hi => ?_, by decide, by decide⟩
    have : i = 0 ∨ i = 1 := by simp at hi; omega
    rcases this with rfl | rfl <;> rfl
  have hs : Struct badName 4096 17 := by
    refine ⟨rfl, rfl, fun i hi => ?_⟩
    have : badName (4096 + i) = Mem.set (fun _ => none) 4096 (leBytes 8 17 ++ leBytes 8 4200 ++ [0]) (4096 + i) := by
      rw [badName, Mem.set, if_neg (by omega)]
    rw [this, Mem.set, if_pos ⟨by omega, by simp [leBytes_length]; omega⟩, Nat.add_sub_cancel_left,
      List.getElem?_eq_getElem (by simp [leBytes_length]; omega)]
    rfl
  have ha : Acceptable .inspectElf badName 4096 17 := by
    refine ⟨by omega, fun i h1 h2 => ?_⟩
    have : reservedOffset .inspectElf = 17 := rfl
    omega
  refine ⟨h255, ?_⟩
  rw [run, C60_inspect hs ha 4200 [120] false rfl hx rfl]
  simp only [bind, Except.bind]
  rw [show (1 : Nat) = [4216].length from rfl, (C60_array badName 4208 8 [4216] ⟨rfl, trivial⟩ (by decide)).1]
  simp only
  rw [cstrings_of (List.Forall₂.cons h255 List.Forall₂.nil)]
  simp only
  have : utf8Strings [[255]] = .error .abort := by
    rw [utf8Strings, show isUtf8 [255] = false by decide +kernel]; rfl
  rw [this]

/-- A program with two threads, one of which fails to read a build ID. -/
def demoSteps (core : Core) : List Step :=
  [⟨1, core, fun _ => some 4096, badName, .buildId 4200⟩, ⟨2, core, fun _ => some 4096, badName, .symbolizerNew⟩]

/-- The hypotheses of `C61_history` are met: the error of the first thread survives the call of the second. -/
example (core : Core) (h : core.buildId [120] = .error .notFound) :
    ∃ (l : LastErr) (rets : List Ret), runAll LastErr.init (demoSteps core) = .ok (l, rets) ∧ l 1 = -2 ∧ l 2 = 0
      ∧ l 3 = 0 := by
  have hx : CStrAt badName 4200 [120] := by
    refine ⟨fun i hi => ?_, by decide, by decide⟩
    have : i = 0 ∨ i = 1 := by simp at hi; omega
    rcases this with rfl | rfl <;> rfl
  have h1 := (C61_build_id core (fun _ => some 4096) badName 4200 [120] hx).1 .notFound h
  refine ⟨(LastErr.init.set 1 (errCode .notFound)).set 2 0, [.null, .object], ?_, rfl, rfl, rfl⟩
  simp only [demoSteps, runAll, bind, Except.bind, h1, (C61_new core (fun _ => some 4096) badName).1]
  rfl

end Blazesym.CApi
