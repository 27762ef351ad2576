import Verif.CApi.DispatchSpec
import Verif.CApi.Program
import Verif.CApi.OutputLemmas
import Verif.CApi.InputProps
import Verif.Session.DebugAnswerProps

/-! Property theorems C88 (dispatchers of the C interface). -/

set_option autoImplicit false

namespace Blazesym.CApi

open Blazesym.Symbolize Blazesym.Spec.Symbolize
open Blazesym.Maps (EntryPath)

variable {alloc : Allocator}

theorem cstringNew_spec (ha : GoodAllocator alloc) {s : Store} (hs : s.Valid) {str : Bytes} (h0 : 0 ∉ str) :
    cstringNew alloc s str = .error .outOfMemory
      ∨ ∃ (p : Nat) (s' : Store), cstringNew alloc s str = .ok (.ok (p, s')) ∧ Ext s s' [⟨p, str.length + 1, 1⟩]
        ∧ CStrAt s'.mem p str := by
  unfold cstringNew
  rw [if_neg h0]
  cases hb : s.box alloc 1 (init (str ++ [0])) with
  | error f => exact Or.inl (by rw [box_error hb])
  | ok r =>
    obtain ⟨a, s'⟩ := r
    obtain ⟨e, hp, hh, hl⟩ := box_spec ha hs (by decide) (by decide) hb
    rw [init_length, List.length_append, List.length_singleton] at e hl
    rw [owned, if_neg (by omega)] at e
    exact Or.inr ⟨a, s', rfl, e, hh.holds, h0, by omega⟩

theorem libcFree_spec {s : Store} (hs : s.Valid) {p size : Nat} (h : (⟨p, size, 16⟩ : Block) ∈ s.blocks) :
    ∃ (t : Store), libcFree s p = .ok t ∧ Freed s t [⟨p, size, 16⟩] := by
  obtain ⟨hp1, hp2, _⟩ := hs.1 _ h
  have hfind : s.blocks.find? (fun b => b.addr == p && b.align == 16) = some ⟨p, size, 16⟩ := by
    cases hf : s.blocks.find? (fun b => b.addr == p && b.align == 16) with
    | none =>
      rw [List.find?_eq_none] at hf
      simpa using hf _ h
    | some b =>
      have hb := List.mem_of_find?_eq_some hf
      have hq := List.find?_some hf
      simp only [Bool.and_eq_true, beq_iff_eq] at hq
      by_contra hne
      have hne : b ≠ ⟨p, size, 16⟩ := fun h => hne (by rw [h])
      obtain ⟨q1, _, _⟩ := hs.1 b hb
      have hap : Block.Apart b ⟨p, size, 16⟩ :=
        have : Std.Symm Block.Apart := ⟨fun _ _ hxy => apart_symm hxy⟩
        hs.2.forall hb h hne
      simp only [Block.Apart] at hap
      simp only at hp1
      omega
  obtain ⟨t, ht, hfr⟩ := free_spec (s := s) (a := p) (size := size) (align := 16) (by
    intro b hb
    rw [owned, if_neg (by simp only at hp1; omega), List.mem_singleton] at hb
    rw [hb]; exact h)
  rw [owned, if_neg (by simp only at hp1; omega)] at hfr
  refine ⟨t, ?_, hfr⟩
  rw [libcFree, if_neg (by simp only at hp2; omega), hfind]
  exact ht

theorem cstringDrop_spec {s : Store} {p : Nat} {str : Bytes} (h : (⟨p, str.length + 1, 1⟩ : Block) ∈ s.blocks) :
    ∃ (t : Store), cstringDrop s p str = .ok t ∧ Freed s t [⟨p, str.length + 1, 1⟩] := by
  obtain ⟨t, ht, hf⟩ := free_spec (s := s) (a := p) (size := str.length + 1) (align := 1) (by
    intro b hb
    rw [owned, if_neg (by omega), List.mem_singleton] at hb
    rw [hb]; exact h)
  rw [owned, if_neg (by omega)] at hf
  exact ⟨t, ht, hf⟩

/-- A block that was not freed is still there. -/
theorem Freed.mem_of_ne {s t : Store} {b c : Block} (h : Freed s t [b]) (hc : c ∈ s.blocks) (hne : c ≠ b) : c ∈ t.blocks := by
  have := h.blocks.mem_iff.1 hc
  simp only [List.singleton_append, List.mem_cons] at this
  exact this.resolve_left hne

theorem Freed.only {s t : Store} {bs : List Block} (h : Freed s t bs) : OnlyFreed s t bs :=
  ⟨h.blocks, fun x hx => h.same x hx⟩

theorem cstrAt_unique {m : Mem} {a : Nat} {s t : Bytes} (h : CStrAt m a s) (h' : CStrAt m a t) : s = t := by
  have := fromCStr_of h
  rw [fromCStr_of h'] at this
  exact (Except.ok.inj this).symm

/-- **C88** (the call) For a mapping with a path, the C function is called once, with the kernel's link to the file
and its name as strings.  If it returns `NULL`, the symbolizer does what it would do without it; otherwise the file
with the returned path is opened, and if that is not possible, that is an error.  Afterwards the returned string
and the two others are freed, each once and nothing else, also in case of an error; so if the function leaves
nothing else allocated, no memory is lost.  The only other outcome is that there is no memory. -/
theorem C88_call (ha : GoodAllocator alloc) {s : Store} (hs : s.Valid) (opened : Bytes → Except Err Resolver)
    (cb : DispatchCb) (ctx : Nat) (p : EntryPath) (h1 : 0 ∉ p.mapsFile) (h2 : 0 ∉ p.symbolicPath)
    (hcb : ∀ (during : Store) (maps sym : Nat), Called s p during maps sym →
      AnswersWell [⟨sym, p.symbolicPath.length + 1, 1⟩, ⟨maps, p.mapsFile.length + 1, 1⟩]
        (cb during maps sym ctx).1 (cb during maps sym ctx).2) :
    dispatch opened alloc cb ctx s (.path p) = .error .outOfMemory ∨
    ∃ (during : Store) (maps sym : Nat) (answer : Option Bytes) (string : List Block)
      (result : Except Err (Option Resolver)) (after : Store),
      Called s p during maps sym ∧
      Answer (cb during maps sym ctx).1 (cb during maps sym ctx).2 answer string ∧
      dispatch opened alloc cb ctx s (.path p) = .ok (result, after) ∧
      Dispatched (fun _ _ => answer) opened (.path p) result ∧
      OnlyFreed (cb during maps sym ctx).2 after
        (string ++ [⟨sym, p.symbolicPath.length + 1, 1⟩, ⟨maps, p.mapsFile.length + 1, 1⟩]) ∧
      ((cb during maps sym ctx).2.blocks.Perm (string ++ during.blocks) → after.blocks.Perm s.blocks) := by
  rcases cstringNew_spec ha hs h1 with h | ⟨maps, s1, hm, e1, c1⟩
  · exact Or.inl (by simp only [dispatch, h, bind, Except.bind])
  rcases cstringNew_spec ha e1.valid h2 with h | ⟨sym, s2, hm2, e2, c2⟩
  · exact Or.inl (by simp only [dispatch, hm, h, bind, Except.bind])
  right
  have hcalled : Called s p s2 maps sym := by
    refine ⟨e2.valid, ?_, (e1.trans e2).same, ?_, c2⟩
    · exact e2.blocks.trans (e1.blocks.cons _)
    · refine ⟨c1.1.same ?_, c1.2⟩
      have := (e1.kept e2).at (List.mem_singleton_self _)
      simpa using this
  have hw := hcb s2 maps sym hcalled
  have hne : (⟨maps, p.mapsFile.length + 1, 1⟩ : Block) ≠ ⟨sym, p.symbolicPath.length + 1, 1⟩ := by
    intro hx
    have hp := pairwise_perm hcalled.blocks hcalled.valid.2
    have := (List.pairwise_cons.1 hp).1 _ List.mem_cons_self
    rw [hx] at this
    simp only [Block.Apart] at this
    omega
  -- the two strings, after memory `t` in which both are
  have hdrop : ∀ (t : Store), (⟨sym, p.symbolicPath.length + 1, 1⟩ : Block) ∈ t.blocks →
      (⟨maps, p.mapsFile.length + 1, 1⟩ : Block) ∈ t.blocks →
      ∃ (t1 t2 : Store), cstringDrop t sym p.symbolicPath = .ok t1 ∧ cstringDrop t1 maps p.mapsFile = .ok t2 ∧
        Freed t t2 [⟨sym, p.symbolicPath.length + 1, 1⟩, ⟨maps, p.mapsFile.length + 1, 1⟩] := by
    intro t k1 k2
    obtain ⟨t1, d1, f1⟩ := cstringDrop_spec k1
    obtain ⟨t2, d2, f2⟩ := cstringDrop_spec (f1.mem_of_ne k2 hne)
    exact ⟨t1, t2, d1, d2, f1.trans f2⟩
  have hk1 := hw.kept _ List.mem_cons_self
  have hk2 := hw.kept ⟨maps, p.mapsFile.length + 1, 1⟩ (by simp)
  have hbal : ∀ (string : List Block) (after : Store), OnlyFreed (cb s2 maps sym ctx).2 after
      (string ++ [⟨sym, p.symbolicPath.length + 1, 1⟩, ⟨maps, p.mapsFile.length + 1, 1⟩]) →
      (cb s2 maps sym ctx).2.blocks.Perm (string ++ s2.blocks) → after.blocks.Perm s.blocks := by
    intro string after ho hp
    have h3 := ho.blocks.symm.trans (hp.trans ((List.Perm.refl string).append hcalled.blocks))
    rw [List.append_assoc, List.perm_append_left_iff] at h3
    exact ((List.perm_append_left_iff [(⟨sym, p.symbolicPath.length + 1, 1⟩ : Block),
      ⟨maps, p.mapsFile.length + 1, 1⟩]).1 h3)
  by_cases hr : (cb s2 maps sym ctx).1 = 0
  · obtain ⟨t1, t2, d1, d2, f⟩ := hdrop _ hk1 hk2
    refine ⟨s2, maps, sym, none, [], .ok none, t2, hcalled, ⟨hr, rfl⟩, ?_, .usual p h1 h2 rfl, f.only, hbal [] t2 f.only⟩
    simp only [dispatch, hm, hm2, dispatchCall, hr, if_true, d1, d2, bind, Except.bind, pure, Except.pure]
  · obtain ⟨path, size, q1, q2, q3⟩ := hw.string hr
    obtain ⟨t, ht, hf⟩ := libcFree_spec hw.valid q3
    obtain ⟨t1, t2, d1, d2, f⟩ := hdrop t
      (hf.mem_of_ne hk1 (by intro hx; simp only [Block.mk.injEq] at hx; omega))
      (hf.mem_of_ne hk2 (by intro hx; simp only [Block.mk.injEq] at hx; omega))
    refine ⟨s2, maps, sym, some path, [⟨(cb s2 maps sym ctx).1, size, 16⟩], (opened path).map some, t2, hcalled,
      ⟨hr, q1, size, rfl, q3⟩, ?_, ?_, (hf.trans f).only, hbal _ t2 (hf.trans f).only⟩
    · simp only [dispatch, hm, hm2, dispatchCall, hr, if_false, fromCStr_of q1, ht, d1, d2, bind, Except.bind, pure,
        Except.pure]
    · cases ho : opened path with
      | error e => exact .failed p path e h1 h2 rfl ho
      | ok r => exact .file p path r h1 h2 rfl ho

/-- **C88** (no call) Mappings without a path are left to the symbolizer.  A path with a NUL is an error.  The
function is not called in these cases, whatever it would do, and memory is as before. -/
theorem C88_no_call (ha : GoodAllocator alloc) {s : Store} (hs : s.Valid) (opened : Bytes → Except Err Resolver)
    (cb : DispatchCb) (ctx : Nat) :
    (∀ (c : Bytes), dispatch opened alloc cb ctx s (.component c) = .ok (.ok none, s)) ∧
    (∀ (p : EntryPath), 0 ∈ p.mapsFile ∨ 0 ∈ p.symbolicPath →
      dispatch opened alloc cb ctx s (.path p) = .error .outOfMemory ∨
      ∃ (after : Store), dispatch opened alloc cb ctx s (.path p) = .ok (.error .invalidData, after) ∧
        after.blocks.Perm s.blocks ∧ Unchanged s.mem after.mem s.blocks) := by
  refine ⟨fun _ => rfl, fun p hp => ?_⟩
  by_cases h1 : 0 ∈ p.mapsFile
  · refine Or.inr ⟨s, ?_, List.Perm.refl _, unchanged_refl _ _⟩
    simp only [dispatch, cstringNew, h1, if_true, bind, Except.bind, pure, Except.pure]
  · have h2 := hp.resolve_left h1
    rcases cstringNew_spec ha hs h1 with h | ⟨maps, s1, hm, e1, c1⟩
    · exact Or.inl (by simp only [dispatch, h, bind, Except.bind])
    · obtain ⟨t, d, f⟩ := cstringDrop_spec (s := s1) (p := maps) (str := p.mapsFile) (e1.new_mem _ (by simp))
      refine Or.inr ⟨t, ?_, ?_, ?_⟩
      · have : cstringNew alloc s1 p.symbolicPath = .ok (.error .invalidData) := by rw [cstringNew, if_pos h2]
        simp only [dispatch, hm, this, d, bind, Except.bind, pure, Except.pure]
      · have := f.blocks.symm.trans e1.blocks
        exact (List.perm_append_left_iff [(⟨maps, p.mapsFile.length + 1, 1⟩ : Block)]).1 this
      · intro b hb x hx hx'
        rw [f.same x, e1.same b hb x hx hx']
        intro c hc hin
        rw [List.mem_singleton] at hc
        subst hc
        have hp := pairwise_perm e1.blocks e1.valid.2
        have := (List.pairwise_cons.1 (by simpa using hp)).1 b hb
        simp only [Block.Apart, Block.In] at this hin
        omega

variable {M K : Type}

/-- **C88** (symbolizers) A symbolizer that is created with a dispatcher dispatches by it, with the debug
directories of the symbolizer. -/
theorem C88_settings [DecidableEq M] (p : Platform) (o : SymbolizerOpts) (d : Nat) (w : World M) (alternative : Alternative)
    (ho : o.dispatch = some d)
    (hd : ∀ (name : Maps.PathName), Dispatched alternative (openDispatched p.tools w o.debugDirs) name (p.dispatcher d name)) :
    DispatchesBy (M := M) (settingsOf p o) w alternative := by
  refine ⟨fun _ _ name => p.dispatcher d name, by simp only [settingsOf, ho, Option.map_some], fun _ _ name => ?_⟩
  have : openDispatched (settingsOf (M := M) p o).tools w (some (settingsOf (M := M) p o).debugDirs)
      = openDispatched p.tools w o.debugDirs := by
    funext path
    cases hd : o.debugDirs <;> simp only [settingsOf, openDispatched, hd, Option.getD_some, Option.getD_none]
  rw [this]
  exact hd name

section
variable (cfg : Settings M K) (w : World M) (v : Versions M)
  (maps : Nat → Except Err (List (Except Err Maps.Entry))) (alternative : Alternative) (hd : DispatchesBy cfg w alternative)
  (src : ProcessSource) {e : Maps.Entry} {a off : Nat} {p : EntryPath} (he : MappedAt maps src.pid a e off)
  (hn : e.pathName = some (.path p))
include hd he hn

/-- **C88** (an alternative; partial: see `Absent` and C72) If the function names a file for a mapping, addresses
there are looked up in that file, at the offset the address is mapped from, and reported under its path; debug
information is used also if the request says otherwise. -/
theorem C88_file_partial (h1 : 0 ∉ p.mapsFile) (h2 : 0 ∉ p.symbolicPath) {path data : Bytes}
    (hp : alternative p.mapsFile p.symbolicPath = some path)
    (hc : w.disk.opened path = .ok (.ok data)) {d : Dwarf.DebugData}
    (hdd : (Dwarf.fromParser cfg.tools w.files cfg.debugDirs ⟨some path, .mem 4096 data⟩).eval
      (Dwarf.openParser w.disk) = .ok d) {s : Dwarf.Sections} {file : Bytes} {symtab dynsym : Elf.SymTab}
    (hparts : DebugParts cfg.tools path (.mem 4096 data) d s file symtab dynsym) {phdrs : List Elf.Phdr}
    (hs : (Elf.File.ofImage cfg.tools.codec (.mem 4096 data)).phdrs = .ok phdrs) (hfit : Spec.Elf.SegmentsFit phdrs)
    {out : Symbolized} (h : symbolizeSingle (envAt cfg w v maps) (.process src) (.absAddr a) = .ok out) :
    AtOffset phdrs (fun addr out => addr + 1 < 2 ^ 64 →
      InElfDebug (shownBy cfg) (wantedBy cfg) path d.units.units s file symtab dynsym addr out) off out := by
  obtain ⟨f, hf, hall⟩ := hd
  obtain ⟨es, k1, k2, k3⟩ := he.listed
  have hoff := he.offset
  subst hoff
  have hopen : openDispatched cfg.tools w (some cfg.debugDirs) path =
      .ok (elfAsResolver cfg.tools (.dwarf ⟨some path, .mem 4096 data⟩ d)) := by
    have : Dwarf.openParser w.disk path = .ok ⟨some path, .mem 4096 data⟩ := by
      simp only [Dwarf.openParser, hc, Dwarf.elfParse]
    simp only [openDispatched, Dwarf.openWithDebugDirs, this, hdd]
  have hfile : f e.start e.stop (.path p) = .ok (some (elfAsResolver cfg.tools (.dwarf ⟨some path, .mem 4096 data⟩ d))) := by
    have hx := hall e.start e.stop (.path p)
    generalize f e.start e.stop (.path p) = x at hx
    cases hx with
    | nul _ h => rcases h with h | h
                 · exact absurd h h1
                 · exact absurd h h2
    | usual _ _ _ h => rw [hp] at h; cases h
    | file _ _ r _ _ h ho =>
      rw [hp, Option.some.injEq] at h
      subst h
      rw [hopen] at ho
      rw [Except.ok.inj ho]
    | failed _ _ r _ _ h ho =>
      rw [hp, Option.some.injEq] at h
      subst h
      rw [hopen] at ho
      cases ho
  rw [← wantedBy_eq]
  exact debug_at_offset (env := envAt cfg w v maps) hparts hs hfit
    ((C44_dispatcher (envAt cfg w v maps) src es a e (.path p) f _ (.ok out) k1 k2 k3 ⟨he.lower, he.upper⟩ he.fits hn hf
      (Or.inr ⟨rfl, hfile⟩)).mp h)

/-- **C88** (an alternative that cannot be used) If the function names a file that cannot be opened, or whose debug
information cannot, that is the error for addresses of the mapping. -/
theorem C88_failed (h1 : 0 ∉ p.mapsFile) (h2 : 0 ∉ p.symbolicPath) {path : Bytes} {err : Err}
    (hp : alternative p.mapsFile p.symbolicPath = some path)
    (hc : w.disk.opened path = .error err ∨ w.disk.opened path = .ok (.error err) ∨
      ∃ (data : Bytes), w.disk.opened path = .ok (.ok data) ∧
        (Dwarf.fromParser cfg.tools w.files cfg.debugDirs ⟨some path, .mem 4096 data⟩).eval
          (Dwarf.openParser w.disk) = .error err) :
    symbolizeSingle (envAt cfg w v maps) (.process src) (.absAddr a) = .error err := by
  obtain ⟨f, hf, hall⟩ := hd
  obtain ⟨es, k1, k2, k3⟩ := he.listed
  have hoff := he.offset
  subst hoff
  have hopen : openDispatched cfg.tools w (some cfg.debugDirs) path = .error err := by
    rcases hc with hc | hc | ⟨data, hc, hdd⟩
    · simp only [openDispatched, Dwarf.openWithDebugDirs, Dwarf.openParser, hc]
    · simp only [openDispatched, Dwarf.openWithDebugDirs, Dwarf.openParser, hc, Dwarf.elfParse]
    · have : Dwarf.openParser w.disk path = .ok ⟨some path, .mem 4096 data⟩ := by
        simp only [Dwarf.openParser, hc, Dwarf.elfParse]
      simp only [openDispatched, Dwarf.openWithDebugDirs, this, hdd]
  have hfile : f e.start e.stop (.path p) = .error err := by
    have hx := hall e.start e.stop (.path p)
    generalize f e.start e.stop (.path p) = x at hx
    cases hx with
    | nul _ h => rcases h with h | h
                 · exact absurd h h1
                 · exact absurd h h2
    | usual _ _ _ h => rw [hp] at h; cases h
    | file _ _ r _ _ h ho =>
      rw [hp, Option.some.injEq] at h
      subst h
      rw [hopen] at ho
      cases ho
    | failed _ _ r _ _ h ho =>
      rw [hp, Option.some.injEq] at h
      subst h
      rw [hopen] at ho
      rw [Except.error.inj ho]
  exact C44_dispatcher_error (envAt cfg w v maps) src es a e (.path p) f err k1 k2 k3 ⟨he.lower, he.upper⟩ he.fits hn hf
    ⟨rfl, hfile⟩

/-- **C88** (debug information; a surprise) For mappings the function names a file for, whether a request asks for
debug information makes no difference; the documentation has it that source locations are only reported if it
does. -/
theorem C88_debug_syms {path : Bytes} (hp : alternative p.mapsFile p.symbolicPath = some path) (debugSyms : Bool) :
    symbolizeSingle (envAt cfg w v maps) (.process { src with debugSyms }) (.absAddr a) =
      symbolizeSingle (envAt cfg w v maps) (.process src) (.absAddr a) := by
  obtain ⟨f, hf, hall⟩ := hd
  obtain ⟨es, k1, k2, k3⟩ := he.listed
  have hoff := he.offset
  subst hoff
  have hx := hall e.start e.stop (.path p)
  cases hy : f e.start e.stop (.path p) with
  | error err =>
    rw [C44_dispatcher_error (envAt cfg w v maps) src es a e (.path p) f err k1 k2 k3 ⟨he.lower, he.upper⟩ he.fits hn hf
      ⟨rfl, hy⟩]
    exact C44_dispatcher_error (envAt cfg w v maps) { src with debugSyms } es a e (.path p) f err k1 k2 k3
      ⟨he.lower, he.upper⟩ he.fits hn hf ⟨rfl, hy⟩
  | ok x =>
    cases x with
    | none =>
      rw [hy] at hx
      cases hx with
      | usual _ _ _ h => rw [hp] at h; cases h
    | some r =>
      rw [C44_dispatcher (envAt cfg w v maps) { src with debugSyms } es a e (.path p) f r _ k1 k2 k3
        ⟨he.lower, he.upper⟩ he.fits hn hf (Or.inr ⟨rfl, hy⟩)]
      exact (C44_dispatcher (envAt cfg w v maps) src es a e (.path p) f r _ k1 k2 k3
        ⟨he.lower, he.upper⟩ he.fits hn hf (Or.inr ⟨rfl, hy⟩)).mp rfl

end

/-- **C88** (no alternative) Where the function names no file, and where a mapping has no path, the symbolizer
reports what it would report without a dispatcher. -/
theorem C88_usual (cfg : Settings M K) (w : World M) (v : Versions M)
    (maps : Nat → Except Err (List (Except Err Maps.Entry))) (alternative : Alternative) (hd : DispatchesBy cfg w alternative)
    (src : ProcessSource) {e : Maps.Entry} {a off : Nat} (he : MappedAt maps src.pid a e off)
    (hu : ∀ (p : EntryPath), e.pathName = some (.path p) →
      0 ∉ p.mapsFile ∧ 0 ∉ p.symbolicPath ∧ alternative p.mapsFile p.symbolicPath = none) :
    symbolizeSingle (envAt cfg w v maps) (.process src) (.absAddr a) =
      symbolizeSingle (envAt { cfg with processDispatch := none } w v maps) (.process src) (.absAddr a) := by
  obtain ⟨f, hf, hall⟩ := hd
  obtain ⟨es, k1, k2, k3⟩ := he.listed
  have hoff := he.offset
  subst hoff
  have hno : NoDispatch cfg e := by
    intro d hd' name hname
    rw [hf, Option.some.injEq] at hd'
    subst hd'
    have hx := hall e.start e.stop name
    generalize f e.start e.stop name = x at hx
    cases hx with
    | component c => rfl
    | nul p h =>
      obtain ⟨u1, u2, _⟩ := hu p hname
      rcases h with h | h
      · exact absurd h u1
      · exact absurd h u2
    | usual p _ _ _ => rfl
    | file p _ _ _ _ h _ => rw [(hu p hname).2.2] at h; cases h
    | failed p _ _ _ _ h _ => rw [(hu p hname).2.2] at h; cases h
  have hno' : NoDispatch { cfg with processDispatch := none } e := fun d hd' => by cases hd'
  rw [single_default (envAt cfg w v maps) src es a e k1 k2 k3 ⟨he.lower, he.upper⟩ he.fits (notDispatched_of hno),
    single_default (envAt { cfg with processDispatch := none } w v maps) src es a e k1 k2 k3 ⟨he.lower, he.upper⟩ he.fits
      (notDispatched_of hno')]
  rfl

/-! ## Examples -/

/-- A function that returns a copy of `/bin/c`, or `NULL` if there is no memory. -/
def copyCb (alloc : Allocator) : DispatchCb := fun s _ _ _ =>
  match alloc s 7 16 with
  | none => (0, s)
  | some r => (r, ⟨s.mem.fill r (init (ascii "/bin/c" ++ [0])), ⟨r, 7, 16⟩ :: s.blocks⟩)

/-- It behaves, whatever the allocator and the memory, and what it leaves allocated is the string. -/
theorem copyCb_answersWell (ha : GoodAllocator alloc) (s : Store) (p : EntryPath) (ctx : Nat) (during : Store)
    (maps sym : Nat) (h : Called s p during maps sym) :
    AnswersWell [⟨sym, p.symbolicPath.length + 1, 1⟩, ⟨maps, p.mapsFile.length + 1, 1⟩]
      (copyCb alloc during maps sym ctx).1 (copyCb alloc during maps sym ctx).2 := by
  have hmem : ∀ b ∈ [(⟨sym, p.symbolicPath.length + 1, 1⟩ : Block), ⟨maps, p.mapsFile.length + 1, 1⟩], b ∈ during.blocks :=
    fun b hb => h.blocks.mem_iff.2 (by simp only [List.mem_cons, List.not_mem_nil, or_false] at hb ⊢; tauto)
  unfold copyCb
  cases hx : alloc during 7 16 with
  | none => exact ⟨h.valid, hmem, fun h0 => absurd rfl h0⟩
  | some r =>
    have hl : (init (ascii "/bin/c" ++ [0])).length = 7 := by decide +kernel
    have e := alloc_ext ha h.valid (align := 16) (a := r) (c := init (ascii "/bin/c" ++ [0])) (by decide +kernel)
      (by rw [hl]; exact hx)
    rw [hl] at e
    obtain ⟨_, h2, h3, _⟩ := ha _ _ _ _ hx
    refine ⟨e.valid, fun b hb => List.mem_cons_of_mem _ (hmem b hb), fun _ => ⟨ascii "/bin/c", 7, ?_, by decide,
      List.mem_cons_self⟩⟩
    exact ⟨HoldsO.holds (fill_holds _ _ _), by decide, by
      show r + 6 < 2 ^ 64
      omega⟩

/-- The hypotheses of `C88_call` are met. -/
example (ha : GoodAllocator alloc) (s : Store) (hs : s.Valid) (opened : Bytes → Except Err Resolver) :=
  C88_call ha hs opened (copyCb alloc) 0 ⟨ascii "/proc/7/map_files/400000-401000", ascii "/bin/cat"⟩ (by decide +kernel)
    (by decide +kernel) (copyCb_answersWell ha s _ 0)

/-- Names `/bin/c` for `/bin/z.apk`, and nothing for other files. -/
def exAlternative : Alternative := fun _ sym =>
  if sym = ascii "/bin/z.apk" then some (ascii "/bin/c") else none

/-- A dispatcher. -/
def exDispatch (cfg : Settings M K) (w : World M) (alternative : Alternative) : Maps.PathName → Except Err (Option Resolver)
  | .component _ => .ok none
  | .path p =>
    if 0 ∈ p.mapsFile ∨ 0 ∈ p.symbolicPath then .error .invalidData
    else
      match alternative p.mapsFile p.symbolicPath with
      | none => .ok none
      | some path => (openDispatched cfg.tools w (some cfg.debugDirs) path).map some

/-- There is a symbolizer for every way to name files. -/
theorem exDispatch_by (cfg : Settings M K) (w : World M) (alternative : Alternative) :
    DispatchesBy { cfg with processDispatch := some fun _ _ name => exDispatch cfg w alternative name } w alternative := by
  refine ⟨fun _ _ name => exDispatch cfg w alternative name, rfl, fun _ _ name => ?_⟩
  show Dispatched alternative (openDispatched cfg.tools w (some cfg.debugDirs)) name (exDispatch cfg w alternative name)
  cases name with
  | component c => exact .component c
  | path p =>
    by_cases h : 0 ∈ p.mapsFile ∨ 0 ∈ p.symbolicPath
    · simp only [exDispatch, h, if_true]
      exact .nul p h
    · simp only [exDispatch, h, if_false]
      rw [not_or] at h
      cases ha : alternative p.mapsFile p.symbolicPath with
      | none => exact .usual p h.1 h.2 ha
      | some path =>
        cases ho : openDispatched cfg.tools w (some cfg.debugDirs) path with
        | error e => simp only [ho, Except.map]; exact .failed p path e h.1 h.2 ha ho
        | ok r => simp only [ho, Except.map]; exact .file p path r h.1 h.2 ha ho

set_option maxRecDepth 20000 in
/-- What is reported for addresses of a process: those of the archive are looked up in `/bin/c`, the others as usual. -/
example :
    [0x400008, 0x600008, 0x7f0008].map (fun addr => nameAndModule (symbolizeSingle
      (envAt { exSettings with processDispatch := some fun _ _ name => exDispatch exSettings exRich exAlternative name }
        exRich (present exRich) exRich.maps) (.process ⟨7, false, true, false, true⟩) (.absAddr addr))) =
    [some (ascii "f", some (ascii "/bin/c")), some (ascii "f", some (ascii "/bin/c")),
      some (ascii "f", some (ascii "[vdso]"))] := by
  decide +kernel

end Blazesym.CApi
