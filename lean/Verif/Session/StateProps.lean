import Verif.Session.HistoryLemmas
import Verif.Session.InspectorProps

/-! Property theorems C68 (answers of a symbolizer do not depend on what it was used for before). -/

set_option autoImplicit false

namespace Blazesym.Symbolize
open Blazesym.Util Blazesym.Maps Blazesym.Normalize Blazesym.Cache Blazesym.Spec Blazesym.Spec.Symbolize
open Blazesym.Dwarf hiding Resolver

variable {M K : Type} [DecidableEq M]

theorem out_eq {a b : Symbolized} (h : OutRel Eq a b) : a = b := by
  cases h with
  | unknown r => rfl
  | sym x y hxy =>
    obtain ⟨h1, h2⟩ := hxy
    obtain ⟨xn, xm, xa, xo, xs, xc, xi⟩ := x
    obtain ⟨yn, ym, ya, yo, ys, yc, yi⟩ := y
    simp only [Sym.mk.injEq] at h1 h2
    simp_all

theorem outs_eq {a b : List Symbolized} (h : List.Forall₂ (OutRel Eq) a b) : a = b := by
  induction h with
  | nil => rfl
  | cons h _ ih => rw [out_eq h, ih]

theorem erel_eq {ε α : Type} {R : α → α → Prop} (hR : ∀ x y, R x y → x = y) {a b : Except ε α} (h : ERel R a b) :
    a = b := by
  cases h with
  | error e => rfl
  | ok x y hxy => rw [hR x y hxy]

theorem not_kernel {maps : Nat → Except Err (List (Except Err Maps.Entry))} {src : Source}
    (hk : ∀ ks, src ≠ .kernel ks) (l : Lookup) (hl : Uses maps src l) : ∀ ks, l ≠ .kernel ks := by
  rintro ks rfl
  cases hl with
  | kernel => exact hk ks rfl
  | process _ items e _ h1 h2 h3 => cases h3

/-- **C68** (partial: for orderly histories) Whatever a symbolizer was used for before, a request is
answered as if every file was opened anew, in the version the symbolizer uses. -/
theorem C68_answer_partial {cfg : Settings M K} (hb : DispatchByName cfg) {k : Known M}
    (hlen : ∀ m data, k.contents m = .ok (.ok data) → data.length < 2 ^ 63)
    {s : State M K} (hr : Reachable cfg (Orderly cfg k) s) (w : World M) (src : Source)
    (hk : ∀ ks, src ≠ .kernel ks) (input : Input (List Nat)) (ho : Orderly cfg k s w (.symbolize src input)) :
    (s.symbolize cfg w src input).1 = symbolize (envAt cfg w (versions s w) (mapsOf w s.vmas)) src input :=
  erel_eq (fun _ _ => outs_eq) (symbolize_sim (host_exact hb ho.1 hlen s) src input
    (fun l hl => ⟨ho.2 l hl, not_kernel hk l hl⟩) s ⟨(exact_reachable hb hlen hr).1, StateFrame.refl w s⟩).1

/-- **C68** (partial) The same for a request with one address. -/
theorem C68_single_partial {cfg : Settings M K} (hb : DispatchByName cfg) {k : Known M}
    (hlen : ∀ m data, k.contents m = .ok (.ok data) → data.length < 2 ^ 63)
    {s : State M K} (hr : Reachable cfg (Orderly cfg k) s) (w : World M) (src : Source)
    (hk : ∀ ks, src ≠ .kernel ks) (input : Input Nat) (ho : Orderly cfg k s w (.symbolizeSingle src input)) :
    (s.symbolizeSingle cfg w src input).1 =
      symbolizeSingle (envAt cfg w (versions s w) (mapsOf w s.vmas)) src input :=
  erel_eq (fun _ _ => out_eq) (symbolizeSingle_sim (host_exact hb ho.1 hlen s) src input
    (fun l hl => ⟨ho.2 l hl, not_kernel hk l hl⟩) s ⟨(exact_reachable hb hlen hr).1, StateFrame.refl w s⟩).1

/-! ### Which versions are used -/

/-- Nothing is pinned. -/
def NoPins {P F T : Type} [DecidableEq P] (s : FileCache P M F T) : Prop := ∀ q m, ¬ Current s q true m

theorem NoPins.frame {P F T : Type} [DecidableEq P] {stat : P → Except Err M} {s s' : FileCache P M F T}
    (h : NoPins s) (hf : Frame stat s s') : NoPins s' := fun q m hc => h q m (hf.pins q m hc)

theorem NoPins.evict {P F T : Type} [DecidableEq P] {s : FileCache P M F T} (hs : WF s) (h : NoPins s) (p : P) :
    NoPins (s.evict p).2 := by
  intro q m hc
  cases hp : s.cache.get p with
  | none => rw [evict_absent p hp] at hc; exact h q m hc
  | some pe =>
    obtain ⟨b, en, h1, _⟩ := evict_spec hs p pe hp
    rw [h1] at hc
    obtain ⟨pe', h2, h3⟩ := hc
    simp only [InsertMap.get_remove] at h2
    split at h2
    · cases h2
    · exact h q m ⟨pe', h2, h3⟩

theorem noPins_new {P F T : Type} [DecidableEq P] (ar : Bool) : NoPins (FileCache.new ar : FileCache P M F T) := by
  rintro q m ⟨pe, h, _⟩
  simp [FileCache.new, InsertMap.get, InsertMap.find] at h

theorem NoPins.present {P F T : Type} [DecidableEq P] {s : FileCache P M F T} (h : NoPins s)
    (ha : s.autoReload = true) (stat : P → Except Err M) : effective s stat = stat := by
  funext p
  refine effective_stat ?_ stat
  rintro ⟨b, m, hc, hb⟩
  rcases hb with rfl | hb
  · exact h p m hc
  · rw [ha] at hb; cases hb

/-- A request changes no versions. -/
theorem loose_request {cfg : Settings M K} {w : World M} {s : State M K} (hs : Loose cfg w.disk.contents s)
    (src : Source) :
    (∀ input, StateFrame w s (s.symbolize cfg w src input).2) ∧
      ∀ input, StateFrame w s (s.symbolizeSingle cfg w src input).2 :=
  ⟨fun input => (symbolize_keeps (host_loose (cfg := cfg) s) src input s ⟨hs, StateFrame.refl w s⟩).2,
    fun input => (symbolizeSingle_keeps (host_loose (cfg := cfg) s) src input s ⟨hs, StateFrame.refl w s⟩).2⟩

/-- Only ELF files are ever pinned. -/
theorem others_unpinned {cfg : Settings M K} {contents : M → Except Err (Except Err Bytes)} {s : State M K}
    (hr : Reachable cfg (SameContents contents) s) :
    NoPins s.apk ∧ NoPins s.breakpad ∧ NoPins s.gsym ∧ NoPins s.perfMap := by
  induction hr with
  | new => exact ⟨noPins_new _, noPins_new _, noPins_new _, noPins_new _⟩
  | call s w c hr ho ih =>
    have hl := (loose_reachable hr).1
    obtain ⟨i1, i2, i3, i4⟩ := ih
    have hw := ho.1
    cases c with
    | symbolize src input =>
      subst hw
      have hf := (loose_request hl src).1 input
      exact ⟨i1.frame hf.apk, i2.frame hf.breakpad, i3.frame hf.gsym, i4.frame hf.perfMap⟩
    | symbolizeSingle src input =>
      subst hw
      have hf := (loose_request hl src).2 input
      exact ⟨i1.frame hf.apk, i2.frame hf.breakpad, i3.frame hf.gsym, i4.frame hf.perfMap⟩
    | cache fill req => cases req <;> exact ⟨i1, i2, i3, i4⟩
    | register path resolver => exact ⟨i1, i2, i3, i4⟩
    | evict req =>
      cases req with
      | elf path =>
        simp only [after, State.evict]
        cases s.elf.evict path with
        | mk r elf => cases r <;> exact ⟨i1, i2, i3, i4⟩
      | process pid =>
        have := i4.evict hl.perfMap.wf (PerfMap.path (resolvePid w pid))
        simp only [after, State.evict]
        cases hev : s.perfMap.evict (PerfMap.path (resolvePid w pid)) with
        | mk r perfMap =>
          rw [hev] at this
          cases r <;> exact ⟨i1, i2, i3, this⟩

/-- **C68** (versions) A symbolizer that reloads files uses, of all files but ELF files, those that are
on disk. -/
theorem C68_present {cfg : Settings M K} (hc : cfg.autoReload = true)
    {contents : M → Except Err (Except Err Bytes)} {s : State M K} (hr : Reachable cfg (SameContents contents) s)
    (w : World M) : versions s w = { present w with elf := (versions s w).elf } := by
  obtain ⟨h1, h2, h3, h4⟩ := others_unpinned hr
  have ha := (loose_reachable hr).2
  unfold versions present
  rw [h1.present (ha.apk.trans hc), h2.present (ha.breakpad.trans hc), h3.present (ha.gsym.trans hc),
    h4.present (ha.perfMap.trans hc)]

/-- An orderly history leaves the contents of versions as they are. -/
theorem reachable_mono {cfg : Settings M K} {ok ok' : State M K → World M → Call → Prop}
    (h : ∀ s w c, ok s w c → ok' s w c) {s : State M K} (hr : Reachable cfg ok s) : Reachable cfg ok' s := by
  induction hr with
  | new => exact .new
  | call s w c _ ho ih => exact .call s w c ih (h s w c ho)

theorem orderly_same {cfg : Settings M K} {k : Known M} (s : State M K) (w : World M) (c : Call)
    (h : Orderly cfg k s w c) : SameContents k.contents s w c := by
  refine ⟨h.1, ?_⟩
  cases c with
  | register path resolver => exact fun m f hm hf => ⟨_, (h.2 m f hm hf).1⟩
  | symbolize src input => trivial
  | symbolizeSingle src input => trivial
  | cache fill req => trivial
  | evict req => trivial

/-- Without caching nothing is pinned. -/
theorem uncached_unpinned {cfg : Settings M K} {contents : M → Except Err (Except Err Bytes)} {s : State M K}
    (hr : Reachable cfg (fun s w c => SameContents contents s w c ∧ NotCaching c) s) :
    NoPins s.elf ∧ s.vmas = fun _ => none := by
  induction hr with
  | new => exact ⟨noPins_new _, rfl⟩
  | call s w c hr ho ih =>
    have hl := (loose_reachable (reachable_mono (fun _ _ _ h => h.1) hr)).1
    obtain ⟨i1, i2⟩ := ih
    obtain ⟨ho, hn⟩ := ho
    have hw := ho.1
    subst hw
    cases c with
    | symbolize src input =>
      have hf := (loose_request hl src).1 input
      exact ⟨i1.frame hf.elf, hf.vmas.trans i2⟩
    | symbolizeSingle src input =>
      have hf := (loose_request hl src).2 input
      exact ⟨i1.frame hf.elf, hf.vmas.trans i2⟩
    | cache fill req => exact hn.elim
    | register path resolver =>
      obtain ⟨_, _, hf⟩ := register_faithful (Val := fun _ _ _ => True) ⟨hl.elf.wf, hl.elf.file, fun _ _ _ _ _ => trivial⟩
        path resolver (fun _ _ _ _ => trivial)
      exact ⟨i1.frame hf, i2⟩
    | evict req =>
      cases req with
      | elf path =>
        have := i1.evict hl.elf.wf path
        simp only [after, State.evict]
        cases hev : s.elf.evict path with
        | mk r elf =>
          rw [hev] at this
          cases r <;> exact ⟨this, i2⟩
      | process pid =>
        have : evictProcess s.vmas pid = fun _ => none := by
          funext q
          simp [evictProcess, i2]
        simp only [after, State.evict]
        cases s.perfMap.evict (PerfMap.path (resolvePid w pid)) with
        | mk r perfMap => cases r <;> exact ⟨i1, this⟩

/-- **C68** (partial: for orderly histories) A symbolizer that reloads files and is not told to cache
anything answers with the files and the mappings as they are now, like a new symbolizer. -/
theorem C68_fresh_partial {cfg : Settings M K} (hb : DispatchByName cfg) (har : cfg.autoReload = true)
    {k : Known M} (hlen : ∀ m data, k.contents m = .ok (.ok data) → data.length < 2 ^ 63)
    {s : State M K} (hr : Reachable cfg (fun s w c => Orderly cfg k s w c ∧ NotCaching c) s) (w : World M)
    (src : Source) (hk : ∀ ks, src ≠ .kernel ks) (input : Input (List Nat)) (hc : w.disk.contents = k.contents)
    (ho : ∀ l, Uses w.maps src l → Fits cfg k w (present w) l) :
    (s.symbolize cfg w src input).1 = symbolize (envAt cfg w (present w) w.maps) src input ∧
    (s.symbolize cfg w src input).1 = ((State.new cfg).symbolize cfg w src input).1 := by
  have key : ∀ s : State M K, Reachable cfg (fun s w c => Orderly cfg k s w c ∧ NotCaching c) s →
      (s.symbolize cfg w src input).1 = symbolize (envAt cfg w (present w) w.maps) src input := by
    intro s hr
    have hr1 := reachable_mono (ok' := Orderly cfg k) (fun _ _ _ h => h.1) hr
    have hr2 := reachable_mono (ok' := SameContents k.contents) (fun _ _ _ h => orderly_same _ _ _ h) hr1
    have hr3 := reachable_mono (ok' := fun s w c => SameContents k.contents s w c ∧ NotCaching c)
      (fun _ _ _ h => ⟨orderly_same _ _ _ h.1, h.2⟩) hr
    obtain ⟨h1, h2⟩ := uncached_unpinned hr3
    have hv : versions s w = present w := by
      have h3 := h1.present ((loose_reachable hr2).2.elf.trans har) w.disk.stat
      rw [C68_present har hr2 w]
      simp only [versions, h3, present]
    have hm : mapsOf w s.vmas = w.maps := by
      funext pid
      simp [mapsOf, h2]
    have := C68_answer_partial hb hlen hr1 w src hk input ⟨hc, by rw [hv, hm]; exact ho⟩
    rw [this, hv, hm]
  exact ⟨key s hr, (key s hr).trans (key _ .new).symm⟩

end Blazesym.Symbolize
