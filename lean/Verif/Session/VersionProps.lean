import Verif.Session.StateProps

/-!
Property theorems C69 (caching and evicting), and C68 (for symbols without debug information, whatever
the history).
-/

set_option autoImplicit false

namespace Blazesym.Symbolize
open Blazesym.Util Blazesym.Maps Blazesym.Normalize Blazesym.Cache Blazesym.Spec Blazesym.Spec.Symbolize
open Blazesym.Dwarf hiding Resolver

variable {M K : Type} [DecidableEq M]

/-! ### Plain lookups -/

theorem fn_refl' {Q : Option Bytes → Option Bytes → Prop} (hQ : ∀ x, Q x x) (f : SymFn) : FnRel Q f f :=
  fun _ _ => erel_refl (fun x => by cases x with
    | error r => exact .error r
    | ok a => exact .ok a a rfl (hQ _)) _

/-- The name of a file matters for the module only. -/
theorem elfAt_modules (cfg : Settings M K) (w : World M) (version : Bytes → Except Err M) (actual n n' : Bytes) :
    ERel (ResRel fun _ _ => True)
      ((elfAt w version actual n).map fun p => elfAsResolver cfg.tools (.elf p))
      (match elfAt w version actual n' with
        | .error e => .error e
        | .ok p => .ok (elfAsResolver cfg.tools (.elf p))) := by
  unfold elfAt
  cases fileOf w (version actual) with
  | error e => exact .error e
  | ok f =>
    cases f with
    | error e => exact .error e
    | ok data =>
      simp only [elfParse, Except.map]
      refine .ok _ _ ⟨?_, rfl⟩
      intro addr opts
      simp only [elfAsResolver, ElfResolver.findSym, ElfParser.findSym, ElfParser.file]
      cases (Elf.File.ofImage cfg.tools.codec (.mem 4096 data)).findSym cfg.tools.σ addr with
      | error e => exact .error e
      | ok r =>
        cases r with
        | error miss => exact .ok _ _ (.error _)
        | ok sym => exact .ok _ _ (.ok _ _ rfl trivial)

/-- The environment with the process dispatcher replaced. -/
def withDispatch (env : Env) (d : Option (Nat → Nat → PathName → Except Err (Option Resolver))) : Env :=
  { env with dispatch := d, dispatched := [] }

theorem host_plain {cfg : Settings M K} {w : World M} (s0 : State M K) {Q : Option Bytes → Option Bytes → Prop}
    (hQ : ∀ x, Q x x) (d : Option (Nat → Nat → PathName → Except Err (Option Resolver)))
    (D : Lookup → Prop) (hD : ∀ l, D l → Plain l)
    (hdisp : ∀ start stop name, D (.dispatch start stop name) → d = cfg.processDispatch)
    (hb : ∀ f, d = some f → ∀ start stop start' stop' name, f start stop name = f start' stop' name)
    (helf : ∀ actual represented ds, D (.elf actual represented ds) → ∀ x y, Q x y) :
    HostSim (fun s => Loose cfg w.disk.contents s ∧ StateFrame w s0 s) Q D (host cfg w)
      (withDispatch (envAt cfg w (versions s0 w) (mapsOf w s0.vmas)) d) where
  opts := rfl
  demangle := rfl
  demangler := rfl
  apk := fun _ _ _ _ hd => (hD _ hd).elim
  breakpad := by
    intro path _ s ⟨hs, hf⟩
    obtain ⟨h1, h2, h3⟩ := breakpadOn_faithful (cfg := cfg) path hs.breakpad (versions s0 w)
      (hf.breakpad.effective path).symm (mapsOf w s0.vmas)
    refine ⟨?_, ⟨{ hs with breakpad := h2 }, { hf with breakpad := hf.breakpad.trans h3 }⟩⟩
    show ERel _ (breakpadOn w path s.breakpad).1 ((envAt cfg w (versions s0 w) (mapsOf w s0.vmas)).breakpad path)
    rw [← h1]
    exact erel_refl (fn_refl' hQ) _
  elf := by
    intro actual represented debugSyms hd s ⟨hs, hf⟩
    have hq := helf _ _ _ hd
    have hds : debugSyms = false := hD _ hd
    subst hds
    obtain ⟨h2, h3, h4⟩ := elfOn_loose (cfg := cfg) actual represented false hs.elf
    refine ⟨?_, ⟨{ hs with elf := h2 }, { hf with elf := hf.elf.trans h3 }⟩⟩
    obtain ⟨name, h4⟩ := h4 rfl
    show ERel _ (elfResolverOn cfg w actual represented false s.elf).1 _
    rw [h4, funext hf.elf.effective]
    have hQ' : Q = fun _ _ => True := by
      funext x y
      exact eq_true (hq x y)
    subst hQ'
    exact elfAt_modules cfg w (effective s0.elf w.disk.stat) actual name represented
  kernel := fun _ hd => (hD _ hd).elim
  gsymData := fun _ => erel_refl (fn_refl' hQ) _
  gsymFile := by
    intro path _ s ⟨hs, hf⟩
    obtain ⟨h1, h2, h3⟩ := gsymOn_faithful (cfg := cfg) path hs.gsym (versions s0 w)
      (hf.gsym.effective path).symm (mapsOf w s0.vmas)
    refine ⟨?_, ⟨{ hs with gsym := h2 }, { hf with gsym := hf.gsym.trans h3 }⟩⟩
    show ERel _ (gsymOn w path s.gsym).1 ((envAt cfg w (versions s0 w) (mapsOf w s0.vmas)).gsymFile path)
    rw [← h1]
    exact erel_refl (fn_refl' hQ) _
  perfMap := by
    intro pid _ s ⟨hs, hf⟩
    obtain ⟨h1, h2, h3⟩ := perfMapOn_faithful (cfg := cfg) pid hs.perfMap (versions s0 w)
      (funext fun q => (hf.perfMap.effective q).symm) (mapsOf w s0.vmas)
    refine ⟨?_, ⟨{ hs with perfMap := h2 }, { hf with perfMap := hf.perfMap.trans h3 }⟩⟩
    show ERel _ (perfMapOn w pid s.perfMap).1 ((envAt cfg w (versions s0 w) (mapsOf w s0.vmas)).perfMap pid)
    rw [← h1]
    exact erel_refl (opt_refl (fn_refl' hQ)) _
  vdso := fun _ _ _ hd => (hD _ hd).elim
  maps := by
    intro pid s ⟨hs, hf⟩
    refine ⟨?_, ⟨hs, hf⟩⟩
    simp only [host, withDispatch, envAt, hf.vmas]
    exact erel_refl (fun _ => rfl) _
  byName := by
    intro f hf
    refine ⟨hb f hf, ?_⟩
    intro name r h
    cases h
  dispatch := by
    intro start stop name cache hd ha s ⟨hs, hf⟩
    obtain ⟨h1, h2, h3⟩ := dispatched_on hs.process start stop name
    refine ⟨?_, ⟨{ hs with process := h1 }, { hf with vmas := hf.vmas }⟩⟩
    show ERel _ (dispatchOn cfg start stop name s.process).1 _
    unfold dispatchResolver
    have hdd := hdisp _ _ _ hd
    have hd' : (withDispatch (envAt cfg w (versions s0 w) (mapsOf w s0.vmas)) d).dispatch = d := rfl
    cases hp : d with
    | none =>
      rw [hp] at hd' hdd
      simp only [hd']
      rw [h2 hdd.symm]
      exact .ok _ _ trivial
    | some f =>
      have hp' := hdd.symm.trans hp
      obtain ⟨a, b, hab⟩ := h3 f hp'
      rw [hp] at hd'
      simp only [hd']
      rw [← hab]
      have hrefl : ∀ o : Option Resolver, OptRel (ResRel Q) o o := opt_refl fun r => ⟨fn_refl' hQ _, rfl⟩
      cases hl : cache.lookup name with
      | some r =>
        simp only
        rw [hp] at ha
        have := ha f rfl name r hl
        rw [hb f hp a b 0 0, this]
        exact .ok _ _ (hrefl _)
      | none =>
        simp only
        rw [hb f hp start stop a b]
        cases f a b name with
        | error e => exact .error e
        | ok r => exact .ok _ _ (hrefl _)

/-- **C68** (Breakpad) Whatever happened before, symbols from a Breakpad file are those of the version
that is used. -/
theorem C68_breakpad {cfg : Settings M K} {contents : M → Except Err (Except Err Bytes)} {s : State M K}
    (hr : Reachable cfg (SameContents contents) s) (w : World M) (hw : w.disk.contents = contents)
    (path : Bytes) (input : Input (List Nat)) :
    (s.symbolize cfg w (.breakpad path) input).1 =
      symbolize (envAt cfg w (versions s w) (mapsOf w s.vmas)) (.breakpad path) input := by
  subst hw
  have hh := host_plain (cfg := cfg) (w := w) s (Q := Eq) (fun _ => rfl) none (fun l => ∃ p, l = .breakpad p)
    (by rintro l ⟨p, rfl⟩; trivial) (by rintro _ _ _ ⟨p, h⟩; cases h) (by intro f h; cases h)
    (by rintro _ _ _ ⟨p, h⟩; cases h)
  have := erel_eq (fun _ _ => outs_eq) (symbolize_sim hh (.breakpad path) input
    (by intro l hl; cases hl; exact ⟨_, rfl⟩) s ⟨(loose_reachable hr).1, StateFrame.refl w s⟩).1
  rw [show (s.symbolize cfg w (.breakpad path) input).1 = ((host cfg w).symbolize (.breakpad path) input s).1 from rfl,
    this]
  rfl

/-- **C68** (GSYM) The same for GSYM files. -/
theorem C68_gsym {cfg : Settings M K} {contents : M → Except Err (Except Err Bytes)} {s : State M K}
    (hr : Reachable cfg (SameContents contents) s) (w : World M) (hw : w.disk.contents = contents)
    (path : Bytes) (input : Input (List Nat)) :
    (s.symbolize cfg w (.gsymFile path) input).1 =
      symbolize (envAt cfg w (versions s w) (mapsOf w s.vmas)) (.gsymFile path) input := by
  subst hw
  have hh := host_plain (cfg := cfg) (w := w) s (Q := Eq) (fun _ => rfl) none (fun l => ∃ p, l = .gsym p)
    (by rintro l ⟨p, rfl⟩; trivial) (by rintro _ _ _ ⟨p, h⟩; cases h) (by intro f h; cases h)
    (by rintro _ _ _ ⟨p, h⟩; cases h)
  have := erel_eq (fun _ _ => outs_eq) (symbolize_sim hh (.gsymFile path) input
    (by intro l hl; cases hl; exact ⟨_, rfl⟩) s ⟨(loose_reachable hr).1, StateFrame.refl w s⟩).1
  rw [show (s.symbolize cfg w (.gsymFile path) input).1 = ((host cfg w).symbolize (.gsymFile path) input s).1 from rfl,
    this]
  rfl

/-- **C68** (plain lookups) Whatever happened before, if only symbols without debug information are looked
up, in ELF files, Breakpad files, GSYM files and perf maps, they are those of the versions that are used.
Only the module that is reported may be different: it is a name of the file that was used once. -/
theorem C68_plain {cfg : Settings M K} (hb : DispatchByName cfg) {contents : M → Except Err (Except Err Bytes)}
    {s : State M K} (hr : Reachable cfg (SameContents contents) s) (w : World M) (hw : w.disk.contents = contents)
    (src : Source) (hp : ∀ l, Uses (mapsOf w s.vmas) src l → Plain l) :
    (∀ input, ERel (List.Forall₂ (OutRel fun _ _ => True)) (s.symbolize cfg w src input).1
      (symbolize (envAt cfg w (versions s w) (mapsOf w s.vmas)) src input)) ∧
    ∀ input, ERel (OutRel fun _ _ => True) (s.symbolizeSingle cfg w src input).1
      (symbolizeSingle (envAt cfg w (versions s w) (mapsOf w s.vmas)) src input) := by
  subst hw
  have hh := host_plain (cfg := cfg) (w := w) s (Q := fun _ _ => True) (fun _ => trivial) cfg.processDispatch Plain
    (fun _ h => h) (fun _ _ _ _ => rfl) hb (fun _ _ _ _ _ _ => trivial)
  exact ⟨fun input => (symbolize_sim hh src input hp s ⟨(loose_reachable hr).1, StateFrame.refl w s⟩).1,
    fun input => (symbolizeSingle_sim hh src input hp s ⟨(loose_reachable hr).1, StateFrame.refl w s⟩).1⟩

/-! ### Caching ELF files -/

theorem setPinState_current {P F T : Type} [DecidableEq P] (s : FileCache P M F T) (p : P) (b b' : Bool) (m : M)
    (h : Current s p b' m) : Current (s.setPinState p b).2 p b m := by
  obtain ⟨pe, hc, hp⟩ := h
  refine ⟨{ pe with current := some (b, m) }, ?_, rfl⟩
  unfold FileCache.setPinState
  simp [hc, hp]

theorem setPinState_other {P F T : Type} [DecidableEq P] (s : FileCache P M F T) (p q : P) (hq : q ≠ p) (b : Bool) :
    (s.setPinState p b).2.cache.get q = s.cache.get q := by
  unfold FileCache.setPinState
  cases hc : s.cache.get p with
  | none => rfl
  | some pe =>
    simp only
    cases pe.current with
    | none => rfl
    | some x => simp [hq]

theorem pin_other {P F T : Type} [DecidableEq P] (s : FileCache P M F T) (p q : P) (hq : q ≠ p) (b : Bool) (m : M)
    (h : Current s q true m) : Current (s.setPinState p b).2 q true m := by
  obtain ⟨pe, hc, hp⟩ := h
  exact ⟨pe, (setPinState_other s p q hq b).trans hc, hp⟩

theorem evict_other {P F T : Type} [DecidableEq P] {s : FileCache P M F T} (hs : WF s) (p : P) :
    (s.evict p).2.cache.get p = none ∧ (∀ q, q ≠ p → (s.evict p).2.cache.get q = s.cache.get q) ∧
    ∃ b, (s.evict p).1 = .ok b := by
  cases hc : s.cache.get p with
  | none => rw [evict_absent p hc]; exact ⟨hc, fun _ _ => rfl, _, rfl⟩
  | some pe =>
    obtain ⟨b, en, h1, _⟩ := evict_spec hs p pe hc
    rw [h1]
    exact ⟨by simp [InsertMap.get_remove], fun q hq => by simp [InsertMap.get_remove, hq], b, rfl⟩

/-- A version that was looked up is the current one. -/
theorem entry_current {P F T : Type} [DecidableEq P] {disk : Disk P M F} {Val : M → F → T → Prop}
    {s : FileCache P M F T} (hs : Faithful disk.contents Val s) (p : P) {m : M} {e : Entry F T}
    {s' : FileCache P M F T} (h : s.entry p (disk.stat p) (disk.opened p) = (.ok (m, e), s')) :
    ∃ b, Current s' p b m := by
  by_cases hk : Kept s p
  · obtain ⟨b, m', hc, hb⟩ := hk
    obtain ⟨e', _, hent⟩ := entry_keep hs.wf p (disk.stat p) (disk.opened p) b m' hc hb
    rw [hent] at h
    cases h
    exact ⟨b, hc⟩
  · have hnp : ∀ m, ¬ Current s p true m := fun m hc => hk ⟨true, m, hc, Or.inl rfl⟩
    have har : s.autoReload = true ∨ s.cache.get p = none := by
      cases hc : s.cache.get p with
      | none => exact Or.inr rfl
      | some pe =>
        left
        cases ha : s.autoReload with
        | true => rfl
        | false =>
          exfalso
          obtain ⟨q, hq⟩ := Option.isSome_iff_exists.mp (hs.wf.cur p pe hc)
          exact hk ⟨q.1, q.2, ⟨pe, hc, hq⟩, Or.inr ha⟩
    have h2 := (entry_reload p (disk.stat p) (disk.opened p) hnp har).2 m e (by rw [h])
    rw [h] at h2
    exact ⟨false, h2.2.1⟩

theorem plainOn_current {w : World M} {s : ElfCache Bytes M (Except Err Bytes) ElfParser DebugData}
    (hs : LooseElf w.disk.contents s) (path represented : Bytes) {p : ElfParser}
    (h : (s.plainOn w.disk elfParse path represented).1 = .ok p) :
    ∃ b m, effective s w.disk.stat path = .ok m ∧
      Current (s.plainOn w.disk elfParse path represented).2 path b m := by
  obtain ⟨h1, h2, h3⟩ := entry_faithful hs path
  unfold ElfCache.plainOn ElfCache.plain at h ⊢
  cases he : effective s w.disk.stat path with
  | error e => rw [h1 e he] at h; cases h
  | ok m =>
    cases hcm : w.disk.contents m with
    | error e => rw [h2 m e he hcm] at h; cases h
    | ok f =>
      obtain ⟨e, s', hent, _, _, _, _, _⟩ := h3 m f he hcm
      obtain ⟨b, hcur⟩ := entry_current hs path hent
      refine ⟨b, m, rfl, ?_⟩
      rw [hent] at h ⊢
      simp only at h ⊢
      cases hv : e.value with
      | some data =>
        rw [hv] at h
        simp only at h ⊢
        cases hde : data.elf with
        | some q => exact hcur
        | none =>
          rw [hde] at h
          simp only at h ⊢
          cases hdd : data.dwarf with
          | none => exact hcur
          | some x => exact hcur
      | none =>
        rw [hv] at h
        simp only at h ⊢
        cases elfParse represented e.file with
        | error err => exact hcur
        | ok q => exact hcur

/-- A pin lasts until the path is cached again or evicted. -/
theorem pin_lasts {cfg : Settings M K} {contents : M → Except Err (Except Err Bytes)} {s : State M K}
    (hr : Reachable cfg (SameContents contents) s) (path : Bytes) (m : M) (hc : Current s.elf path true m)
    {s' : State M K} (hl : Later cfg (fun s w c => SameContents contents s w c ∧ ¬ Touches path c) s s') :
    Reachable cfg (SameContents contents) s' ∧ Current s'.elf path true m := by
  induction hl with
  | now => exact ⟨hr, hc⟩
  | call s' w c _ ho ih =>
    obtain ⟨ih1, ih2⟩ := ih
    refine ⟨.call s' w c ih1 ho.1, ?_⟩
    have hlo := (loose_reachable ih1).1
    obtain ⟨hsame, ht⟩ := ho
    have hw := hsame.1
    subst hw
    cases c with
    | symbolize src input => exact ((loose_request hlo src).1 input).elf.keeps path m ih2
    | symbolizeSingle src input => exact ((loose_request hlo src).2 input).elf.keeps path m ih2
    | cache fill req =>
      cases req with
      | elf p =>
        have hne : path ≠ p := fun h => ht h.symm
        show Current (s'.elf.cacheElf p (w.disk.stat p) (w.disk.opened p) (elfParse p) fill).2 path true m
        rw [cacheElf_state]
        obtain ⟨_, _, h3⟩ := ElfCache.plainOn_named (pin_faithful hlo.elf p false) p p (fun _ _ => trivial)
        exact pin_other _ p path hne true m (h3.keeps path m (pin_other _ p path hne false m ih2))
      | process pid vmas => exact ih2
    | evict req =>
      cases req with
      | elf p =>
        have hne : path ≠ p := fun h => ht h.symm
        obtain ⟨_, h2, b, h3⟩ := evict_other hlo.elf.wf p
        obtain ⟨pe, h4, h5⟩ := ih2
        rw [← h2 path hne] at h4
        simp only [after, State.evict]
        cases hev : s'.elf.evict p with
        | mk r elf =>
          rw [hev] at h3 h4
          simp only at h3
          subst h3
          exact ⟨pe, h4, h5⟩
      | process pid =>
        simp only [after, State.evict]
        cases s'.perfMap.evict (PerfMap.path (resolvePid w pid)) with
        | mk r perfMap => cases r <;> exact ih2
    | register p resolver =>
      obtain ⟨_, _, hf⟩ := register_faithful (Val := fun _ _ _ => True)
        ⟨hlo.elf.wf, hlo.elf.file, fun _ _ _ _ _ => trivial⟩ p resolver (fun _ _ _ _ => trivial)
      exact hf.keeps path m ih2

/-- **C69** (caching) After an ELF file has been cached, the version of it that was there stays in use,
whatever is at the path later, until the path is cached again or evicted. -/
theorem C69_cached {cfg : Settings M K} {contents : M → Except Err (Except Err Bytes)} {s : State M K}
    (hr : Reachable cfg (SameContents contents) s) (w : World M) (hw : w.disk.contents = contents) (path : Bytes)
    (fill : ElfParser → Except Err _root_.Unit) (hok : (s.cache w fill (.elf path)).1 = .ok ()) :
    ∃ m, uncached cfg s w path = .ok m ∧
      ∀ s', Later cfg (fun s w c => SameContents contents s w c ∧ ¬ Touches path c)
          (s.cache w fill (.elf path)).2 s' →
        ∀ w', (versions s' w').elf path = .ok m := by
  have hlo := (loose_reachable hr).1
  have ha := (loose_reachable hr).2
  have hr' : Reachable cfg (SameContents contents) (s.cache w fill (.elf path)).2 :=
    .call s w (.cache fill (.elf path)) hr ⟨hw, trivial⟩
  subst hw
  have hst : (s.cache w fill (.elf path)).2.elf =
      (s.elf.cacheElf path (w.disk.stat path) (w.disk.opened path) (elfParse path) fill).2 := rfl
  rw [cacheElf_state] at hst
  have hres : ∃ p, (ElfCache.plainOn (s.elf.setPinState path false).2 w.disk elfParse path path).1 = .ok p := by
    have : (s.elf.cacheElf path (w.disk.stat path) (w.disk.opened path) (elfParse path) fill).1 = .ok () := hok
    unfold ElfCache.cacheElf at this
    simp only at this
    unfold ElfCache.plainOn
    cases hp : (ElfCache.plain (s.elf.setPinState path false).2 path (w.disk.stat path) (w.disk.opened path)
        (elfParse path)).1 with
    | error e => rw [hp] at this; cases this
    | ok p => exact ⟨p, rfl⟩
  obtain ⟨p, hres⟩ := hres
  obtain ⟨b, m, h1, h2⟩ := plainOn_current (pin_faithful hlo.elf path false) path path hres
  rw [effective_unpin, ha.elf] at h1
  refine ⟨m, h1, ?_⟩
  have hcur : Current (s.cache w fill (.elf path)).2.elf path true m := by
    rw [hst]
    exact setPinState_current _ path true b m h2
  intro s' hl w'
  exact effective_kept (pin_lasts hr' path m hcur hl).2 (Or.inl rfl) w'.disk.stat

/-- **C69** (evicting) Evicting an ELF file succeeds; then the version that is on disk is used. Nothing
else is affected. -/
theorem C69_evict {cfg : Settings M K} {contents : M → Except Err (Except Err Bytes)} {s : State M K}
    (hr : Reachable cfg (SameContents contents) s) (w : World M) (path : Bytes) :
    (s.evict w (.elf path)).1 = .ok () ∧
    (∀ w', (versions (s.evict w (.elf path)).2 w').elf path = w'.disk.stat path) ∧
    (∀ w' q, q ≠ path → (versions (s.evict w (.elf path)).2 w').elf q = (versions s w').elf q) ∧
    (∀ w', versions (s.evict w (.elf path)).2 w' =
      { versions s w' with elf := (versions (s.evict w (.elf path)).2 w').elf }) ∧
    (s.evict w (.elf path)).2.vmas = s.vmas := by
  have hlo := (loose_reachable hr).1
  obtain ⟨h1, h2, b, h3⟩ := evict_other hlo.elf.wf path
  have h4 := evict_auto hlo.elf.wf path
  have hz : s.evict w (.elf path) = (.ok (), { s with
      elf := (s.elf.evict path).2
      process := s.process.retain (fun name _ => !namesPath path name) }) := by
    unfold State.evict
    cases hev : s.elf.evict path with
    | mk r elf =>
      rw [hev] at h3
      simp only at h3
      subst h3
      simp only [hev]
  rw [hz]
  refine ⟨rfl, ?_, ?_, fun _ => rfl, rfl⟩
  · intro w'
    simp only [versions, effective, h1]
  · intro w' q hq
    simp only [versions, effective, h2 q hq, h4]

theorem collect_items {α : Type} {items : List (Except Err α)} {l : List α} (h : collect items = .ok l) :
    items = l.map .ok := by
  induction items generalizing l with
  | nil => cases h; rfl
  | cons x t ih =>
    cases x with
    | error e => simp [collect] at h
    | ok x =>
      simp only [collect] at h
      cases hc : collect t with
      | error e => rw [hc] at h; cases h
      | ok l' =>
        rw [hc] at h
        cases h
        rw [ih hc]
        rfl

/-- Cached mappings last until the process is cached again or evicted. -/
theorem maps_last {cfg : Settings M K} {contents : M → Except Err (Except Err Bytes)} {s : State M K}
    (hr : Reachable cfg (SameContents contents) s) (pid : Nat) {s' : State M K}
    (hl : Later cfg (fun s w c => SameContents contents s w c ∧ ¬ TouchesMaps pid c) s s') :
    Reachable cfg (SameContents contents) s' ∧ s'.vmas pid = s.vmas pid := by
  induction hl with
  | now => exact ⟨hr, rfl⟩
  | call s' w c _ ho ih =>
    obtain ⟨ih1, ih2⟩ := ih
    refine ⟨.call s' w c ih1 ho.1, ?_⟩
    rw [← ih2]
    have hlo := (loose_reachable ih1).1
    obtain ⟨hsame, ht⟩ := ho
    have hw := hsame.1
    subst hw
    cases c with
    | symbolize src input => exact congrFun ((loose_request hlo src).1 input).vmas pid
    | symbolizeSingle src input => exact congrFun ((loose_request hlo src).2 input).vmas pid
    | register p resolver => rfl
    | cache fill req =>
      cases req with
      | elf p => rfl
      | process p vmas =>
        simp only [after, State.cache, cacheProcess]
        cases vmas with
        | false => rfl
        | true =>
          have hne : pid ≠ p := fun h => ht ⟨h.symm, rfl⟩
          simp only [if_true]
          cases w.maps p with
          | error e => rfl
          | ok items =>
            simp only
            cases collect items with
            | error e => rfl
            | ok l => simp [hne]
    | evict req =>
      cases req with
      | elf p =>
        simp only [after, State.evict]
        cases s'.elf.evict p with
        | mk r elf => cases r <;> rfl
      | process p =>
        have hne : pid ≠ p := fun h => ht h.symm
        simp only [after, State.evict]
        cases s'.perfMap.evict (PerfMap.path (resolvePid w p)) with
        | mk r perfMap => cases r <;> simp [evictProcess, hne]

/-- **C69** (caching mappings) After the mappings of a process have been cached, they stay in use, until
they are cached again or evicted. -/
theorem C69_cached_maps {cfg : Settings M K} {contents : M → Except Err (Except Err Bytes)} {s : State M K}
    (hr : Reachable cfg (SameContents contents) s) (w : World M) (hw : w.disk.contents = contents) (pid : Nat)
    (fill : ElfParser → Except Err _root_.Unit) (hok : (s.cache w fill (.process pid true)).1 = .ok ()) :
    ∀ s', Later cfg (fun s w c => SameContents contents s w c ∧ ¬ TouchesMaps pid c)
        (s.cache w fill (.process pid true)).2 s' →
      ∀ w' : World M, mapsOf w' s'.vmas pid = w.maps pid := by
  intro s' hl w'
  have hr' : Reachable cfg (SameContents contents) (s.cache w fill (.process pid true)).2 :=
    .call s w (.cache fill (.process pid true)) hr ⟨hw, trivial⟩
  have h := (maps_last hr' pid hl).2
  unfold mapsOf
  rw [h]
  unfold State.cache cacheProcess at hok ⊢
  simp only [if_true] at hok ⊢
  cases hm : w.maps pid with
  | error e => rw [hm] at hok; cases hok
  | ok items =>
    simp only [hm] at hok ⊢
    cases hc : collect items with
    | error e => rw [hc] at hok; cases hok
    | ok l =>
      simp only [if_true]
      rw [collect_items hc]

/-- **C69** (evicting mappings) Evicting a process succeeds; then its mappings are read again, and its
perf map is. Nothing else is affected. -/
theorem C69_evict_process {cfg : Settings M K} {contents : M → Except Err (Except Err Bytes)} {s : State M K}
    (hr : Reachable cfg (SameContents contents) s) (w : World M) (pid : Nat) :
    (s.evict w (.process pid)).1 = .ok () ∧
    (∀ w' : World M, mapsOf w' (s.evict w (.process pid)).2.vmas pid = w'.maps pid) ∧
    (∀ (w' : World M) (q : Nat), q ≠ pid → mapsOf w' (s.evict w (.process pid)).2.vmas q = mapsOf w' s.vmas q) ∧
    (∀ w', (versions (s.evict w (.process pid)).2 w').perfMap (PerfMap.path (resolvePid w pid)) =
      w'.disk.stat (PerfMap.path (resolvePid w pid))) ∧
    (∀ w' q, q ≠ PerfMap.path (resolvePid w pid) →
      (versions (s.evict w (.process pid)).2 w').perfMap q = (versions s w').perfMap q) ∧
    ∀ w', versions (s.evict w (.process pid)).2 w' =
      { versions s w' with perfMap := (versions (s.evict w (.process pid)).2 w').perfMap } := by
  have hlo := (loose_reachable hr).1
  obtain ⟨h1, h2, b, h3⟩ := evict_other hlo.perfMap.wf (PerfMap.path (resolvePid w pid))
  have h4 := evict_auto hlo.perfMap.wf (PerfMap.path (resolvePid w pid))
  have hz : s.evict w (.process pid) = (.ok (), { s with
      vmas := evictProcess s.vmas pid
      perfMap := (s.perfMap.evict (PerfMap.path (resolvePid w pid))).2 }) := by
    unfold State.evict
    cases hev : s.perfMap.evict (PerfMap.path (resolvePid w pid)) with
    | mk r perfMap =>
      rw [hev] at h3
      simp only at h3
      subst h3
      simp only [hev]
  rw [hz]
  refine ⟨rfl, ?_, ?_, ?_, ?_, fun _ => rfl⟩
  · intro w'
    simp [mapsOf, evictProcess]
  · intro w' q hq
    simp [mapsOf, evictProcess, hq]
  · intro w'
    simp only [versions, effective, h1]
  · intro w' q hq
    simp only [versions, effective, h2 q hq, h4]

/-! ### What does not hold, and examples -/

/-- A symbolizer without dispatchers that reloads files. -/
def exSettings : Settings Nat _root_.Unit where
  tools := exTools
  demangler := ⟨fun _ => none, fun _ => none⟩
  autoReload := true
  codeInfo := true
  inlinedFns := true
  demangle := false
  debugDirs := Inspect.defaultDebugDirs
  apkDispatch := none
  processDispatch := none
  kernel := fun _ _ s => (.error .unsupported, s)
  kernelNew := ()

/-- The world of the inspector's example; the only process, 7, is the program itself, and has one mapping. -/
def exHost (debugFile : Bool) : World Nat where
  toWorld := Inspect.exWorld debugFile
  procMaps := fun pid =>
    if pid = 0 ∨ pid = 7 then .ok (ascii "400000-401000 r-xp 00000000 00:00 1 /bin/c\n") else .error .notFound
  ownPid := 7
  memory := fun _ _ => []
  gsymAddr := 0
  sys := ⟨.error .notFound, .error .notFound, .error .notFound, fun _ _ => .error .notFound, fun _ => .error .notFound⟩

/-- The same, while the process has no mappings. -/
def exHostBare : World Nat := { exHost false with procMaps := fun _ => .ok [] }

set_option maxRecDepth 20000 in
/-- **C68** (negative) the module that is reported can be the path under which the same file was used
first. -/
theorem C68_module_wrong :
    let module : Except Err (List Symbolized) → Except Err (List (Option (Option Bytes))) :=
      Except.map (List.map fun | .sym x => some x.module | .unknown _ => none)
    module ((((State.new exSettings).symbolize exSettings (exHost false) (.elf (ascii "/bin/c") false)
      (.virtOffset [])).2.symbolize exSettings (exHost false) (.elf (ascii "/bin/d") false)
        (.virtOffset [0x1000])).1) = .ok [some (some (ascii "/bin/c"))] ∧
    module (symbolize (envAt exSettings (exHost false) (present (exHost false)) (exHost false).maps)
      (.elf (ascii "/bin/d") false) (.virtOffset [0x1000])) = .ok [some (some (ascii "/bin/d"))] := by
  constructor <;> decide +kernel

set_option maxRecDepth 20000 in
/-- **C69** (negative) evicting a process by its number leaves mappings that were cached by the special
number for the own process, although it is the same process. -/
theorem C69_evict_alias_wrong :
    resolvePid exHostBare 0 = resolvePid exHostBare 7 ∧
    mapsOf exHostBare ((((State.new exSettings).cache (exHost false) (fun _ => .ok ()) (.process 0 true)).2.evict
      exHostBare (.process 7)).2.vmas) 0 ≠ exHostBare.maps 0 := by
  constructor <;> decide +kernel

/-! ### What a dispatcher returned, and registering -/

theorem find_filter_key {V : Type} {A : Type} [DecidableEq A] (l : List (A × V)) (f : A → Bool) (key : A) :
    InsertMap.find (l.filter (fun x => f x.1)) key = if f key then InsertMap.find l key else none := by
  induction l with
  | nil => simp [InsertMap.find]
  | cons x t ih =>
    obtain ⟨k, v⟩ := x
    by_cases hk : k = key
    · subst hk
      cases hf : f k
      · simp only [List.filter, hf, ih]
        simp
      · simp [List.filter, hf, InsertMap.find]
    · cases hf : f k
      · simp only [List.filter, hf, ih, InsertMap.find, hk, if_false]
      · simp only [List.filter, hf, InsertMap.find, hk, if_false, ih]

/-- **C69** (evicting and dispatchers) After evicting a path, a process dispatcher is asked again for the
mappings that have this path, as the path in the listing or the link to the file; what it returned for
other names is kept. -/
theorem C69_evict_dispatched {cfg : Settings M K} {contents : M → Except Err (Except Err Bytes)} {s : State M K}
    (hr : Reachable cfg (SameContents contents) s) (w w' : World M) (path : Bytes) (start stop : Nat)
    {d : Nat → Nat → PathName → Except Err (Option Resolver)} (hd : cfg.processDispatch = some d) :
    (∀ p : EntryPath, p.mapsFile = path ∨ p.symbolicPath = path →
      ((host cfg w').dispatch start stop (.path p) (s.evict w (.elf path)).2).1 = d start stop (.path p)) ∧
    (∀ name : PathName, (∀ p : EntryPath, name = .path p → p.mapsFile ≠ path ∧ p.symbolicPath ≠ path) →
      ((host cfg w').dispatch start stop name (s.evict w (.elf path)).2).1 =
        ((host cfg w').dispatch start stop name s).1) := by
  have hok := (C69_evict hr w path).1
  have hp : (s.evict w (.elf path)).2.process = s.process.retain (fun name _ => !namesPath path name) := by
    unfold State.evict at hok ⊢
    cases he : s.elf.evict path with
    | mk r elf =>
      cases r with
      | error e => simp only [he] at hok; cases hok
      | ok x => simp only [he]
  have hget : ∀ name, InsertMap.find (s.evict w (.elf path)).2.process.pairs name =
      if !namesPath path name then InsertMap.find s.process.pairs name else none := by
    intro name
    rw [hp]
    exact find_filter_key s.process.pairs (fun n => !namesPath path n) name
  constructor
  · intro p hpath
    have : namesPath path (.path p) = true := by
      rcases hpath with h | h <;> simp [namesPath, h]
    have hn := hget (.path p)
    simp only [this, Bool.not_true, Bool.false_eq_true, if_false] at hn
    simp only [host, on, Act.zoom, dispatchOn, hd, InsertMap.getOrTryInsert, hn]
    cases d start stop (.path p) <;> rfl
  · intro name hname
    have : namesPath path name = false := by
      cases name with
      | component _ => rfl
      | path p =>
        obtain ⟨h1, h2⟩ := hname p rfl
        simp [namesPath, h1, h2]
    have hn := hget name
    simp only [this, Bool.not_false, if_true] at hn
    simp only [host, on, Act.zoom, dispatchOn, hd, InsertMap.getOrTryInsert, hn]
    cases InsertMap.find s.process.pairs name with
    | some v => rfl
    | none => cases d start stop name <;> rfl

/-- What is known about a version does not get lost when it is asked for. -/
theorem entry_value {P F T : Type} [DecidableEq P] {s : FileCache P M F T} (hs : WF s) {p : P} {st : Except Err M}
    {o : Except Err F} {m : M} {e e0 : Cache.Entry F T} {s' : FileCache P M F T}
    (h : s.entry p st o = (.ok (m, e), s')) (h0 : s.entries.get m = some e0) : e.value = e0.value := by
  by_cases hk : Kept s p
  · obtain ⟨b, m', hc, hb⟩ := hk
    obtain ⟨e', hg, hent⟩ := entry_keep hs p st o b m' hc hb
    rw [hent] at h
    cases h
    rw [hg] at h0
    cases h0
    rfl
  · have h1 : ∀ m, ¬ Current s p true m := fun m hm => hk ⟨true, m, hm, .inl rfl⟩
    have h2 : s.autoReload = true ∨ s.cache.get p = none := by
      cases ha : s.autoReload with
      | true => exact .inl rfl
      | false =>
        right
        cases hc : s.cache.get p with
        | none => rfl
        | some pe =>
          obtain ⟨q, hq⟩ := Option.isSome_iff_exists.mp (hs.cur p pe hc)
          exact (hk ⟨q.1, q.2, ⟨pe, hc, hq⟩, Or.inr ha⟩).elim
    rcases ((entry_reload p st o h1 h2).2 m e (by rw [h])).2.2 with ⟨e1, h3, _, h4⟩ | ⟨h3, _⟩
    · rw [h3] at h0
      cases h0
      exact h4.symm
    · rw [h3] at h0; cases h0

/-- **C69** (registering) A resolver can be registered for a file once: a second attempt, before the file
changes, is refused. -/
theorem C69_register_twice {cfg : Settings M K} {contents : M → Except Err (Except Err Bytes)} {s : State M K}
    (hr : Reachable cfg (SameContents contents) s) (w : World M) (path : Bytes) (r r' : ElfResolver)
    (hsame : SameContents contents s w (.register path r)) (hok : (s.register w path r).1 = .ok ()) :
    ((s.register w path r).2.register w path r').1 = .error .alreadyExists := by
  obtain ⟨hw, hval⟩ := hsame
  subst hw
  have hlo := (loose_reachable hr).1
  have hlo' := (loose_reachable (Reachable.call s w (.register path r) hr ⟨rfl, hval⟩)).1.elf
  have hany : ∀ {s : ElfCache Bytes M (Except Err Bytes) ElfParser DebugData}, LooseElf w.disk.contents s →
      Faithful w.disk.contents (fun _ _ _ => True) s := fun h => ⟨h.wf, h.file, fun _ _ _ _ _ => trivial⟩
  have hok' : (registerOn w path r s.elf).1 = .ok () := hok
  show (registerOn w path r' (registerOn w path r s.elf).2).1 = _
  have hwf : WF (registerOn w path r s.elf).2 := hlo'.wf
  obtain ⟨h1, h2, h3⟩ := entry_faithful (hany hlo.elf) path
  cases he : effective s.elf w.disk.stat path with
  | error e => unfold registerOn at hok'; rw [h1 e he] at hok'; cases hok'
  | ok m =>
    cases hcm : w.disk.contents m with
    | error e => unfold registerOn at hok'; rw [h2 m e he hcm] at hok'; cases hok'
    | ok f =>
      obtain ⟨e, s1, hent, hfile, hg, hs1, hfr, _⟩ := h3 m f he hcm
      cases hv : e.value with
      | some x => unfold registerOn at hok'; simp only [hent, hv] at hok'; cases hok'
      | none =>
        have hs2 : (registerOn w path r s.elf).2 = ElfCache.setValue s1 m (elfData r) := by
          unfold registerOn; simp only [hent, hv]
        have hf2 : Frame w.disk.stat s.elf (ElfCache.setValue s1 m (elfData r)) :=
          hfr.trans (ElfCache.setValue_frame _ _ _ _)
        have hfa : Faithful w.disk.contents (fun _ _ _ => True) (registerOn w path r s.elf).2 := hany hlo'
        rw [hs2] at hfa hwf ⊢
        obtain ⟨_, _, k3⟩ := entry_faithful hfa path
        obtain ⟨e', s3, hent', _⟩ := k3 m f (by rw [hf2.effective]; exact he) hcm
        have hval' := entry_value hwf hent' (e0 := { e with value := some (elfData r) })
          (by simp [ElfCache.setValue, hg])
        unfold registerOn
        simp only [hent', hval']

/-- What is known about the example's files. -/
def exKnown : Known Nat where
  contents := Inspect.exContents
  name := Inspect.exUniverse.name
  debug := Inspect.exUniverse.debug
  member := fun _ _ _ _ => .error .notFound
  vdso := .error .notFound

/-- Symbolizing addresses in `/bin/a` with debug information is an orderly call. -/
theorem exCall_orderly (addrs : List Nat) : Orderly exSettings exKnown (State.new exSettings) (exHost true)
    (.symbolize (.elf (ascii "/bin/a") true) (.virtOffset addrs)) := by
  refine ⟨rfl, ?_⟩
  intro l hl
  cases hl
  intro m hm
  have h := Inspect.exOrderly.2 m
  have hm' : (Inspect.exWorld true).disk.stat (ascii "/bin/a") = .ok m := by
    simpa [versions, effective, State.new, FileCache.new, InsertMap.get, InsertMap.find, exHost] using hm
  obtain ⟨h1, h2⟩ := h hm'
  have hv : (versions (State.new exSettings) (exHost true)).elf = (exHost true).disk.stat := by
    funext p
    simp [versions, effective, State.new, FileCache.new, InsertMap.get, InsertMap.find]
  rw [hv]
  exact ⟨h1, fun _ => h2 rfl⟩

example (addrs : List Nat) : Reachable exSettings (fun s w c => Orderly exSettings exKnown s w c ∧ NotCaching c)
    (after exSettings (exHost true) (State.new exSettings)
      (.symbolize (.elf (ascii "/bin/a") true) (.virtOffset addrs))) :=
  .call _ _ _ .new ⟨exCall_orderly addrs, trivial⟩

example : DispatchByName exSettings := by intro d hd; cases hd

example (m : Nat) (data : Bytes) (h : exKnown.contents m = .ok (.ok data)) : data.length < 2 ^ 63 := by
  match m, h with
  | 0, h => have := Except.ok.inj (Except.ok.inj h); subst this; decide +kernel
  | 1, h => have := Except.ok.inj (Except.ok.inj h); subst this; decide +kernel
  | 2, h => have := Except.ok.inj (Except.ok.inj h); subst this; decide +kernel
  | _ + 3, h => cases h

set_option maxRecDepth 20000 in
/-- Caching `/bin/c` succeeds, as does caching the mappings. -/
example : ((State.new exSettings).cache (exHost false) (fun _ => .ok ()) (.elf (ascii "/bin/c"))).1 = .ok () ∧
    ((State.new exSettings).cache (exHost false) (fun _ => .ok ()) (.process 0 true)).1 = .ok () := by
  constructor <;> decide +kernel

set_option maxRecDepth 20000 in
/-- The mapping of the process is to `/bin/c`, so that, without debug information and the vDSO, only plain
lookups are made. -/
example (l : Lookup) (h : Uses (exHost false).maps (.process ⟨7, false, true, false, false⟩) l) : Plain l := by
  generalize hs : Source.process ⟨7, false, true, false, false⟩ = src at h
  cases h with
  | process src items e l h1 h2 h3 =>
    cases hs
    have hall : ∀ items, (exHost false).maps 7 = .ok items → ∀ e : Maps.Entry, .ok e ∈ items →
        ∀ p : EntryPath, e.pathName = some (.path p) → extension p.symbolicPath = none := by
      intro items hi e he p hp
      have hd : (exHost false).maps 7 = .ok items → items.all (fun x => match x with
          | .ok e => match e.pathName with
            | some (.path p) => extension p.symbolicPath == none
            | _ => true
          | .error _ => true) = true := by
        have : ((exHost false).maps 7).map (List.all · (fun x => match x with
          | .ok e => match e.pathName with
            | some (.path p) => extension p.symbolicPath == none
            | _ => true
          | .error _ => true)) = .ok true := by decide +kernel
        intro h
        rw [h] at this
        exact Except.ok.inj this
      have := List.all_eq_true.mp (hd hi) _ he
      simp only [hp] at this
      simpa using this
    cases h3 with
    | dispatch name _ => trivial
    | apk p hp hx => rcases hx with hx | hx <;> rw [hall items h1 e h2 p hp] at hx <;> cases hx
    | elf p _ => rfl
    | vdso _ hv => cases hv
    | perfMap _ _ => trivial
  | _ => cases hs

set_option maxRecDepth 20000 in
/-- A resolver can be registered for `/bin/c`. -/
example : ((State.new exSettings).register (exHost false) (ascii "/bin/c")
    (.elf ⟨some (ascii "/bin/c"), .mem 4096 Elf.tinyElf⟩)).1 = .ok () := by
  decide +kernel

/-- With a dispatcher that fails for a mapping at 0: the answer for another mapping of the same file is
kept, until the file is evicted. -/
example :
    let cfg : Settings Nat _root_.Unit :=
      { exSettings with processDispatch := some fun start _ _ => if start = 0 then .error .notFound else .ok none }
    let name := PathName.path ⟨ascii "/proc/7/map_files/0-1", ascii "/bin/c"⟩
    let failed : Except Err (Option Resolver) → Bool := fun r => match r with | .error _ => true | .ok _ => false
    let s := ((host cfg (exHost false)).dispatch 1 2 name (State.new cfg)).2
    failed ((host cfg (exHost false)).dispatch 0 1 name s).1 = false ∧
    failed ((host cfg (exHost false)).dispatch 0 1 name (s.evict (exHost false) (.elf (ascii "/bin/c"))).2).1 = true := by
  decide +kernel

end Blazesym.Symbolize
