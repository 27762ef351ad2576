import Verif.Cli.ListLemmas
import Verif.Session.ShapeProps
import Verif.Session.NormalizerProps

/-! Property theorems C77: the command line tool. -/

set_option autoImplicit false

namespace Blazesym.Cli
open Blazesym.Util Blazesym.Spec Blazesym.Spec.Cli
open Blazesym.Symbolize (Symbolized Sym CodeInfo InlinedFn Input)
open Blazesym.Normalize (UserMeta)
open Blazesym.Dwarf (Tools)

variable {M : Type} [DecidableEq M]

/-! ### Arguments -/

/-- **C77** A process number is accepted exactly if it is a 32 bit number, decimal or (after `0x`)
hexadecimal, and is then the number that is meant. -/
theorem C77_pid (s : Bytes) (v : Nat) :
    parsePid s = some v ↔
      v < 2 ^ 32 ∧ ((∃ t, s = ascii "0x" ++ t ∧ NumText 16 t v) ∨ (¬ ascii "0x" <+: s ∧ NumText 10 s v)) := by
  unfold parsePid
  cases h : stripPrefix s (ascii "0x") with
  | some t =>
    rw [stripPrefix_some_iff] at h
    subst h
    simp only
    rw [fromStrRadix_iff (by decide) (by decide) (by decide)]
    constructor
    · rintro ⟨h1, h2⟩
      exact ⟨h2, Or.inl ⟨t, rfl, h1⟩⟩
    · rintro ⟨h2, ⟨t', h3, h1⟩ | ⟨h3, _⟩⟩
      · rw [List.append_cancel_left h3]
        exact ⟨h1, h2⟩
      · exact absurd (List.prefix_append _ _) h3
  | none =>
    simp only
    have hn : ∀ t, s ≠ ascii "0x" ++ t := by
      intro t ht
      rw [stripPrefix_some_iff.mpr ht] at h
      cases h
    rw [fromStrRadix_iff (by decide) (by decide) (by decide)]
    constructor
    · rintro ⟨h1, h2⟩
      exact ⟨h2, Or.inr ⟨fun ⟨t, ht⟩ => hn t ht.symm, h1⟩⟩
    · rintro ⟨h2, ⟨t', h3, h1⟩ | ⟨_, h1⟩⟩
      · exact absurd h3 (hn t')
      · exact ⟨h1, h2⟩

example : parsePid (ascii "0x1f") = some 31 ∧ parsePid (ascii "31") = some 31 ∧ parsePid (ascii "1f") = none ∧
    parsePid (ascii "4294967296") = none := by decide

/-- Repetitions of a text are no prefix of what does not start with it. -/
theorem repeated_unique {pat : Bytes} (n m : Nat) {s t : Bytes} (hs : ¬ pat <+: s) (ht : ¬ pat <+: t)
    (h : (List.replicate n pat).flatten ++ s = (List.replicate m pat).flatten ++ t) : s = t := by
  induction n generalizing m with
  | zero =>
    cases m with
    | zero => simpa using h
    | succ m =>
      rw [List.replicate_succ, List.flatten_cons] at h
      simp only [List.replicate_zero, List.flatten_nil, List.nil_append] at h
      exact absurd ⟨_, (List.append_assoc _ _ _).symm.trans h.symm⟩ hs
  | succ n ih =>
    rw [List.replicate_succ, List.flatten_cons] at h
    cases m with
    | zero =>
      simp only [List.replicate_zero, List.flatten_nil, List.nil_append] at h
      exact absurd ⟨_, (List.append_assoc _ _ _).symm.trans h⟩ ht
    | succ m =>
      rw [List.replicate_succ, List.flatten_cons, List.append_assoc, List.append_assoc] at h
      exact ih m (List.append_cancel_left h)

/-- **C77** An address is accepted exactly if it is a hexadecimal 64 bit number, with any number of `0x` before
it, and is then the number that is meant. -/
theorem C77_addr (s : Bytes) (v : Nat) :
    parseAddr s = some v ↔
      v < 2 ^ 64 ∧ ∃ n t, s = (List.replicate n (ascii "0x")).flatten ++ t ∧ NumText 16 t v := by
  have hno : ∀ t, NumText 16 t v → ¬ ascii "0x" <+: t := by
    rintro t ⟨ds, h1, -, h2, -⟩ ⟨r, hr⟩
    have hx : (120 : UInt8) ∈ t := by rw [← hr]; simp [show ascii "0x" = [48, 120] by decide]
    rcases h1 with rfl | rfl
    · exact absurd (h2 _ hx) (by decide)
    · rcases List.mem_cons.mp hx with h | h
      · exact absurd h (by decide)
      · exact absurd (h2 _ h) (by decide)
  obtain ⟨n, h1, h2⟩ := trimStartMatches_spec (ascii "0x") (by decide) s.length s (Nat.le_refl _)
  unfold parseAddr
  rw [fromStrRadix_iff (by decide) (by decide) (by decide)]
  constructor
  · rintro ⟨h3, h4⟩
    exact ⟨h4, n, _, h1, h3⟩
  · rintro ⟨h4, m, t, h5, h6⟩
    have : trimStartMatches (ascii "0x") s.length s = t :=
      repeated_unique n m (fun ⟨r, hr⟩ => h2 ⟨r, hr.symm⟩) (hno t h6) (h1.symm.trans h5)
    rw [this]
    exact ⟨h6, h4⟩

example : parseAddr (ascii "0x1f") = some 31 ∧ parseAddr (ascii "1f") = some 31 ∧ parseAddr (ascii "0x0x1f") = some 31 ∧
    parseAddr (ascii "0x") = none ∧ parseAddr (ascii "10000000000000000") = none := by decide

/-- **C77** An address that is read in the output can be given back as an argument, with or without the `0x`. -/
theorem C77_paste (t : Bytes) (a : Nat) (ha : a < 2 ^ 64) (h : hex t = some a ∨ number 16 t = some a) :
    parseAddr t = some a := by
  have hnum : ∀ u : Bytes, number 16 u = some a → NumText 16 u a := by
    intro u hu
    unfold number at hu
    split at hu
    · rename_i hc
      cases hu
      exact ⟨u, Or.inl rfl, hc.1, hc.2, rfl⟩
    · cases hu
  rw [C77_addr]
  refine ⟨ha, ?_⟩
  rcases h with h | h
  · unfold hex afterStart at h
    split at h
    · rename_i hp
      obtain ⟨u, rfl⟩ := hp
      simp only [Option.bind_some, List.drop_left] at h
      exact ⟨1, u, by simp, hnum u h⟩
    · cases h
  · exact ⟨0, t, by simp, hnum t h⟩

example : hex (ascii "0x0000000000401f") = some 0x401f ∧ parseAddr (ascii "0x0000000000401f") = some 0x401f := by
  decide

/-! ### `symbolize` -/

theorem asks_source {cmd : SymbolizeCmd} {src : Symbolize.Source} {input : Input (List Nat)}
    {dirs : Option (List Bytes)} (h : Asks cmd src input dirs) :
    sourceOf cmd = (src, input) ∧ dirsOf cmd = dirs.getD Inspect.defaultDebugDirs ∧
      (input = .absAddr cmd.addrs ∨ input = .virtOffset cmd.addrs ∨ input = .fileOffset cmd.addrs) := by
  have hb : ∀ {a b : Bool}, (a = true ↔ b = false) → (!b) = a := by decide
  have hf : ∀ {x : Option Bytes} {y : Kernel.MaybeDefault Bytes}, FileArg x y → pathArg x = y := by
    intro x y h
    cases x with
    | none => exact h.symm
    | some path =>
      rcases h with ⟨rfl, rfl⟩ | ⟨h1, rfl⟩
      · rfl
      · unfold pathArg
        simp only
        rw [if_neg (by simpa using h1)]
  cases h with
  | breakpad path addrs => exact ⟨rfl, rfl, Or.inr (Or.inr rfl)⟩
  | elf path dirs noDebugSyms debugSyms addrs h =>
    refine ⟨?_, rfl, Or.inr (Or.inl rfl)⟩
    rw [← hb h]
    rfl
  | gsym path addrs => exact ⟨rfl, rfl, Or.inr (Or.inl rfl)⟩
  | process pid dirs noDebugSyms debugSyms noMapFiles mapFiles addrs h hm =>
    refine ⟨?_, rfl, Or.inl rfl⟩
    rw [← hb h, ← hb hm]
    rfl
  | kernel kallsyms vmlinux k v addrs hk hv =>
    refine ⟨?_, rfl, Or.inl rfl⟩
    rw [← hf hk, ← hf hv]
    rfl

theorem default_settings {p : Platform} {dirs : Option (List Bytes)}
    {cfg : Symbolize.Settings M (Symbolize.KernelCache M)} (h : DefaultSettings p dirs cfg) :
    settings p (dirs.getD Inspect.defaultDebugDirs) = cfg := by
  obtain ⟨h1, h2, h3, h4, h5, h6, h7, h8, h9, h10, h11⟩ := h
  cases cfg
  simp only at h1 h2 h3 h4 h5 h6 h7 h8 h9 h10 h11
  subst h1 h2 h3 h4 h5 h6 h7 h8 h9 h10 h11
  rfl

/-- **C77** What is printed for several addresses (or none) can be read back, and is for each of them what a new
symbolizer with default settings answers; if the symbolizer fails, nothing is printed. -/
theorem C77_symbolize_several (p : Platform) (w : Symbolize.World M) (cmd : SymbolizeCmd) (src : Symbolize.Source)
    (input : Input (List Nat)) (dirs : Option (List Bytes)) (hask : Asks cmd src input dirs)
    (cfg : Symbolize.Settings M (Symbolize.KernelCache M)) (hcfg : DefaultSettings p dirs cfg)
    (hn : cmd.addrs.length ≠ 1) :
    (∀ e, ((Symbolize.State.new cfg).symbolize cfg w src input).1 = .error e → runSymbolize p w cmd = ⟨[], .error e⟩) ∧
    ∀ syms, ((Symbolize.State.new cfg).symbolize cfg w src input).1 = .ok syms →
      (∀ a ∈ cmd.addrs, a < 2 ^ 64) → (∀ s ∈ syms, PlainAnswer p.display s) →
      syms.length = cmd.addrs.length ∧ (runSymbolize p w cmd).result = .ok () ∧
      readFrames (runSymbolize p w cmd).stdout = some (cmd.addrs.zip (syms.map (frameOf p.display))) := by
  obtain ⟨h1, h2, h3⟩ := asks_source hask
  have hall : symbolizeAll p w cmd = ((Symbolize.State.new cfg).symbolize cfg w src input).1 := by
    unfold symbolizeAll
    simp only
    rw [h1, h2, default_settings hcfg]
    simp only
    split
    · rename_i heq
      rw [heq] at hn
      simp at hn
    · rfl
  refine ⟨?_, ?_⟩
  · intro e he
    unfold runSymbolize
    rw [hall, he]
    rfl
  · intro syms hs ha hp
    unfold runSymbolize
    rw [hall, hs]
    exact ⟨Symbolize.C68_count cfg w _ src cmd.addrs syms input h3 hs, rfl, readFrames_printAll _ _ ha hp⟩

/-- **C77** What is printed for a single address can be read back, and is what a new symbolizer with default settings
answers for the address; if the symbolizer fails, nothing is printed. -/
theorem C77_symbolize_one (p : Platform) (w : Symbolize.World M) (cmd : SymbolizeCmd) (src : Symbolize.Source)
    (input : Input (List Nat)) (dirs : Option (List Bytes)) (hask : Asks cmd src input dirs)
    (cfg : Symbolize.Settings M (Symbolize.KernelCache M)) (hcfg : DefaultSettings p dirs cfg)
    (addr : Nat) (hn : cmd.addrs = [addr]) :
    (∀ e, ((Symbolize.State.new cfg).symbolizeSingle cfg w src (input.map fun _ => addr)).1 = .error e →
      runSymbolize p w cmd = ⟨[], .error e⟩) ∧
    ∀ sym, ((Symbolize.State.new cfg).symbolizeSingle cfg w src (input.map fun _ => addr)).1 = .ok sym →
      addr < 2 ^ 64 → PlainAnswer p.display sym →
      (runSymbolize p w cmd).result = .ok () ∧
      readFrames (runSymbolize p w cmd).stdout = some [(addr, frameOf p.display sym)] := by
  obtain ⟨h1, h2, h3⟩ := asks_source hask
  refine ⟨?_, ?_⟩
  · intro e he
    have hall : symbolizeAll p w cmd = .error e := by
      unfold symbolizeAll
      simp only
      rw [h1, h2, default_settings hcfg, hn]
      simp only
      rw [he]
    unfold runSymbolize
    rw [hall]
    rfl
  · intro sym hs ha hp
    have hall : symbolizeAll p w cmd = .ok [sym] := by
      unfold symbolizeAll
      simp only
      rw [h1, h2, default_settings hcfg, hn]
      simp only
      rw [hs]
    unfold runSymbolize
    rw [hall, hn]
    exact ⟨rfl, readFrames_printAll [addr] [sym] (by simpa using ha) (by simpa using hp)⟩

/-! ### `normalize` -/

theorem runNormalize_eq (p : Platform) (w : Normalize.World M) (cmd : NormalizeCmd) :
    runNormalize p w cmd =
      match normalized p w cmd with
      | .err e => .fail e
      | .ok metas outputs => printNormalized p.display metas cmd.addrs outputs := by
  have : Normalize.Builder.build
      { Normalize.Builder.default with buildIds := !cmd.noBuildIds, useProcmapQuery := cmd.procmapQuery } p.tools =
      normalizerFor p cmd := by
    unfold Normalize.Builder.build normalizerFor Normalize.Builder.default
    simp
  unfold runNormalize normalized
  simp only
  rw [this]
  rfl


/-- The records are not those that only C77_normalize_vdso_wrong is about. -/
theorem shown_exists (display : Bytes → Bytes) (metas : List UserMeta) (hv : ∀ s : Sym, UserMeta.sym s ∉ metas)
    (hp : ∀ m ∈ metas, PlainMeta display m) (outs : List (Nat × Nat)) (hi : ∀ o ∈ outs, o.2 < metas.length)
    (h64 : ∀ o ∈ outs, o.1 < 2 ^ 64) : ∃ fs, ShownAll display metas outs fs := by
  induction outs with
  | nil => exact ⟨[], .nil⟩
  | cons o outs ih =>
    obtain ⟨fs, hfs⟩ := ih (fun o h => hi o (List.mem_cons_of_mem _ h)) (fun o h => h64 o (List.mem_cons_of_mem _ h))
    have hlt := hi o (List.mem_cons_self ..)
    have hm : metas[o.2]? = some metas[o.2] := List.getElem?_eq_getElem hlt
    have hmem : metas[o.2] ∈ metas := List.getElem_mem hlt
    have : ∃ f, Shown display o.1 metas[o.2] f := by
      cases hc : metas[o.2] with
      | apk path => exact ⟨_, .apk path⟩
      | elf path id => exact ⟨_, .elf path id⟩
      | unknown r => exact ⟨_, .unknown r⟩
      | sym s => rw [hc] at hmem; exact absurd hmem (hv s)
    obtain ⟨f, hf⟩ := this
    exact ⟨f :: fs, .cons ⟨_, hm, h64 o (List.mem_cons_self ..), hp _ hmem, hf⟩ hfs⟩

/-- **C77** What is printed can be read back, and is for each of the addresses what the normalizer answers; if the
normalizer fails, nothing is printed.

Partial: addresses in the vDSO are not foreseen, see `C77_normalize_vdso_wrong`. -/
theorem C77_normalize_partial (p : Platform) (w : Normalize.World M) (cmd : NormalizeCmd) :
    (∀ e, normalized p w cmd = .err e → runNormalize p w cmd = ⟨[], .error e⟩) ∧
    ∀ metas outs, normalized p w cmd = .ok metas outs → (∀ s : Sym, UserMeta.sym s ∉ metas) →
      (∀ a ∈ cmd.addrs, a < 2 ^ 64) → (∀ o ∈ outs, o.1 < 2 ^ 64) → (∀ m ∈ metas, PlainMeta p.display m) →
      (runNormalize p w cmd).result = .ok () ∧
      ∃ fs, readNormalized (runNormalize p w cmd).stdout = some (cmd.addrs.zip fs) ∧ fs.length = cmd.addrs.length ∧
        List.Forall₂ (fun (o : Nat × Nat) f => ∃ m, metas[o.2]? = some m ∧ Shown p.display o.1 m f) outs fs := by
  refine ⟨?_, ?_⟩
  · intro e he
    rw [runNormalize_eq, he]
    rfl
  · intro metas outs h hv ha h64 hp
    obtain ⟨h1, h2, -⟩ := Normalize.C75_shape _ _ _ _ _ _ metas outs h
    obtain ⟨fs, hfs⟩ := shown_exists p.display metas hv hp outs h2 h64
    obtain ⟨ls, h3, h4, h5⟩ := printNormalized_lines cmd.addrs outs fs ha h1 hfs
    rw [runNormalize_eq, h]
    simp only
    rw [h3]
    refine ⟨rfl, fs, ?_, ?_, hfs.imp fun o f ⟨m, a, _, _, b⟩ => ⟨m, a, b⟩⟩
    · unfold readNormalized
      simp only
      rw [textLines_lines _ h4]
      exact h5
    · rw [← hfs.length_eq, h1]

/-- **C77** (negative) the library answers, but the program panics as soon as an address is in the vDSO; what is
before it is printed, what is after it is not. -/
theorem C77_normalize_vdso_wrong (p : Platform) (w : Normalize.World M) (cmd : NormalizeCmd) (metas : List UserMeta)
    (outs outs' : List (Nat × Nat)) (o : Nat × Nat) (s : Sym) (addrs addrs' : List Nat) (addr : Nat)
    (h : normalized p w cmd = .ok metas (outs ++ o :: outs')) (ho : metas[o.2]? = some (.sym s))
    (hb : ∀ o' ∈ outs, ∀ s' : Sym, metas[o'.2]? ≠ some (.sym s'))
    (haddrs : cmd.addrs = addrs ++ addr :: addrs') (hl : outs.length = addrs.length)
    (ha : ∀ a ∈ cmd.addrs, a < 2 ^ 64) (h64 : ∀ o ∈ outs, o.1 < 2 ^ 64) (hp : ∀ m ∈ metas, PlainMeta p.display m) :
    (runNormalize p w cmd).result = .error .panic ∧
    ∃ before rest fs, (runNormalize p w cmd).stdout = before ++ rest ++ ascii ": " ∧ hex rest = some addr ∧
      readNormalized before = some (addrs.zip fs) ∧ fs.length = addrs.length ∧
      List.Forall₂ (fun (o : Nat × Nat) f => ∃ m, metas[o.2]? = some m ∧ Shown p.display o.1 m f) outs fs := by
  obtain ⟨-, h2, -⟩ := Normalize.C75_shape _ _ _ _ _ _ metas _ h
  have hsh : ∃ fs, ShownAll p.display metas outs fs := by
    clear h hl
    induction outs with
    | nil => exact ⟨[], .nil⟩
    | cons o1 outs ih =>
      obtain ⟨fs, hfs⟩ := ih (fun o h => hb o (List.mem_cons_of_mem _ h)) (fun o h => h64 o (List.mem_cons_of_mem _ h))
        (fun o h => h2 o (List.mem_cons_of_mem _ h))
      have hlt := h2 o1 (by simp)
      have hm : metas[o1.2]? = some metas[o1.2] := List.getElem?_eq_getElem hlt
      have hmem : metas[o1.2] ∈ metas := List.getElem_mem hlt
      have : ∃ f, Shown p.display o1.1 metas[o1.2] f := by
        cases hc : metas[o1.2] with
        | apk path => exact ⟨_, .apk path⟩
        | elf path id => exact ⟨_, .elf path id⟩
        | unknown r => exact ⟨_, .unknown r⟩
        | sym s => rw [hc] at hm; exact absurd hm (hb o1 (List.mem_cons_self ..) s)
      obtain ⟨f, hf⟩ := this
      exact ⟨f :: fs, .cons ⟨_, hm, h64 o1 (List.mem_cons_self ..), hp _ hmem, hf⟩ hfs⟩
  obtain ⟨fs, hfs⟩ := hsh
  obtain ⟨ls, h3, h4, h5⟩ := printNormalized_stops (display := p.display) addrs addrs' addr outs outs' o fs
    (fun a h => ha a (by rw [haddrs]; exact List.mem_append_left _ h)) hl hfs s ho
  rw [runNormalize_eq, h, haddrs]
  simp only
  rw [h3]
  refine ⟨rfl, (ls.map println).flatten, fmtAddr addr, fs, rfl, hex_fmtAddr (ha addr (by rw [haddrs]; simp)), ?_,
    by rw [← hfs.length_eq, hl], hfs.imp fun o f ⟨m, a, _, _, b⟩ => ⟨m, a, b⟩⟩
  unfold readNormalized
  rw [textLines_lines _ h4]
  exact h5

/-! ### `inspect` -/

theorem looks_run (p : Platform) (w : Inspect.World M) {cmd : InspectCmd} {src : Inspect.Source}
    {names : Option (List Bytes)} (h : Looks cmd src names) :
    runInspect p w cmd = match names with | some names => runLookup p w src names | none => runDump p w src := by
  cases h with
  | lookupBreakpad | lookupElf | dumpBreakpad => rfl
  | dumpElf path n d h =>
    have : (!n) = d := by revert h; cases n <;> cases d <;> decide
    subst this
    rfl

/-- **C77** What is printed for names can be read back: one after the other, for each of the names, the symbols that
a new inspector finds, in the order of their addresses; if the inspector fails, nothing is printed.  What is missing
is names of 65535 bytes or more (`C77_lookup_long_name_panics`). -/
theorem C77_lookup_partial (p : Platform) (w : Inspect.World M) (cmd : InspectCmd) (src : Inspect.Source) (names : List Bytes)
    (hask : Looks cmd src (some names)) :
    (∀ e, ((Inspect.Inspector.new : Inspect.Inspector M).lookup p.tools w src names).1 = .error e →
      runInspect p w cmd = ⟨[], .error e⟩) ∧
    ∀ found, ((Inspect.Inspector.new : Inspect.Inspector M).lookup p.tools w src names).1 = .ok found →
      (∀ syms ∈ found, ∀ s ∈ syms, PlainSym s ∧ s.name.length < 65535) →
      (runInspect p w cmd).result = .ok () ∧
      ∃ groups : List (List CApi.SymInfo), readListed (runInspect p w cmd).stdout = some (groups.flatten.map listedOf) ∧
        List.Forall₂ (fun syms group => group.Perm syms ∧ StableSorted CApi.SymInfo.addr syms group) found groups := by
  rw [looks_run p w hask]
  simp only [runLookup]
  refine ⟨?_, ?_⟩
  · intro e he
    rw [he]
    rfl
  · intro found hf hp
    rw [hf]
    have hp' : ∀ s ∈ (found.map (sortByKey CApi.SymInfo.addr)).flatten, PlainSym s ∧ s.name.length < 65535 := by
      intro s hs
      obtain ⟨g, hg, hs⟩ := List.mem_flatten.mp hs
      obtain ⟨syms, h1, rfl⟩ := List.mem_map.mp hg
      exact hp syms h1 s (mem_sortByKey.mp hs)
    refine ⟨congrArg Outcome.result (printSymInfos_lines _ fun s hs => (hp' s hs).2), found.map (sortByKey CApi.SymInfo.addr),
      readListed_syms _ (fun s hs => (hp' s hs).1) fun s hs => (hp' s hs).2, ?_⟩
    · clear hp'; clear hf hp
      induction found with
      | nil => exact .nil
      | cons syms found ih => exact .cons ⟨sortByKey_perm _ _, sortByKey_stable _ _⟩ ih

/-- **C77** What is printed for a file can be read back: the symbols that a new inspector visits, in the order of
their addresses; if the inspector fails, nothing is printed.  What is missing is names of 65535 bytes or more
(`C77_dump_long_name_panics`). -/
theorem C77_dump_partial (p : Platform) (w : Inspect.World M) (cmd : InspectCmd) (src : Inspect.Source)
    (hask : Looks cmd src none) (r : Except Err _root_.Unit) (visited : List CApi.SymInfo)
    (hr : ((Inspect.Inspector.new : Inspect.Inspector M).forEach p.tools w src (fun l s => (l ++ [s], false)) []).1 =
      (r, visited)) :
    (∀ e, r = .error e → runInspect p w cmd = ⟨[], .error e⟩) ∧
    (r = .ok () → (∀ s ∈ visited, PlainSym s ∧ s.name.length < 65535) →
      (runInspect p w cmd).result = .ok () ∧
      ∃ syms : List CApi.SymInfo, readListed (runInspect p w cmd).stdout = some (syms.map listedOf) ∧
        syms.Perm visited ∧ StableSorted CApi.SymInfo.addr visited syms) := by
  rw [looks_run p w hask]
  simp only [runDump]
  refine ⟨?_, ?_⟩
  · rintro e rfl
    rw [hr]
    rfl
  · rintro rfl hp
    rw [hr]
    have hp' : ∀ s ∈ sortByKey CApi.SymInfo.addr visited, PlainSym s ∧ s.name.length < 65535 :=
      fun s hs => hp s (mem_sortByKey.mp hs)
    exact ⟨congrArg Outcome.result (printSymInfos_lines _ fun s hs => (hp' s hs).2), sortByKey CApi.SymInfo.addr visited,
      readListed_syms _ (fun s hs => (hp' s hs).1) fun s hs => (hp' s hs).2, sortByKey_perm _ _, sortByKey_stable _ _⟩

/-- **C77** (negative) the inspector finds symbols, but the program panics, and prints nothing, if one of them has a
name of 65535 bytes or more: it is the width of a column, and a width of `format!` is at most 65535 since Rust 1.87. -/
theorem C77_lookup_long_name_panics (p : Platform) (w : Inspect.World M) (cmd : InspectCmd) (src : Inspect.Source)
    (names : List Bytes) (hask : Looks cmd src (some names)) (found : List (List CApi.SymInfo))
    (hf : ((Inspect.Inspector.new : Inspect.Inspector M).lookup p.tools w src names).1 = .ok found)
    (hl : ∃ syms ∈ found, ∃ s ∈ syms, 65535 ≤ s.name.length) :
    runInspect p w cmd = ⟨[], .error .panic⟩ := by
  rw [looks_run p w hask]
  simp only [runLookup]
  rw [hf]
  obtain ⟨syms, h1, s, h2, h3⟩ := hl
  exact printSymInfos_panic (s := s) (List.mem_flatten.mpr ⟨_, List.mem_map_of_mem h1, mem_sortByKey.mpr h2⟩) h3

/-- **C77** (negative) the same if all symbols are to be printed. -/
theorem C77_dump_long_name_panics (p : Platform) (w : Inspect.World M) (cmd : InspectCmd) (src : Inspect.Source)
    (hask : Looks cmd src none) (visited : List CApi.SymInfo)
    (hr : ((Inspect.Inspector.new : Inspect.Inspector M).forEach p.tools w src (fun l s => (l ++ [s], false)) []).1 =
      (.ok (), visited))
    (hl : ∃ s ∈ visited, 65535 ≤ s.name.length) :
    runInspect p w cmd = ⟨[], .error .panic⟩ := by
  rw [looks_run p w hask]
  simp only [runDump]
  rw [hr]
  obtain ⟨s, h2, h3⟩ := hl
  exact printSymInfos_panic (s := s) (mem_sortByKey.mpr h2) h3

/-- One such name is enough, and one byte less is fine. -/
example (s : CApi.SymInfo) (rest : List CApi.SymInfo) :
    printSymInfos ({ s with name := List.replicate 65535 97 } :: rest) = ⟨[], .error .panic⟩ ∧
    (printSymInfos [{ s with name := List.replicate 65534 97 }]).result = .ok () :=
  ⟨printSymInfos_panic (List.mem_cons_self ..) (List.length_replicate ..).ge,
    congrArg Outcome.result (printSymInfos_lines _ fun s h => by
      rw [List.mem_singleton] at h
      rw [h]
      exact (List.length_replicate ..).trans_lt (by decide))⟩

/-- **C77** The addresses are below each other. -/
theorem C77_columns (syms : List CApi.SymInfo) (h : ∀ s ∈ syms, PlainSym s)
    (hl : ∀ s ∈ syms, s.name.length < 65535) :
    ∃ col ls, textLines (printSymInfos syms).stdout = some ls ∧ List.Forall₂ (Column col) ls syms := by
  refine ⟨nameWidth syms + 1, _, textLines_syms syms h hl, ?_⟩
  rw [List.forall₂_map_left_iff, List.forall₂_same]
  exact columns syms h

/-- **C77** What is printed for a file is its build ID, two digits for each byte, or that there is none. -/
theorem C77_build_id (p : Platform) (w : Inspect.World M) (path : Bytes) :
    (∀ e, Dwarf.openParser w.disk path = .error e → runInspect p w (.buildId path) = ⟨[], .error e⟩) ∧
    ∀ parser, Dwarf.openParser w.disk path = .ok parser →
      (∀ e, Elf.readBuildId p.tools.codec parser.image = .error e → runInspect p w (.buildId path) = ⟨[], .error e⟩) ∧
      (Elf.readBuildId p.tools.codec parser.image = .ok none →
        runInspect p w (.buildId path) = ⟨ascii "N/A" ++ ascii "\n", .ok ()⟩) ∧
      ∀ id, Elf.readBuildId p.tools.codec parser.image = .ok (some id) →
        ∃ text, runInspect p w (.buildId path) = ⟨text ++ ascii "\n", .ok ()⟩ ∧ hexBytes text = some id := by
  simp only [runInspect, runBuildId]
  refine ⟨fun e he => by rw [he]; rfl, fun parser hp => ⟨fun e he => ?_, fun hn => ?_, fun id hid => ?_⟩⟩
  · rw [hp]; simp only; rw [he]; rfl
  · rw [hp]; simp only; rw [hn]; rfl
  · rw [hp]; simp only; rw [hid]; exact ⟨_, rfl, hexBytes_format id⟩

/-! ### Examples -/

/-- What the libraries do in the examples. -/
def exPlatform : Platform := ⟨Symbolize.exSettings.tools, ⟨fun _ => none, fun _ => none⟩, id⟩

set_option maxRecDepth 20000 in
example : runSymbolize exPlatform Symbolize.exRich (.elf (ascii "/bin/c") none true [0x1008, 0x5000]) =
    ⟨ascii "0x00000000001008: f @ 0x1000+0x8\n0x00000000005000: <no-symbol>\n", .ok ()⟩ := by decide +kernel

set_option maxRecDepth 20000 in
example : runSymbolize exPlatform Symbolize.exRich (.process 7 none true [0x400008] true) =
    ⟨ascii "0x00000000400008: f @ 0x1000+0x8\n", .ok ()⟩ := by decide +kernel

set_option maxRecDepth 20000 in
example : runNormalize exPlatform (Normalize.exNorm 3 1) ⟨7, [0x400008], false, false, false⟩ =
    ⟨ascii "0x00000000400008: file offset 0x8 in /bin/c (build ID: aabbcc)\n", .ok ()⟩ := by decide +kernel

set_option maxRecDepth 20000 in
/-- The defect. -/
example : normalized exPlatform (Normalize.exNorm 3 1) ⟨7, [0x7f0008], false, false, false⟩ =
      .ok [.sym ⟨ascii "f", some (ascii "[vdso]"), 0x1000, 8, some 16, none, []⟩] [(8, 0)] ∧
    runNormalize exPlatform (Normalize.exNorm 3 1) ⟨7, [0x7f0008], false, false, false⟩ =
      ⟨ascii "0x000000007f0008: ", .error .panic⟩ := by
  constructor <;> decide +kernel

set_option maxRecDepth 20000 in
/-- The hypotheses of `C77_symbolize_several` and `C77_symbolize_one` are met in the first two examples. -/
example : Asks (.elf (ascii "/bin/c") none true [0x1008, 0x5000]) (.elf (ascii "/bin/c") false)
      (.virtOffset [0x1008, 0x5000]) none ∧
    DefaultSettings exPlatform none (settings exPlatform Inspect.defaultDebugDirs : Symbolize.Settings Nat _) :=
  ⟨.elf _ _ _ _ _ (by decide), rfl, rfl, rfl, rfl, rfl, rfl, rfl, rfl, rfl, rfl, rfl⟩

/-- Answers with places in source code and inlined functions, and what is read for them. -/
example :
    readFrames (printAll id [0x401008, 0x7]
      [.sym ⟨ascii "f", none, 0x401000, 8, some 16, some ⟨some (ascii "/src"), ascii "a.c", some 12, some 3⟩,
        [⟨ascii "g", some ⟨none, ascii "b.h", some 7, none⟩⟩, ⟨ascii "h", none⟩]⟩, .unknown .unknownAddr]) =
    some [(0x401008, some ⟨ascii "f", 0x401000, 8, some ⟨ascii "/src/a.c", some 12, some 3⟩,
      [(ascii "g", some ⟨ascii "b.h", some 7, none⟩), (ascii "h", none)]⟩), (0x7, none)] := by
  decide +kernel

set_option maxRecDepth 20000 in
example : runInspect exPlatform (Inspect.exWorld false) (.lookupElf (ascii "/bin/c") [ascii "f"]) =
      ⟨ascii "f: 0x00000000001000 (size=16)   [FUNC]\n", .ok ()⟩ ∧
    runInspect exPlatform (Inspect.exWorld false) (.dumpElf (ascii "/bin/c") true) =
      ⟨ascii "f: 0x00000000001000 (size=16)   [FUNC]\n", .ok ()⟩ ∧
    runInspect exPlatform (Inspect.exWorld false) (.buildId (ascii "/bin/c")) = ⟨ascii "N/A\n", .ok ()⟩ := by
  refine ⟨?_, ?_, ?_⟩ <;> decide +kernel

end Blazesym.Cli
