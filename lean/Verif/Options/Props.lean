import Verif.Options.Resolvers
import Verif.Session.RoundTripProps
import Verif.Session.DebugAnswerProps
import Verif.Gsym.CodeProps

/-! # C102: a setting only affects what it names -/

set_option autoImplicit false

namespace Blazesym.Options
open Blazesym.Util Blazesym.Symbolize Blazesym.Spec Blazesym.Spec.Symbolize Blazesym.Spec.Options

variable {M K : Type}

theorem strict_cases {α β : Type} {R : α → β → Prop} {x : Except Err α} {y : Except Err β} (h : WRel True R x y) :
    (∃ e, x = .error e ∧ y = .error e) ∨ ∃ a b, x = .ok a ∧ y = .ok b ∧ R a b := by
  cases h with
  | errors e e' h => cases h trivial; exact .inl ⟨e, rfl, rfl⟩
  | ok a b h => exact .inr ⟨a, b, rfl, rfl, h⟩
  | left a e h => exact absurd trivial h
  | right e b h => exact absurd trivial h

theorem both_ok {α β : Type} {strict : Prop} {R : α → β → Prop} {a : α} {b : β}
    (h : WRel strict R (.ok a) (.ok b)) : R a b := by
  cases h with
  | ok _ _ h => exact h

/-- **C102** (demangling) Whatever the source and everything it is read from, whether names are demangled, and by what,
only changes names: with and without, the same requests fail with the same error, and otherwise each address gets the
same symbol, with the same extent, source location and locations of inlined functions, or none for the same reason. -/
theorem C102_demangle (env : Env) (demangle : Bool) (demangler : Demangler) (src : Source) :
    (∀ input,
      (∃ e, symbolize env src input = .error e ∧ symbolize { env with demangle, demangler } src input = .error e) ∨
      ∃ outs outs', symbolize env src input = .ok outs ∧ symbolize { env with demangle, demangler } src input = .ok outs' ∧
        List.Forall₂ (Both NamesAside False) outs outs') ∧
    ∀ input,
      (∃ e, symbolizeSingle env src input = .error e ∧
        symbolizeSingle { env with demangle, demangler } src input = .error e) ∨
      ∃ out out', symbolizeSingle env src input = .ok out ∧
        symbolizeSingle { env with demangle, demangler } src input = .ok out' ∧ Both NamesAside False out out' :=
  ⟨fun input => strict_cases (batch_rel (strict := True) (trivial_fns env)
      (fun f _ addr => with_names env demangle demangler f addr) .unknown (fun h => absurd trivial h) src
      (fun _ => trivial) input),
   fun input => strict_cases (single_rel (strict := True) (trivial_fns env)
      (fun f _ addr => with_names env demangle demangler f addr) .unknown src (fun _ => trivial) input)⟩

theorem asks_inlined {codeInfo inlinedFns : Bool} (h : ¬ (codeInfo = true ∧ inlinedFns = true)) :
    findSymOpts codeInfo inlinedFns ≠ .codeInfoAndInlined := by
  cases codeInfo <;> cases inlinedFns <;> simp_all [findSymOpts]

theorem both_names {cfg : Settings M K} {codeInfo inlinedFns : Bool} {gsym lenient : Prop} {o o' : Symbolized}
    (h : Both (SourceAside ((gsym → findSymOpts cfg.codeInfo cfg.inlinedFns ≠ .codeInfoAndInlined) ∧
      (gsym → findSymOpts codeInfo inlinedFns ≠ .codeInfoAndInlined))) lenient o o') :
    Both (SourceAside (gsym → ¬ AsksInlined cfg ∧ ¬ (codeInfo = true ∧ inlinedFns = true))) lenient o o' := by
  cases h with
  | sym a b h =>
    exact .sym _ _ ⟨h.1, h.2.1, h.2.2.1, h.2.2.2.1, fun hn => h.2.2.2.2
      ⟨fun hg => asks_inlined (hn hg).1, fun hg => asks_inlined (hn hg).2⟩⟩
  | unknown r => exact .unknown r
  | left o h => exact .left _ h
  | right o h => exact .right _ h

/-- **C102** (source, partial: not for the kernel) Asking for source locations and inlined functions, or not asking for
them, does not change the symbols: an address gets the same symbol, with the same extent, or none for the same reason,
as far as neither request fails, or ignores an error, because the information about the source is damaged.  The names
are the same as well, except for GSYM data if one of the requests asks for inlined functions. -/
theorem C102_source_partial {cfg : Settings M K} (hd : SteadyDispatch cfg) (codeInfo inlinedFns : Bool) (w : World M)
    (v : Versions M) (maps : Nat → Except Err (List (Except Err Maps.Entry))) (src : Source)
    (_hk : ∀ ks, src ≠ .kernel ks) :
    (∀ input outs outs', symbolize (envAt cfg w v maps) src input = .ok outs →
      symbolize (envAt { cfg with codeInfo, inlinedFns } w v maps) src input = .ok outs' →
      List.Forall₂ (Both (SourceAside (IsGsym src → ¬ AsksInlined cfg ∧ ¬ (codeInfo = true ∧ inlinedFns = true))) True) outs outs') ∧
    ∀ input out out', symbolizeSingle (envAt cfg w v maps) src input = .ok out →
      symbolizeSingle (envAt { cfg with codeInfo, inlinedFns } w v maps) src input = .ok out' →
      Both (SourceAside (IsGsym src → ¬ AsksInlined cfg ∧ ¬ (codeInfo = true ∧ inlinedFns = true))) False out out' := by
  have he := envAt_steady hd w v maps (IsGsym src)
  constructor
  · intro input outs outs' h h'
    have := batch_rel (strict := False) he
      (fun f hf addr => with_source (envAt cfg w v maps) (findSymOpts codeInfo inlinedFns) hf addr True) .unknown
      (fun _ o => ⟨.right o trivial, .left o trivial⟩) src id input
    rw [h] at this
    change WRel False _ _ (symbolize (envAt { cfg with codeInfo, inlinedFns } w v maps) src input) at this
    rw [h'] at this
    exact (both_ok this).imp fun _ _ => both_names
  · intro input out out' h h'
    have := single_rel (strict := False) he
      (fun f hf addr => with_source (envAt cfg w v maps) (findSymOpts codeInfo inlinedFns) hf addr False) .unknown
      src id input
    rw [h] at this
    change WRel False _ _ (symbolizeSingle (envAt { cfg with codeInfo, inlinedFns } w v maps) src input) at this
    rw [h'] at this
    exact both_names (both_ok this)

/-- **C102** (histories, partial: for orderly histories, see C68) Two symbolizers that differ in whether they demangle
names report the same but for names, whatever they were used for before and have cached. -/
theorem C102_histories_partial [DecidableEq M] {cfg : Settings M K} (demangle : Bool) (hb : DispatchByName cfg)
    (har : cfg.autoReload = true) {k : Known M} (hlen : ∀ m data, k.contents m = .ok (.ok data) → data.length < 2 ^ 63)
    {s s' : State M K} (hr : Reachable cfg (fun s w c => Orderly cfg k s w c ∧ NotCaching c) s)
    (hr' : Reachable { cfg with demangle } (fun s w c => Orderly { cfg with demangle } k s w c ∧ NotCaching c) s')
    (w : World M) (src : Source) (hk : ∀ ks, src ≠ .kernel ks) (input : Input (List Nat))
    (hc : w.disk.contents = k.contents) (ho : ∀ l, Uses w.maps src l → Fits cfg k w (present w) l) :
    (∃ e, (s.symbolize cfg w src input).1 = .error e ∧
      (s'.symbolize { cfg with demangle } w src input).1 = .error e) ∨
    ∃ outs outs', (s.symbolize cfg w src input).1 = .ok outs ∧
      (s'.symbolize { cfg with demangle } w src input).1 = .ok outs' ∧
      List.Forall₂ (Both NamesAside False) outs outs' := by
  rw [(C68_fresh_partial hb har hlen hr w src hk input hc ho).1,
    (C68_fresh_partial (cfg := { cfg with demangle }) hb har hlen hr' w src hk input hc
      (fun l hl => ho l hl)).1]
  exact (C102_demangle (envAt cfg w (present w) w.maps) demangle cfg.demangler src).1 input

/-- **C102** (histories, partial: not for the kernel, and for orderly histories) Two symbolizers that differ in what they
report about the source report the same symbols, whatever they were used for before and have cached. -/
theorem C102_source_histories_partial [DecidableEq M] {cfg : Settings M K} (hd : SteadyDispatch cfg)
    (codeInfo inlinedFns : Bool) (hb : DispatchByName cfg) (har : cfg.autoReload = true) {k : Known M}
    (hlen : ∀ m data, k.contents m = .ok (.ok data) → data.length < 2 ^ 63)
    {s s' : State M K} (hr : Reachable cfg (fun s w c => Orderly cfg k s w c ∧ NotCaching c) s)
    (hr' : Reachable { cfg with codeInfo, inlinedFns }
      (fun s w c => Orderly { cfg with codeInfo, inlinedFns } k s w c ∧ NotCaching c) s')
    (w : World M) (src : Source) (hk : ∀ ks, src ≠ .kernel ks) (input : Input (List Nat))
    (hc : w.disk.contents = k.contents) (ho : ∀ l, Uses w.maps src l → Fits cfg k w (present w) l)
    (outs outs' : List Symbolized) (h : (s.symbolize cfg w src input).1 = .ok outs)
    (h' : (s'.symbolize { cfg with codeInfo, inlinedFns } w src input).1 = .ok outs') :
    List.Forall₂ (Both (SourceAside (IsGsym src → ¬ AsksInlined cfg ∧ ¬ (codeInfo = true ∧ inlinedFns = true))) True)
      outs outs' := by
  rw [(C68_fresh_partial hb har hlen hr w src hk input hc ho).1] at h
  rw [(C68_fresh_partial (cfg := { cfg with codeInfo, inlinedFns }) hb har hlen hr' w src hk input hc
      (fun l hl => ho l hl)).1] at h'
  exact (C102_source_partial hd codeInfo inlinedFns w (present w) w.maps src hk).1 input outs outs' h h'

theorem exSteady : SteadyDispatch exSettings := ⟨fun _ hd => (nomatch hd), fun _ hd => (nomatch hd)⟩

/-- Name, offset, size and line of an answer. -/
def shown : Except Err Symbolized → Option (Bytes × Nat × Option Nat × Option (Option Nat))
  | .ok (.sym s) => some (s.name, s.offset, s.size, s.codeInfo.map fun c => c.line)
  | _ => none

/-- A demangler that marks the names it is given. -/
def exMark : Demangler := ⟨fun name => some (name ++ ascii "!"), fun _ => none⟩

set_option maxRecDepth 20000 in
/-- An address in an ELF file of a process, with and without demangling. -/
example :
    shown (symbolizeSingle { envAt exSettings exRich (present exRich) exRich.maps with demangle := true, demangler := exMark }
      (.process ⟨7, false, true, false, true⟩) (.absAddr 0x400008)) = some (ascii "f!", 8, some 16, none) ∧
    shown (symbolizeSingle { envAt exSettings exRich (present exRich) exRich.maps with demangle := false, demangler := exMark }
      (.process ⟨7, false, true, false, true⟩) (.absAddr 0x400008)) = some (ascii "f", 8, some 16, none) := by
  decide +kernel

set_option maxRecDepth 20000 in
/-- An address in a function that debug information describes, with and without source locations. -/
example :
    shown (symbolizeSingle (envAt { exDebugSettings with codeInfo := true } exRich (present exRich) exRich.maps)
      (.elf (ascii "/bin/c") true) (.virtOffset 0x1008)) = some (Dwarf.exFoo, 8, some 64, some (some 7)) ∧
    shown (symbolizeSingle (envAt { exDebugSettings with codeInfo := false } exRich (present exRich) exRich.maps)
      (.elf (ascii "/bin/c") true) (.virtOffset 0x1008)) = some (Dwarf.exFoo, 8, some 64, none) := by
  decide +kernel

example (addrs : List Nat) (outs outs' : List Symbolized)
    (h : symbolize (envAt exDebugSettings exRich (present exRich) exRich.maps) (.process ⟨7, true, true, false, true⟩)
      (.absAddr addrs) = .ok outs)
    (h' : symbolize (envAt { exDebugSettings with codeInfo := false, inlinedFns := false } exRich (present exRich) exRich.maps)
      (.process ⟨7, true, true, false, true⟩) (.absAddr addrs) = .ok outs') :
    List.Forall₂ (Both (SourceAside True) True) outs outs' :=
  ((C102_source_partial (cfg := exDebugSettings) ⟨exSteady.1, exSteady.2⟩ false false exRich _ _
    (.process ⟨7, true, true, false, true⟩) (by intro ks h; cases h)).1 _ _ _ h h').imp
    fun _ _ hb => by
      cases hb with
      | sym a b h => exact .sym _ _ ⟨h.1, h.2.1, h.2.2.1, h.2.2.2.1, fun _ => h.2.2.2.2 fun hg => hg.elim⟩
      | unknown r => exact .unknown r
      | left o h => exact .left _ h
      | right o h => exact .right _ h

/-- GSYM data with a function `b` at 0x1000 whose inline information starts with `a`. -/
def exNamed : Bytes := Gsym.codeSample.set 88 3

set_option maxRecDepth 20000 in
/-- **C102** (negation, GSYM) Whether inlined functions are asked for may change the name of the symbol itself. -/
theorem C102_gsym_wrong : ∃ data s s',
    symbolizeSingle (envAt { exSettings with codeInfo := true, inlinedFns := true } exRich (present exRich) exRich.maps)
      (.gsymData data) (.virtOffset 0x1005) = .ok (.sym s) ∧
    symbolizeSingle (envAt { exSettings with codeInfo := true, inlinedFns := false } exRich (present exRich) exRich.maps)
      (.gsymData data) (.virtOffset 0x1005) = .ok (.sym s') ∧ s.addr = s'.addr ∧ s.name = ascii "a" ∧ s'.name = ascii "b" := by
  refine ⟨exNamed, ?_⟩
  have h : ((shown (symbolizeSingle (envAt { exSettings with codeInfo := true, inlinedFns := true } exRich
        (present exRich) exRich.maps) (.gsymData exNamed) (.virtOffset 0x1005))).map fun x => (x.1, x.2.1)) =
      some (ascii "a", 5) := by decide +kernel
  have h' : ((shown (symbolizeSingle (envAt { exSettings with codeInfo := true, inlinedFns := false } exRich
        (present exRich) exRich.maps) (.gsymData exNamed) (.virtOffset 0x1005))).map fun x => (x.1, x.2.1)) =
      some (ascii "b", 5) := by decide +kernel
  have hs := C102_source_partial (cfg := { exSettings with codeInfo := true, inlinedFns := true }) ⟨exSteady.1, exSteady.2⟩
    true false exRich (present exRich) exRich.maps (.gsymData exNamed) (by intro ks h; cases h)
  have hs := hs.2 (.virtOffset 0x1005)
  generalize symbolizeSingle (envAt { exSettings with codeInfo := true, inlinedFns := true } exRich (present exRich)
    exRich.maps) (.gsymData exNamed) (.virtOffset 0x1005) = x at h hs ⊢
  generalize symbolizeSingle (envAt { exSettings with codeInfo := true, inlinedFns := false } exRich (present exRich)
    exRich.maps) (.gsymData exNamed) (.virtOffset 0x1005) = y at h' hs ⊢
  cases x with
  | error e => cases h
  | ok o =>
    cases o with
    | unknown r => cases h
    | sym s =>
      cases y with
      | error e => cases h'
      | ok o' =>
        cases o' with
        | unknown r => cases h'
        | sym s' =>
          simp only [shown, Option.map_some, Option.some.injEq, Prod.mk.injEq] at h h'
          refine ⟨s, s', rfl, rfl, ?_, h.1, h'.1⟩
          cases hs _ _ rfl rfl with
          | sym _ _ hq => exact hq.2.1

/-- The symbolizer that was used before, and a new one that demangles names. -/
example :
    (∃ e, (RoundTrip.exSymbolizer.symbolize exSettings (Normalize.exNorm 0 1).toSession (.process RoundTrip.exSource)
        (.absAddr [0x400008])).1 = .error e ∧
      ((State.new { exSettings with demangle := true }).symbolize { exSettings with demangle := true }
        (Normalize.exNorm 0 1).toSession (.process RoundTrip.exSource) (.absAddr [0x400008])).1 = .error e) ∨
    ∃ outs outs', (RoundTrip.exSymbolizer.symbolize exSettings (Normalize.exNorm 0 1).toSession (.process RoundTrip.exSource)
        (.absAddr [0x400008])).1 = .ok outs ∧
      ((State.new { exSettings with demangle := true }).symbolize { exSettings with demangle := true }
        (Normalize.exNorm 0 1).toSession (.process RoundTrip.exSource) (.absAddr [0x400008])).1 = .ok outs' ∧
      List.Forall₂ (Both NamesAside False) outs outs' :=
  C102_histories_partial (cfg := exSettings) true (by intro d hd; cases hd) rfl (k := RoundTrip.exKnown) RoundTrip.exSmall
    RoundTrip.exSymbolizer_reachable .new _ (.process RoundTrip.exSource) (by intro ks h; cases h) _ rfl RoundTrip.exFits

/-- The symbolizer that was used before, and a new one that does not report source locations. -/
example (outs outs' : List Symbolized)
    (h : (RoundTrip.exSymbolizer.symbolize exSettings (Normalize.exNorm 0 1).toSession (.process RoundTrip.exSource)
        (.absAddr [0x400008])).1 = .ok outs)
    (h' : ((State.new { exSettings with codeInfo := false, inlinedFns := false }).symbolize
        { exSettings with codeInfo := false, inlinedFns := false }
        (Normalize.exNorm 0 1).toSession (.process RoundTrip.exSource) (.absAddr [0x400008])).1 = .ok outs') :
    List.Forall₂ (Both (SourceAside (IsGsym (.process RoundTrip.exSource) → ¬ AsksInlined exSettings ∧
      ¬ (false = true ∧ false = true))) True) outs outs' :=
  C102_source_histories_partial (cfg := exSettings) exSteady false false (by intro d hd; cases hd) rfl
    (k := RoundTrip.exKnown) RoundTrip.exSmall RoundTrip.exSymbolizer_reachable .new _ (.process RoundTrip.exSource)
    (by intro ks h; cases h) _ rfl RoundTrip.exFits _ _ h h'

end Blazesym.Options
