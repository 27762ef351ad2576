import Verif.Extent.Spec
import Verif.Session.AnswerProps
import Verif.Session.StateProps
import Verif.Dwarf.OpenProps
import Verif.Dwarf.ResolverProps
import Verif.Breakpad.LookupProps
import Verif.Gsym.LookupProps
import Verif.PerfMap.Props

/-! Which resolvers only find symbols that contain the address. -/

set_option autoImplicit false

namespace Blazesym.Extent
open Blazesym.Util Blazesym.Symbolize Blazesym.Spec Blazesym.Spec.Symbolize Blazesym.Spec.Extent
open Blazesym.Dwarf hiding Resolver

variable {M K : Type}

theorem elf_lookup {σ : Sorter} {t : Elf.SymTab} {table : Elf.Table} {addr : Nat} {r : Elf.ResolvedSym}
    (h : t.lookup σ table addr .undefined = .ok (some r)) (n : Nat) (hn : r.size = some n) : addr < r.addr + n := by
  obtain ⟨⟨s, _, _, _, hc, _, _, ha, h0, h1⟩, _⟩ := Elf.C04_lookup_sound σ t table addr .undefined r h
  by_cases hs : s.size = 0
  · rw [h0 hs] at hn; cases hn
  · rw [h1 hs] at hn
    cases hn
    obtain ⟨_, hc⟩ := hc
    rw [if_neg hs] at hc
    omega

theorem elf_honest (t : Tools) (p : ElfParser) : Honest (p.findSym t) := by
  intro addr opts r h n hn _
  unfold ElfParser.findSym at h
  split at h
  · cases h
  · cases h
  · rename_i sym hs
    cases h
    unfold Elf.File.findSym at hs
    obtain ⟨tab, _, hs⟩ := bind_ok hs
    obtain ⟨o, h1, hs⟩ := bind_ok hs
    cases o with
    | some x => cases hs; exact elf_lookup h1 n hn
    | none =>
      obtain ⟨dyn, _, hs⟩ := bind_ok hs
      obtain ⟨o, h2, hs⟩ := bind_ok hs
      cases o with
      | some x => cases hs; exact elf_lookup h2 n hn
      | none => cases hs

theorem breakpad_honest {data : Bytes} {file : Breakpad.SymbolFile} (h : Breakpad.fromBytes data = .ok file) :
    Honest file.findSym := by
  intro addr opts r hr n hn h0
  obtain ⟨f, ⟨_, hc, _⟩, _, ha, hs, _⟩ := Breakpad.C21_sound ⟨data, h⟩ hr
  rw [hs] at hn
  cases hn
  rcases hc with ⟨_, hz⟩ | ⟨_, hc⟩
  · exact absurd hz h0
  · omega

theorem perf_honest {data : Bytes} {fs : List PerfMap.Function} (h : PerfMap.parsePerfMap data = .ok fs) :
    Honest (PerfMap.findSym fs) := by
  intro addr opts r hr n hn h0
  obtain ⟨f, ⟨_, hc, _⟩, rfl⟩ := PerfMap.C28_lookup_sound h hr
  cases hn
  rcases hc with ⟨_, hz⟩ | ⟨_, hc⟩
  · exact absurd hz h0
  · exact hc

theorem gsym_honest (ctx : Gsym.Context) : Honest (Gsym.findSym ctx) := by
  intro addr opts r hr n hn h0
  unfold Gsym.findSym at hr
  split at hr
  · cases hr
  · obtain ⟨symAddr, _, hr⟩ := bind_ok hr
    split_ifs at hr with hlt
    · cases hr
    · obtain ⟨info, _, hr⟩ := bind_ok hr
      obtain ⟨b, hb, hr⟩ := bind_ok hr
      cases b with
      | true => cases hr
      | false =>
        simp only [Bool.false_eq_true, if_false] at hr
        obtain ⟨name, _, hr⟩ := bind_ok hr
        obtain ⟨sym, hf, hr⟩ := bind_ok hr
        cases hr
        obtain ⟨k1, k2, _⟩ := Gsym.fill_keeps hf
        rw [k2] at hn
        rw [k1]
        cases hn
        rcases (Gsym.beyond_ok (b := false) hb).mp rfl with hz | hz
        · exact absurd hz h0
        · exact hz

theorem found_bound {σ : Sorter} {u : Dwarf.Units} {addr : Nat} {o : Option (Dwarf.Function × Dwarf.Unit)}
    (h : u.findFunction σ addr = .ok o) : addr + 1 < 2 ^ 64 := by
  unfold Dwarf.Units.findFunction at h
  obtain ⟨us, h1, _⟩ := bind_ok h
  unfold Dwarf.Units.findUnits at h1
  obtain ⟨hi, h2, _⟩ := bind_ok h1
  unfold addU64 at h2
  split_ifs at h2
  assumption

theorem dwarf_honest {t : Tools} {p : ElfParser} {d : DebugData} {s : Sections} (hu : parseUnits t.σ s = .ok d.units)
    (hs : Spec.Dwarf.HeadersSorted s) (he : EitherExtent s) : Honest ((d.resolver t p).findSym t.σ) := by
  intro addr opts r h n hn h0
  have hcopy := h
  unfold Dwarf.Resolver.findSym at h
  obtain ⟨o, ho, h⟩ := bind_ok h
  cases o with
  | some fu =>
    obtain ⟨f, unit⟩ := fu
    obtain ⟨k1, d', x', _, k3, _, _, k6⟩ := C64_found t.σ s d.units hu hs addr (found_bound ho) f unit ho
    obtain ⟨sym, size, lang, q1, q2, _, _, q4⟩ := findSym_function (r := d.resolver t p) ho hcopy
    cases q1
    obtain ⟨_, _, e3, e4, _⟩ := Dwarf.fillCodeInfo_keeps q4
    rw [e4] at hn
    rw [e3]
    simp only at hn ⊢
    rcases he addr _ d' x' k1 k3 with hr | hr
    · obtain ⟨stream, _, _, rg, hrg, c1, c2⟩ := k3
      unfold Spec.Dwarf.codeOf at hrg
      rw [hr] at hrg
      simp only at hrg
      rw [List.mem_filter, Option.mem_toList] at hrg
      rw [k6, hrg.1] at q2 ⊢
      have hsub : subU rg.stop rg.start = .ok (rg.stop - rg.start) := if_pos (by omega)
      simp only [rangeSize, hsub, Except.map, Except.ok.injEq] at q2
      rw [← q2] at hn
      cases hn
      simp only [Option.map_some, Option.getD_some]
      omega
    · rw [k6, hr] at q2
      simp only [rangeSize, Except.ok.injEq] at q2
      rw [← q2] at hn
      cases hn
  | none =>
    obtain ⟨elf, h1, h⟩ := bind_ok h
    cases elf with
    | error reason => cases h
    | ok sym =>
      obtain ⟨sym', h2, h⟩ := bind_ok h
      cases h
      obtain ⟨_, _, e3, e4, _⟩ := Dwarf.fillCodeInfo_keeps h2
      rw [e4] at hn
      rw [e3]
      exact elf_honest t _ addr opts sym h1 n hn h0

/-- The units of debug information are read from some file. -/
theorem eval_load {t : Tools} {fs : Files} {dirs : List Bytes} {p : ElfParser} {d : DebugData}
    {lookup : Bytes → Except Err ElfParser} (h : (fromParser t fs dirs p).eval lookup = .ok d) :
    ∃ image package, t.load image package = .ok d.units := by
  unfold fromParser at h
  rw [eval_andThen] at h
  split at h
  · cases h
  · rw [eval_andThen] at h
    split at h
    · cases h
    · split at h
      · cases h
      · rename_i hl
        cases h
        exact ⟨_, _, hl⟩

theorem debug_honest {t : Tools} (ht : DebugFits t) {fs : Files} {dirs : List Bytes} {p : ElfParser} {d : DebugData}
    {lookup : Bytes → Except Err ElfParser} (h : (fromParser t fs dirs p).eval lookup = .ok d) :
    Honest (elfAsResolver t (.dwarf p d)).find := by
  obtain ⟨_, _, hl⟩ := eval_load h
  obtain ⟨s, h1, h2, h3⟩ := ht _ _ _ hl
  exact dwarf_honest h1 h2 h3

/-- Whether a source asks for debug information. -/
def Asks : Source → Bool → Prop
  | .apk _ debugSyms, debug => debugSyms = debug
  | .elf _ debugSyms, debug => debugSyms = debug
  | .process src, debug => src.debugSyms = debug
  | _, _ => True

/-- What a request can find, with or without debug information, is honest. -/
structure HonestEnv (env : Env) (debug : Bool) : Prop where
  apk : ∀ a b off f x, env.apk a b off debug = .ok (some (f, x)) → Honest f
  breakpad : ∀ p f, env.breakpad p = .ok f → Honest f
  elf : ∀ a b r, env.elf a b debug = .ok r → Honest r.find
  kernel : ∀ k f, env.kernel k = .ok f → Honest f
  gsymData : ∀ d f, env.gsymData d = .ok f → Honest f
  gsymFile : ∀ d f, env.gsymFile d = .ok f → Honest f
  perfMap : ∀ p f, env.perfMap p = .ok (some f) → Honest f
  vdso : ∀ p a b r, env.vdso p a b = .ok r → Honest r.find
  dispatch : ∀ d, env.dispatch = some d → ∀ a b n r, d a b n = .ok (some r) → Honest r.find
  dispatched : ∀ n r, (n, some r) ∈ env.dispatched → Honest r.find

theorem apk_honest {contents : Bytes} {dispatch : Nat → Bytes → Bytes → Except Err Resolver} {off : Nat} {r : Resolver}
    {x : Nat} (hd : ∀ place member data r, dispatch place member data = .ok r → Honest r.find)
    (h : Zip.createApkResolver contents dispatch Resolver.toVirt off = .ok (some (r, x))) : Honest r.find := by
  unfold Zip.createApkResolver at h
  obtain ⟨items, _, h⟩ := bind_ok h
  obtain ⟨o, _, h⟩ := bind_ok h
  cases o with
  | none => cases h
  | some entry =>
    obtain ⟨data, _, h⟩ := bind_ok h
    obtain ⟨q, hq, h⟩ := bind_ok h
    obtain ⟨o, _, h⟩ := bind_ok h
    cases o with
    | none => cases h
    | some y => cases h; exact hd _ _ _ _ hq

theorem member_honest {cfg : Settings M K} (hd : HonestDispatch cfg) {debug : Bool}
    (ht : debug = true → DebugFits cfg.tools) {w : World M} {actual represented : Bytes}
    {place : Nat} {member data : Bytes} {r : Resolver}
    (h : memberResolver cfg w actual represented debug place member data = .ok r) : Honest r.find := by
  have default : ∀ r, defaultApkDispatcher cfg w represented debug place member data = .ok r → Honest r.find := by
    intro r hr
    unfold defaultApkDispatcher at hr
    cases debug with
    | false =>
      simp only [Bool.false_eq_true, if_false] at hr
      cases hr
      exact elf_honest _ _
    | true =>
      simp only [if_true] at hr
      split at hr
      · cases hr
      · rename_i hev
        cases hr
        exact debug_honest (ht rfl) hev
  unfold memberResolver at h
  split at h
  · exact default _ h
  · rename_i d hd'
    split at h
    · cases h
    · rename_i q hq
      cases h
      exact hd.1 d hd' _ _ _ _ _ hq
    · exact default _ h

theorem envAt_honest {cfg : Settings M K} (hd : HonestDispatch cfg) {debug : Bool}
    (ht : debug = true → DebugFits cfg.tools) (w : World M) (v : Versions M)
    (maps : Nat → Except Err (List (Except Err Maps.Entry))) : HonestEnv (envAt cfg w v maps) debug where
  apk := by
    intro a b off f x h
    simp only [envAt] at h
    split at h
    · cases h
    · cases h
    · split at h
      · cases h
      · rename_i found hf
        cases found with
        | none => cases h
        | some p =>
          obtain ⟨r, y⟩ := p
          cases h
          exact apk_honest (fun _ _ _ _ hm => member_honest hd ht hm) hf
  breakpad := by
    intro p f h
    simp only [envAt] at h
    split at h
    · cases h
    · cases h
    · split at h
      · cases h
      · rename_i hf
        cases h
        exact breakpad_honest hf
  elf := by
    intro a b r h
    cases debug with
    | false =>
      simp only [envAt, Bool.false_eq_true, if_false] at h
      split at h
      · cases h
      · cases h; exact elf_honest _ _
    | true =>
      simp only [envAt, if_true] at h
      unfold debugAt at h
      split at h
      · cases h
      · split at h
        · cases h
        · rename_i hev
          cases h
          exact debug_honest (ht rfl) hev
  kernel := by intro k f h; cases h
  gsymData := by
    intro d f h
    simp only [envAt] at h
    split at h
    · cases h
    · cases h; exact gsym_honest _
  gsymFile := by
    intro d f h
    simp only [envAt] at h
    split at h
    · cases h
    · cases h
    · split at h
      · cases h
      · cases h; exact gsym_honest _
  perfMap := by
    intro p f h
    simp only [envAt] at h
    split at h
    · cases h
    · cases h
    · cases h
    · split at h
      · cases h
      · rename_i hf
        cases h
        exact perf_honest hf
  vdso := by
    intro p a b r h
    simp only [envAt] at h
    split at h
    · cases h
    · cases h; exact elf_honest _ _
  dispatch := fun d h => hd.2 d h
  dispatched := by intro n r h; cases h

/-! ### Requests -/

theorem with_eq {env : Env} {addr : Nat} {f : SymFn} {s : Sym} (h : env.symbolizeWith addr f = .ok (.sym s)) :
    ∃ r, f addr env.opts = .ok (.ok r) ∧ s.addr = r.addr ∧ s.size = r.size ∧ s.addr + s.offset = addr := by
  unfold Env.symbolizeWith symbolizeWithResolver at h
  split at h
  · cases h
  · cases h
  · rename_i r hr
    split at h
    · cases h
    · rename_i s' hs
      cases h
      unfold convertSym at hs
      simp only at hs
      split at hs
      · cases hs
      · rename_i off ho
        cases hs
        unfold subU at ho
        split_ifs at ho with hle
        cases ho
        exact ⟨r, hr, rfl, rfl, by simp only; omega⟩

theorem with_placed {env : Env} {addr : Nat} {f : SymFn} {out : Symbolized} (h : env.symbolizeWith addr f = .ok out) :
    Placed addr out := by
  cases out with
  | unknown _ => trivial
  | sym s => exact (with_eq h).choose_spec.2.2.2

theorem with_inside {env : Env} {addr : Nat} {f : SymFn} (hf : Honest f) {out : Symbolized}
    (h : env.symbolizeWith addr f = .ok out) : Inside out := by
  cases out with
  | unknown _ => trivial
  | sym s =>
    obtain ⟨r, h1, h2, h3, h4⟩ := with_eq h
    intro n hn h0
    have := hf _ _ _ h1 n (by rw [← h3]; exact hn) h0
    omega

theorem offset_inside {env : Env} {r : Resolver} (hr : Honest r.find) {off : Nat} {out : Symbolized}
    (h : env.symbolizeOffset r off = .ok out) : Inside out := by
  unfold Env.symbolizeOffset at h
  split at h
  · cases h
  · exact with_inside hr h
  · cases h; trivial

theorem apk_inside {env : Env} {debug : Bool} (he : HonestEnv env debug) {a b : Bytes} {off : Nat} {out : Symbolized}
    (h : env.symbolizeApk a b off debug = .ok out) : Inside out := by
  unfold Env.symbolizeApk at h
  split at h
  · cases h
  · rename_i ha
    exact with_inside (he.apk _ _ _ _ _ ha) h
  · cases h; trivial

theorem default_inside {env : Env} {debug : Bool} (he : HonestEnv env debug) {src : ProcessSource} (hs : src.debugSyms = debug)
    {addr off : Nat} {entry : Maps.Entry} {out : Symbolized} (h : handleDefault env src addr off entry = .ok out) :
    Inside out := by
  unfold handleDefault at h
  rw [hs] at h
  split at h
  · simp only at h
    split_ifs at h
    · exact apk_inside he h
    · exact apk_inside he h
    all_goals
      split at h
      · cases h
      · rename_i hr
        exact offset_inside (he.elf _ _ _ hr) h
  · split_ifs at h
    · split at h
      · cases h
      · rename_i hr
        exact offset_inside (he.vdso _ _ _ _ hr) h
    · cases h; trivial
  · split_ifs at h
    · unfold handlePerfMapAddr at h
      split at h
      · cases h
      · rename_i hr
        exact with_inside (he.perfMap _ _ hr) h
      · cases h; trivial
    · cases h; trivial

/-- What a dispatcher has supplied is honest. -/
def HonestCache (c : DispatchCache) : Prop := ∀ n r, (n, some r) ∈ c → Honest r.find

theorem lookup_mem {c : DispatchCache} {n : Maps.PathName} {r : Option Resolver} (h : c.lookup n = some r) :
    ∃ m, (m, r) ∈ c := by
  induction c with
  | nil => cases h
  | cons a t ih =>
    obtain ⟨k, v⟩ := a
    rw [List.lookup_cons] at h
    split at h
    · cases h; exact ⟨k, .head _⟩
    · obtain ⟨m, hm⟩ := ih h; exact ⟨m, .tail _ hm⟩

theorem dispatch_honest {env : Env} {debug : Bool} (he : HonestEnv env debug) {c c' : DispatchCache} (hc : HonestCache c) {a b : Nat}
    {n : Maps.PathName} {r : Option Resolver} (h : dispatchResolver env c a b n = .ok (r, c')) :
    HonestCache c' ∧ ∀ q, r = some q → Honest q.find := by
  unfold dispatchResolver at h
  split at h
  · cases h; exact ⟨hc, by intro q hq; cases hq⟩
  · rename_i d hd
    split at h
    · rename_i r' hr
      cases h
      obtain ⟨m, hm⟩ := lookup_mem hr
      exact ⟨hc, fun q hq => hc m q (hq ▸ hm)⟩
    · split at h
      · cases h
      · rename_i r' hr
        cases h
        have key : ∀ q, r = some q → Honest q.find := fun q hq => he.dispatch d hd _ _ _ q (hq ▸ hr)
        refine ⟨?_, key⟩
        intro m q hm
        rcases List.mem_cons.mp hm with hm | hm
        · cases hm; exact key q rfl
        · exact hc m q hm

theorem entry_inside {env : Env} {debug : Bool} (he : HonestEnv env debug) {src : ProcessSource} (hs : src.debugSyms = debug)
    {c c' : DispatchCache} (hc : HonestCache c) {addr : Nat} {entry : Maps.Entry} {out : Symbolized}
    (h : handleEntryAddr env src c addr entry = .ok (out, c')) : Inside out ∧ HonestCache c' := by
  unfold handleEntryAddr at h
  split at h
  · cases h
  · simp only at h
    split at h
    · split at h
      · cases h
      · rename_i hd
        cases h
        exact ⟨default_inside he hs hd, hc⟩
    · split at h
      · cases h
      · rename_i hq
        obtain ⟨k1, _⟩ := dispatch_honest he hc hq
        split at h
        · cases h
        · rename_i hd
          cases h
          exact ⟨default_inside he hs hd, k1⟩
      · rename_i hq
        obtain ⟨k1, k2⟩ := dispatch_honest he hc hq
        split at h
        · cases h
        · rename_i hd
          cases h
          exact ⟨offset_inside (k2 _ rfl) hd, k1⟩

theorem walk_inside {env : Env} {debug : Bool} (he : HonestEnv env debug) {src : ProcessSource} (hs : src.debugSyms = debug)
    {items : List (Except Err Maps.Entry)} {sorted : List Nat} {c : DispatchCache} {outs : List Symbolized}
    (h : userHandle env src items sorted = .ok (c, outs)) : outs.length = sorted.length ∧ ∀ o ∈ outs, Inside o := by
  unfold userHandle at h
  split at h
  · cases h
  · rename_i syms cache hw
    cases h
    have := Normalize.walk_ind (symHandler env src)
      (fun n s => s.1.length = n ∧ HonestCache s.2 ∧ ∀ o ∈ s.1, Inside o)
      (by
        rintro n a s ⟨h1, h2, h3⟩
        refine ⟨by simp [symHandler, h1], h2, ?_⟩
        intro o ho
        rcases List.mem_append.mp ho with ho | ho
        · exact h3 o ho
        · rcases List.mem_singleton.mp ho with rfl; trivial)
      (by
        rintro n a e s s' ⟨h1, h2, h3⟩ hs'
        simp only [symHandler] at hs'
        split at hs'
        · cases hs'
        · rename_i sym c' hx
          cases hs'
          obtain ⟨k1, k2⟩ := entry_inside he hs h2 hx
          refine ⟨by simp [h1], k2, ?_⟩
          intro o ho
          rcases List.mem_append.mp ho with ho | ho
          · exact h3 o ho
          · rcases List.mem_singleton.mp ho with rfl; exact k1)
      sorted _ ([], env.dispatched) (outs, c) ⟨rfl, he.dispatched, by intro o ho; cases ho⟩ hw
    exact ⟨this.1, this.2.2⟩

theorem user_inside {env : Env} {debug : Bool} (he : HonestEnv env debug) {src : ProcessSource} (hs : src.debugSyms = debug)
    {addrs : List Nat} {outs : List Symbolized} (h : symbolizeUserAddrs env src addrs = .ok outs) :
    ∀ o ∈ outs, Inside o := by
  unfold symbolizeUserAddrs at h
  split at h
  · cases h
  · rename_i items _
    obtain ⟨sorted, _, _, h1 | ⟨rest, os, os', h1, h2, h3, _⟩⟩ :=
      C01_results_kept addrs (userHandle env src items) (fun l r os hl => (walk_inside he hs hl).1)
    · obtain ⟨e, _, h2⟩ := h1
      rw [h2] at h
      cases h
    · rw [h2] at h
      cases h
      intro o ho
      exact (walk_inside he hs h1).2 o ((h3 o).mpr ho)

theorem orElse_good {P : Symbolized → Prop} {fold : Err → Except Err Symbolized}
    (hf : ∀ e out, fold e = .ok out → P out) {x : Except Err Symbolized} (hx : ∀ out, x = .ok out → P out)
    {out : Symbolized} (h : orElse fold x = .ok out) : P out := by
  unfold orElse at h
  split at h
  · exact hx _ h
  · cases h
  · exact hf _ _ h

theorem map_good {P : Symbolized → Prop} {fold : Err → Except Err Symbolized}
    (hf : ∀ e out, fold e = .ok out → P out) {g : Nat → Except Err Symbolized} {addrs : List Nat}
    (hx : ∀ a out, g a = .ok out → P out) {items : List (Except Err Symbolized)}
    (h : .ok (addrs.map fun a => orElse fold (g a)) = (.ok items : Except Err _)) : ∀ out, .ok out ∈ items → P out := by
  cases h
  intro out ho
  obtain ⟨a, _, ha⟩ := List.mem_map.mp ho
  exact orElse_good hf (hx a) ha

theorem impl_inside {env : Env} {debug : Bool} (he : HonestEnv env debug) {src : Source} (hs : Asks src debug) {input : Input (List Nat)}
    {fold : Err → Except Err Symbolized} (hf : ∀ e out, fold e = .ok out → Inside out)
    {items : List (Except Err Symbolized)} (h : symbolizeImpl env src input fold = .ok items) :
    ∀ out, .ok out ∈ items → Inside out := by
  unfold symbolizeImpl at h
  split at h
  · cases hs
    split at h
    · cases h
    · cases h
    · exact map_good hf (fun _ _ hx => apk_inside he hx) h
  · split at h
    · cases h
    · cases h
    · split at h
      · cases h
      · rename_i hr
        exact map_good hf (fun _ _ hx => with_inside (he.breakpad _ _ hr) hx) h
  · cases hs
    split at h
    · cases h
    · rename_i hr
      split at h
      · exact map_good hf (fun _ _ hx => with_inside (he.elf _ _ _ hr) hx) h
      · cases h
      · exact map_good hf (fun _ _ hx => offset_inside (he.elf _ _ _ hr) hx) h
  · split at h
    · split at h
      · cases h
      · rename_i hr
        exact map_good hf (fun _ _ hx => with_inside (he.kernel _ _ hr) hx) h
    · cases h
    · cases h
  · split at h
    · split at h
      · cases h
      · rename_i syms hr
        cases h
        intro out ho
        obtain ⟨a, ha, hx⟩ := List.mem_map.mp ho
        cases hx
        exact user_inside he hs hr _ ha
    · cases h
    · cases h
  · split at h
    · split at h
      · cases h
      · rename_i hr
        exact map_good hf (fun _ _ hx => with_inside (he.gsymData _ _ hr) hx) h
    · cases h
    · cases h
  · split at h
    · split at h
      · cases h
      · rename_i hr
        exact map_good hf (fun _ _ hx => with_inside (he.gsymFile _ _ hr) hx) h
    · cases h
    · cases h

theorem collect_mem {items : List (Except Err Symbolized)} {outs : List Symbolized}
    (h : Maps.collect items = .ok outs) : ∀ o ∈ outs, .ok o ∈ items := by
  induction items generalizing outs with
  | nil => cases h; intro o ho; cases ho
  | cons a t ih =>
    cases a with
    | error e => cases h
    | ok x =>
      unfold Maps.collect at h
      split at h
      · cases h
      · rename_i l hl
        cases h
        intro o ho
        rcases List.mem_cons.mp ho with rfl | ho
        · exact .head _
        · exact .tail _ (ih hl o ho)

theorem batch_inside {env : Env} {debug : Bool} (he : HonestEnv env debug) {src : Source} (hs : Asks src debug) {input : Input (List Nat)}
    {outs : List Symbolized} (h : symbolize env src input = .ok outs) : ∀ o ∈ outs, Inside o := by
  unfold symbolize at h
  split at h
  · cases h
  · rename_i hi
    intro o ho
    exact impl_inside he hs (by intro e out h; cases h; trivial) hi o (collect_mem h o ho)

theorem single_inside {env : Env} {debug : Bool} (he : HonestEnv env debug) {src : Source} (hs : Asks src debug) {input : Input Nat}
    {out : Symbolized} (h : symbolizeSingle env src input = .ok out) : Inside out := by
  unfold symbolizeSingle at h
  split at h
  · cases h
  · rename_i item hi
    subst h
    exact impl_inside he hs (by intro e out h; cases h) hi out (.head _)
  · cases h

theorem asks (src : Source) : ∃ debug, Asks src debug ∧ (debug = true → Debug src) := by
  cases src with
  | apk path d => exact ⟨d, rfl, fun h => h⟩
  | elf path d => exact ⟨d, rfl, fun h => h⟩
  | process p => exact ⟨p.debugSyms, rfl, fun h => h⟩
  | breakpad path => exact ⟨false, trivial, by simp⟩
  | kernel k => exact ⟨false, trivial, by simp⟩
  | gsymData d => exact ⟨false, trivial, by simp⟩
  | gsymFile d => exact ⟨false, trivial, by simp⟩

end Blazesym.Extent
