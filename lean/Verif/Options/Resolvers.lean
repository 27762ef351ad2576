import Verif.Options.Lemmas

/-! Which resolvers find the same symbol whatever is asked about the source. -/

set_option autoImplicit false

namespace Blazesym.Options
open Blazesym.Util Blazesym.Symbolize Blazesym.Spec Blazesym.Spec.Symbolize Blazesym.Spec.Options
open Blazesym.Dwarf hiding Resolver

variable {M K : Type}

theorem steady_weaken {p q : FindSymOpts → Prop} {f : SymFn} (h : Steady p f) (hpq : ∀ o, q o → p o) : Steady q f := by
  intro addr opts opts' found found' h1 h2
  rcases h addr opts opts' found found' h1 h2 with h | ⟨r, r', a, b, c, d, e, g⟩
  · exact .inl h
  · exact .inr ⟨r, r', a, b, c, d, e, fun hq hq' => g (hpq _ hq) (hpq _ hq')⟩

/-- A resolver that does not look at what is asked. -/
theorem steady_const {named : FindSymOpts → Prop} {f : SymFn} (h : ∀ addr opts opts', f addr opts = f addr opts') : Steady named f := by
  intro addr opts opts' found found' h1 h2
  rw [h addr opts opts', h2] at h1
  cases h1
  cases found with
  | error r => exact .inl ⟨r, rfl, rfl⟩
  | ok r => exact .inr ⟨r, r, rfl, rfl, rfl, rfl, rfl, fun _ _ => ⟨rfl, rfl⟩⟩

theorem elf_steady (t : Tools) (p : ElfParser) : Steady (fun _ => True) (p.findSym t) := steady_const fun _ _ _ => rfl

theorem perf_steady (fs : List PerfMap.Function) : Steady (fun _ => True) (PerfMap.findSym fs) := steady_const fun _ _ _ => rfl

theorem breakpad_lang {file : Breakpad.SymbolFile} {sym sym' : ResolvedSym} {addr : Nat} {opts : FindSymOpts}
    {f : Breakpad.Function} (h : file.fillCodeInfo sym addr opts f = .ok sym') : sym'.lang = sym.lang := by
  unfold Breakpad.SymbolFile.fillCodeInfo at h
  split at h
  · split at h
    · cases h
    · cases h; rfl
    · split at h
      · cases h
      · split at h
        · cases h
        · cases h; rfl
  · cases h; rfl

theorem breakpad_steady (file : Breakpad.SymbolFile) : Steady (fun _ => True) file.findSym := by
  intro addr opts opts' found found' h1 h2
  unfold Breakpad.SymbolFile.findSym at h1 h2
  split at h1
  · cases h1
  · rename_i hf
    rw [hf] at h2
    cases h1; cases h2
    exact .inl ⟨_, rfl, rfl⟩
  · rename_i hf
    rw [hf] at h2
    simp only at h2
    split at h1
    · cases h1
    · rename_i r hr
      cases h1
      split at h2
      · cases h2
      · rename_i r' hr'
        cases h2
        obtain ⟨a1, a2, a3, a4⟩ := Breakpad.fillCodeInfo_keeps hr
        obtain ⟨b1, b2, b3, b4⟩ := Breakpad.fillCodeInfo_keeps hr'
        exact .inr ⟨r, r', rfl, rfl, a2.trans b2.symm, a3.trans b3.symm, a4.trans b4.symm,
          fun _ _ => ⟨a1.trans b1.symm, (breakpad_lang hr).trans (breakpad_lang hr').symm⟩⟩

theorem gsym_lang {ctx : Gsym.Context} {sym r : ResolvedSym} {addr symAddr : Nat} {opts : FindSymOpts}
    {info : Gsym.AddrInfo} (h : Gsym.fillCodeInfo ctx sym addr opts symAddr info = .ok r) : r.lang = sym.lang := by
  unfold Gsym.fillCodeInfo at h
  split_ifs at h with hc
  · obtain ⟨⟨row, stack⟩, _, h⟩ := bind_ok h
    simp only at h
    cases row with
    | none => cases h; rfl
    | some row =>
      obtain ⟨li, _, h⟩ := bind_ok h
      cases stack with
      | nil => cases h; rfl
      | cons first frames =>
        obtain ⟨name, _, h⟩ := bind_ok h
        obtain ⟨⟨li', inl⟩, _, h⟩ := bind_ok h
        cases h; rfl
  · cases h; rfl

theorem gsym_steady (ctx : Gsym.Context) : Steady (fun o => o ≠ .codeInfoAndInlined) (Gsym.findSym ctx) := by
  intro addr opts opts' found found' h1 h2
  unfold Gsym.findSym at h1 h2
  split at h1
  · rename_i hf
    rw [hf] at h2
    cases h1; cases h2
    exact .inl ⟨_, rfl, rfl⟩
  · rename_i idx hf
    rw [hf] at h2
    simp only at h2
    obtain ⟨symAddr, ha, h1⟩ := bind_ok h1
    obtain ⟨symAddr', ha', h2⟩ := bind_ok h2
    rw [ha] at ha'
    cases ha'
    split_ifs at h1 h2 with hlt
    · cases h1; cases h2
      exact .inl ⟨_, rfl, rfl⟩
    · obtain ⟨info, hi, h1⟩ := bind_ok h1
      obtain ⟨info', hi', h2⟩ := bind_ok h2
      rw [hi] at hi'
      cases hi'
      obtain ⟨b, hb, h1⟩ := bind_ok h1
      obtain ⟨b', hb', h2⟩ := bind_ok h2
      rw [hb] at hb'
      cases hb'
      cases b with
      | true =>
        cases h1; cases h2
        exact .inl ⟨_, rfl, rfl⟩
      | false =>
        simp only [Bool.false_eq_true, if_false] at h1 h2
        obtain ⟨name, hn, h1⟩ := bind_ok h1
        obtain ⟨name', hn', h2⟩ := bind_ok h2
        rw [hn] at hn'
        cases hn'
        obtain ⟨r, hr, h1⟩ := bind_ok h1
        obtain ⟨r', hr', h2⟩ := bind_ok h2
        cases h1; cases h2
        obtain ⟨a1, a2, a3, a4⟩ := Gsym.fill_keeps hr
        obtain ⟨b1, b2, b3, b4⟩ := Gsym.fill_keeps hr'
        exact .inr ⟨r, r', rfl, rfl, a3.trans b3.symm, a1.trans b1.symm, a2.trans b2.symm,
          fun ho ho' => ⟨((a4 ho).elim And.left And.left).trans ((b4 ho').elim And.left And.left).symm,
            (gsym_lang hr).trans (gsym_lang hr').symm⟩⟩

theorem dwarf_steady (t : Tools) (p : ElfParser) (d : DebugData) : Steady (fun _ => True) ((d.resolver t p).findSym t.σ) := by
  intro addr opts opts' found found' h1 h2
  have fill : ∀ {sym r r' : ResolvedSym} {data : Option (Dwarf.Function × Dwarf.Unit)},
      (d.resolver t p).units.fillCodeInfo t.σ sym addr opts data = .ok r →
      (d.resolver t p).units.fillCodeInfo t.σ sym addr opts' data = .ok r' →
      r.module = r'.module ∧ r.addr = r'.addr ∧ r.size = r'.size ∧ (True → True → r.name = r'.name ∧ r.lang = r'.lang) := by
    intro sym r r' data h h'
    obtain ⟨a1, a2, a3, a4, a5⟩ := Dwarf.fillCodeInfo_keeps h
    obtain ⟨b1, b2, b3, b4, b5⟩ := Dwarf.fillCodeInfo_keeps h'
    exact ⟨a2.trans b2.symm, a3.trans b3.symm, a4.trans b4.symm, fun _ _ => ⟨a1.trans b1.symm, a5.trans b5.symm⟩⟩
  unfold Dwarf.Resolver.findSym at h1 h2
  obtain ⟨o, ho, h1⟩ := bind_ok h1
  obtain ⟨o', ho', h2⟩ := bind_ok h2
  rw [ho] at ho'
  cases ho'
  cases o with
  | some fu =>
    obtain ⟨f, unit⟩ := fu
    obtain ⟨name, hn, h1⟩ := bind_ok h1
    obtain ⟨name', hn', h2⟩ := bind_ok h2
    rw [hn] at hn'
    cases hn'
    obtain ⟨size, hs, h1⟩ := bind_ok h1
    obtain ⟨size', hs', h2⟩ := bind_ok h2
    rw [hs] at hs'
    cases hs'
    obtain ⟨lang, hl, h1⟩ := bind_ok h1
    obtain ⟨lang', hl', h2⟩ := bind_ok h2
    rw [hl] at hl'
    cases hl'
    obtain ⟨r, hr, h1⟩ := bind_ok h1
    obtain ⟨r', hr', h2⟩ := bind_ok h2
    cases h1; cases h2
    exact .inr ⟨r, r', rfl, rfl, fill hr hr'⟩
  | none =>
    obtain ⟨e, he, h1⟩ := bind_ok h1
    obtain ⟨e', he', h2⟩ := bind_ok h2
    have : (d.resolver t p).elfFindSym addr opts = (d.resolver t p).elfFindSym addr opts' := rfl
    rw [this, he'] at he
    cases he
    cases e with
    | error reason =>
      cases h1; cases h2
      exact .inl ⟨_, rfl, rfl⟩
    | ok sym =>
      obtain ⟨r, hr, h1⟩ := bind_ok h1
      obtain ⟨r', hr', h2⟩ := bind_ok h2
      cases h1; cases h2
      exact .inr ⟨r, r', rfl, rfl, fill hr hr'⟩

theorem apk_steady {contents : Bytes} {dispatch : Nat → Bytes → Bytes → Except Err Resolver} {off : Nat} {r : Resolver}
    {x : Nat} (hd : ∀ place member data r, dispatch place member data = .ok r → Steady (fun _ => True) r.find)
    (h : Zip.createApkResolver contents dispatch Resolver.toVirt off = .ok (some (r, x))) : Steady (fun _ => True) r.find := by
  unfold Zip.createApkResolver at h
  obtain ⟨items, _, h⟩ := bind_ok h
  obtain ⟨o, _, h⟩ := bind_ok h
  cases o with
  | none => cases h
  | some entry =>
    obtain ⟨data, _, h⟩ := bind_ok h
    obtain ⟨q, hq, h⟩ := bind_ok h
    obtain ⟨o, _, h⟩ := bind_ok h
    cases o with
    | none => cases h
    | some y => cases h; exact hd _ _ _ _ hq

theorem member_steady {cfg : Settings M K} (hd : SteadyDispatch cfg) {debug : Bool} {w : World M}
    {actual represented : Bytes} {place : Nat} {member data : Bytes} {r : Resolver}
    (h : memberResolver cfg w actual represented debug place member data = .ok r) : Steady (fun _ => True) r.find := by
  have default : ∀ r, defaultApkDispatcher cfg w represented debug place member data = .ok r → Steady (fun _ => True) r.find := by
    intro r hr
    unfold defaultApkDispatcher at hr
    cases debug with
    | false =>
      simp only [Bool.false_eq_true, if_false] at hr
      cases hr
      exact elf_steady _ _
    | true =>
      simp only [if_true] at hr
      split at hr
      · cases hr
      · cases hr
        exact dwarf_steady _ _ _
  unfold memberResolver at h
  split at h
  · exact default _ h
  · rename_i d hd'
    split at h
    · cases h
    · rename_i q hq
      cases h
      exact hd.1 d hd' _ _ _ _ _ hq
    · exact default _ h

theorem envAt_steady {cfg : Settings M K} (hd : SteadyDispatch cfg) (w : World M) (v : Versions M)
    (maps : Nat → Except Err (List (Except Err Maps.Entry))) (gsym : Prop) :
    AllFns (Steady fun o => gsym → o ≠ .codeInfoAndInlined) gsym (envAt cfg w v maps) where
  apk := by
    intro a b off debug f x h
    simp only [envAt] at h
    split at h
    · cases h
    · cases h
    · split at h
      · cases h
      · rename_i found hf
        cases found with
        | none => cases h
        | some p =>
          obtain ⟨r, y⟩ := p
          cases h
          exact steady_weaken (apk_steady (fun _ _ _ _ hm => member_steady hd hm) hf) fun _ _ => trivial
  breakpad := by
    intro p f h
    simp only [envAt] at h
    split at h
    · cases h
    · cases h
    · split at h
      · cases h
      · cases h
        exact steady_weaken (breakpad_steady _) fun _ _ => trivial
  elf := by
    intro a b debug r h
    cases debug with
    | false =>
      simp only [envAt, Bool.false_eq_true, if_false] at h
      split at h
      · cases h
      · cases h; exact steady_weaken (elf_steady _ _) fun _ _ => trivial
    | true =>
      simp only [envAt, if_true] at h
      unfold debugAt at h
      split at h
      · cases h
      · split at h
        · cases h
        · cases h
          exact steady_weaken (dwarf_steady _ _ _) fun _ _ => trivial
  kernel := by intro k f h; cases h
  gsymData := by
    intro hg d f h
    simp only [envAt] at h
    split at h
    · cases h
    · cases h; exact steady_weaken (gsym_steady _) fun _ hn => hn hg
  gsymFile := by
    intro hg d f h
    simp only [envAt] at h
    split at h
    · cases h
    · cases h
    · split at h
      · cases h
      · cases h; exact steady_weaken (gsym_steady _) fun _ hn => hn hg
  perfMap := by
    intro p f h
    simp only [envAt] at h
    split at h
    · cases h
    · cases h
    · cases h
    · split at h
      · cases h
      · cases h
        exact steady_weaken (perf_steady _) fun _ _ => trivial
  vdso := by
    intro p a b r h
    simp only [envAt] at h
    split at h
    · cases h
    · cases h; exact steady_weaken (elf_steady _ _) fun _ _ => trivial
  dispatch := fun d h a b n r hr => steady_weaken (hd.2 d h a b n r hr) fun _ _ => trivial
  dispatched := by intro n r h; cases h

theorem trivial_fns (env : Env) : AllFns (fun _ => True) True env :=
  ⟨fun _ _ _ _ _ _ _ => trivial, fun _ _ _ => trivial, fun _ _ _ _ _ => trivial, fun _ _ _ => trivial,
    fun _ _ _ _ => trivial, fun _ _ _ _ => trivial, fun _ _ _ => trivial, fun _ _ _ _ _ => trivial,
    fun _ _ _ _ _ _ _ => trivial, fun _ _ _ => trivial⟩

theorem with_names (env : Env) (dem : Bool) (demangler : Demangler) (f : SymFn) (addr : Nat) :
    WRel True (Both NamesAside False) (env.symbolizeWith addr f)
      (Env.symbolizeWith { env with opts := env.opts, demangle := dem, demangler := demangler } addr f) := by
  unfold Env.symbolizeWith symbolizeWithResolver convertSym
  simp only
  split
  · exact .same _
  · exact .ok _ _ (.unknown _)
  · rename_i sym _
    cases hs : subU addr sym.addr with
    | error e => exact .same _
    | ok offset =>
      refine .ok _ _ (.sym _ _ ⟨rfl, rfl, rfl, rfl, rfl, ?_⟩)
      simp only [List.map_map]
      rfl

theorem with_source (env : Env) (opts : FindSymOpts) {named : FindSymOpts → Prop} {f : SymFn} (hf : Steady named f) (addr : Nat)
    (lenient : Prop) :
    WRel False (Both (SourceAside (named env.opts ∧ named opts)) lenient) (env.symbolizeWith addr f)
      (Env.symbolizeWith { env with opts := opts, demangle := env.demangle, demangler := env.demangler } addr f) := by
  unfold Env.symbolizeWith symbolizeWithResolver convertSym
  simp only
  cases h1 : f addr env.opts with
  | error e => exact .anyRight id _ _
  | ok found =>
    cases h2 : f addr opts with
    | error e => exact .anyLeft id _ _
    | ok found' =>
      rcases hf _ _ _ _ _ h1 h2 with ⟨reason, rfl, rfl⟩ | ⟨r, r', rfl, rfl, a, b, c, d⟩
      · exact .ok _ _ (.unknown _)
      · simp only
        rw [← b]
        cases hs : subU addr r.addr with
        | error e => exact .same _
        | ok offset =>
          refine .ok _ _ (.sym _ _ ⟨a, rfl, rfl, c, ?_⟩)
          intro hn
          obtain ⟨h1, h2⟩ := d hn.1 hn.2
          simp only [h1, h2]

end Blazesym.Options
