import Verif.CApi.WholeTripSpec
import Verif.CApi.WholeProps
import Verif.Session.RoundTripProps

/-! Property theorem C96 (round trips with the C interface). -/

set_option autoImplicit false

namespace Blazesym.CApi

open Blazesym.Symbolize Blazesym.RoundTrip
open Blazesym.Spec.Symbolize
open Blazesym.Spec.Normalize (Listing describe InVdsoGap Consistent VdsoFound)
open Blazesym.Spec.RoundTrip (Agree symbolizedLater)

variable {M : Type} [DecidableEq M] {p : Platform} {n : Sizes} {alloc : Allocator}

/-- What a batch for a file has to say, if each address on its own has an answer. -/
theorem batch_singles (env : Env) (src : Source) (kind : Kind) (hs : ∀ p, src ≠ .process p) {xs : List Nat}
    {outs : List Symbolized} (hne : xs ≠ [])
    (h : List.Forall₂ (fun x o => symbolizeSingle env src (kind.of x) = .ok o) xs outs) :
    symbolize env src (kind.of xs) = .ok outs := by
  obtain ⟨outs', h'⟩ : ∃ outs', symbolize env src (kind.of xs) = .ok outs' := by
    have hall := h
    cases h with
    | nil => exact absurd rfl hne
    | cons h1 h2 =>
      refine C43_batch_ok env src kind _ _ _ hs h1 fun b hb he => ?_
      obtain ⟨o, ho⟩ := forall₂_mem_left hall hb
      rw [he] at ho
      cases ho
  have := C43_batch env src kind xs outs' hs h'
  rw [h']
  congr 1
  clear h' hne
  induction h generalizing outs' with
  | nil => cases this; rfl
  | cons h1 h2 ih =>
    cases this with
    | cons g1 g2 =>
      rw [ih _ g2]
      congr 1
      rw [h1] at g1
      rcases g1 with g1 | ⟨⟨e, _, g1⟩, _⟩
      · cases g1; rfl
      · cases g1

/-- What two symbolizers say, one about addresses and the other one about offsets in a file, if the answers for each
address on its own agree. -/
theorem batches_agree (env : Env) (src : ProcessSource) (es : List Maps.Entry) (path : Bytes) (pairs : List (Nat × Nat))
    (hb : ByName env) (hm : env.maps src.pid = .ok (es.map .ok)) (hl : Listing es) (hne : es ≠ []) (hpairs : pairs ≠ [])
    (hag : ∀ (q : Nat × Nat), q ∈ pairs → ERel Agree (symbolizeSingle env (.process src) (.absAddr q.1))
      (symbolizeSingle env (.elf path src.debugSyms) (.fileOffset q.2))) {results : List Symbolized}
    (h : symbolize env (.process src) (.absAddr (pairs.map (·.1))) = .ok results) :
    ∃ (later : List Symbolized), symbolize env (.elf path src.debugSyms) (.fileOffset (pairs.map (·.2))) = .ok later ∧
      List.Forall₂ Agree results later := by
  have h1 := C43_process_batch_partial env src es _ _ hb hm hl hne h
  have h2 : ∃ (later : List Symbolized), List.Forall₂
      (fun off o => symbolizeSingle env (.elf path src.debugSyms) (Kind.fileOffset.of off) = .ok o) (pairs.map (·.2)) later ∧
      List.Forall₂ Agree results later := by
    clear h hpairs
    induction pairs generalizing results with
    | nil => cases h1; exact ⟨[], .nil, .nil⟩
    | cons q rest ih =>
      cases h1 with
      | cons g1 g2 =>
        obtain ⟨later, k1, k2⟩ := ih (fun q' hq => hag q' (List.mem_cons_of_mem _ hq)) g2
        have := hag q List.mem_cons_self
        rw [g1] at this
        generalize hx : symbolizeSingle env (.elf path src.debugSyms) (.fileOffset q.2) = x at this
        cases this with
        | ok _ b hab => exact ⟨b :: later, .cons hx k1, .cons hab k2⟩
  obtain ⟨later, k1, k2⟩ := h2
  exact ⟨later, batch_singles env _ .fileOffset (by intros; simp) (by simpa using hpairs) k1, k2⟩

/-- What normalization and later symbolization say, if files are read anew. -/
theorem trip_env (b : Normalize.Builder) {K : Type}
    {cfg : Settings M K} {contents : M → Except Err (Except Err Bytes)} {vdso : Dwarf.ElfParser} {n : Normalize.Normalizer M}
    (hn : Spec.Normalize.Reachable (b.build cfg.tools) (Spec.Normalize.Orderly contents vdso (b.build cfg.tools)) n)
    (w : Normalize.World M) (src : ProcessSource) (hv : src.vdso = true) (hp : src.perfMap = false)
    (hmf : src.mapFiles = false) (sorted : Bool) (addrs : List Nat) {es : List Maps.Entry}
    (hes : w.toSession.maps src.pid = .ok (es.map .ok)) (hl : Listing es) (hne : es ≠ [])
    (hd : ∀ e ∈ es, NoDispatch cfg e)
    (ho : Spec.Normalize.Orderly contents vdso (b.build cfg.tools) n w ⟨⟨sorted, false, false⟩, src.pid, addrs⟩)
    (hf : Spec.Normalize.VdsoFound (b.build cfg.tools) w src.pid (n.vmas src.pid)) {from_ : Normalize.Source}
    (hsrc : Spec.Normalize.mappingsAt (b.build cfg.tools) w src.pid (n.vmas src.pid) = .ok from_)
    (hprov : Normalize.Provides from_ es addrs)
    (hsort : sorted = true → addrs.Pairwise (· ≤ ·))
    (hok : ∀ a ∈ addrs, ∃ v m,
      describe (Spec.Normalize.envAt (b.build cfg.tools) w ⟨sorted, false, false⟩ src.pid) es a = .ok (v, m))
    (hg : ∀ a ∈ addrs, ¬ Spec.Normalize.InVdsoGap
      (Spec.Normalize.envAt (b.build cfg.tools) w ⟨sorted, false, false⟩ src.pid) es a)
    (hcon : Spec.Normalize.Consistent
      (Spec.Normalize.envAt (b.build cfg.tools) w ⟨sorted, false, false⟩ src.pid) es addrs) :
    ∃ metas outs, (n.normalize (b.build cfg.tools) w ⟨sorted, false, false⟩ src.pid addrs).1 = .ok metas outs ∧
      List.Forall₂ (fun a (o : Nat × Nat) => ∃ m, metas[o.2]? = some m ∧
        ERel Agree (symbolizeSingle (envAt cfg w.toSession (present w.toSession) w.toSession.maps) (.process src) (.absAddr a))
          (symbolizedLater (symbolizeSingle (envAt cfg w.toSession (present w.toSession) w.toSession.maps))
            (shownBy cfg .unknown) src.debugSyms (o.1, m)) ∧
        ∀ path bid, m = .elf path bid → ∃ e ∈ es, ∃ p, e.pathName = some (.path p) ∧ path = p.symbolicPath) addrs outs := by
  obtain ⟨metas, outs, h1, h2⟩ := Normalize.C75_normalize_partial b cfg.tools hn w
    ⟨⟨sorted, false, false⟩, src.pid, addrs⟩ ho hf hsrc es hl hprov hsort hok hg hcon
  refine ⟨metas, outs, h1, List.Forall₂.imp ?_ h2⟩
  rintro a o ⟨m, hm, hdesc⟩
  have key := (C76_address cfg (b.build cfg.tools) rfl w (present w.toSession) w.toSession.maps src hv hp
    ⟨sorted, false, false⟩ rfl hmf.symm hes hl hne hd a hdesc).1 hmf
  exact ⟨m, hm, key, fun path bid hmm => by simpa using! (described_file _ rfl es a o.1 m hdesc).1 path bid hmm⟩

theorem metas_elf {metas : List Normalize.UserMeta} {outs : List OutMeta} (h : List.Forall₂ SameMeta metas outs) {i : Nat}
    {path : Bytes} {id : Option Bytes} (hi : outs[i]? = some (.elf path id)) : metas[i]? = some (.elf path id) := by
  induction h generalizing i with
  | nil => simp at hi
  | cons h1 h2 ih =>
    cases i with
    | zero =>
      simp only [List.getElem?_cons_zero, Option.some.injEq] at hi ⊢
      subst hi
      cases h1
      rfl
    | succ i => simpa using ih (by simpa using hi)

theorem forall₂_at {α β : Type} {R : α → β → Prop} {l : List α} {m : List β} (h : List.Forall₂ R l m) {i : Nat} {x : α} {y : β}
    (hx : l[i]? = some x) (hy : m[i]? = some y) : R x y := by
  induction h generalizing i with
  | nil => simp at hx
  | cons h1 h2 ih =>
    cases i with
    | zero => simp at hx hy; subst hx hy; exact h1
    | succ i => exact ih (by simpa using hx) (by simpa using hy)

theorem dispatchByName (opts : SymbolizerOpts) : DispatchByName (settingsOf p opts : Settings M (KernelCache M)) := by
  intro d hd
  simp only [settingsOf, Option.map_eq_some_iff] at hd
  obtain ⟨d', _, rfl⟩ := hd
  intros
  rfl

theorem byName (opts : SymbolizerOpts) (w : World M) :
    ByName (envAt (settingsOf p opts : Settings M (KernelCache M)) w (present w) w.maps) := by
  intro d hd
  have hd' : (settingsOf p opts : Settings M (KernelCache M)).processDispatch = some d := hd
  simp only [settingsOf, Option.map_eq_some_iff] at hd'
  obtain ⟨d', _, rfl⟩ := hd'
  exact ⟨fun _ _ _ _ _ => rfl, fun name r hx => absurd hx (by simp [envAt])⟩

section
variable (ha : GoodAllocator alloc) (hp : 0 < p.boxSize) (hn : 0 < n.norm) (hi : 0 < n.insp)
include ha hp hn hi

/-- What a program is given that asks for addresses of a process is what a symbolizer says that reads files anew. -/
theorem direct_results {k : SymbolizerOpts → Known M}
    (hlen : ∀ opts m data, (k opts).contents m = .ok (.ok data) → data.length < 2 ^ 63) {ok : Conditions M}
    (hok : ok.sym = fun opts s w c => Orderly (settingsOf p opts) (k opts) s w c ∧ NotCaching c)
    {opts : SymbolizerOpts} (har : opts.autoReload = true) {w : Normalize.World M}
    (hw : w.toSession.disk.contents = (k opts).contents) {src : ProcessSource}
    (hfits : ∀ l, Uses w.toSession.maps (.process src) l →
      Fits (settingsOf p opts) (k opts) w.toSession (present w.toSession) l) {xs : List Nat} {y y' : Whole M} {c : SymCall}
    {thread ret : Nat} (hy : Asks p n alloc ok opts w .process (.process src) (.absAddr xs) y c)
    (hstep : y.step p n alloc w thread (.sym c) = .ok (ret, y')) (hret : ret ≠ 0) :
    ∃ (results : List Symbolized), results ≠ [] ∧ ResultsAt y'.store.mem ret results ∧
      symbolize (envAt (settingsOf p opts : Settings M (KernelCache M)) w.toSession (present w.toSession) w.toSession.maps)
        (.process src) (.absAddr xs) = .ok results := by
  obtain ⟨ay, osy, s, at1, ads1, cnt1, ry, aby, hsy, hso, rfl, argy⟩ := hy
  have vy := C95_views ha hp hn hi ry
  have oy := (C95_objects ha hp hn hi ry).1 s hsy
  have fy := (aby s _ _ hsy rfl argy).2
  subst hso
  rw [hok] at oy
  have ey := (C68_fresh_partial (dispatchByName s.opts) har (hlen s.opts) oy w.toSession (.process src) (by intros; simp)
    (.absAddr xs) hw hfits).1
  obtain ⟨prog', hs1, rfl⟩ := sym_step hstep
  obtain ⟨d1, d2, d3, d4⟩ := C87_symbolize ha hp vy.sym w.toSession thread hsy argy
    (r := (s.state.symbolize (settingsOf p s.opts) w.toSession (.process src) (.absAddr xs)).1)
    (state := (s.state.symbolize (settingsOf p s.opts) w.toSession (.process src) (.absAddr xs)).2) rfl fy hs1
  generalize hr : (s.state.symbolize (settingsOf p s.opts) w.toSession (.process src)
    (.absAddr xs)).1 = r at d1 d2 d3 d4 ey
  cases r with
  | error e =>
    exfalso
    by_cases he : e = .panic
    · subst he; cases d1 rfl
    · obtain ⟨_, _, g, _⟩ := d2 e he rfl
      cases g
      exact hret rfl
  | ok results =>
    have hres : results ≠ [] := by
      rintro rfl
      obtain ⟨_, g, _⟩ := d3 rfl
      cases g
      exact hret rfl
    have hat : ResultsAt prog'.store.mem ret results := by
      obtain ⟨t1, t2, t3⟩ := d4 results hres rfl
      by_cases hl : bufSize results ≤ 2 ^ 63 - 8
      · by_cases hn : alloc y.syms.store (bufSize results) 8 = none
        · obtain ⟨_, g, _⟩ := t2 hl hn
          cases g
          exact absurd rfl hret
        · obtain ⟨_, _, g, _, g3⟩ := t3 hl hn
          cases g
          exact g3.there
      · cases t1 (by omega)
    exact ⟨results, hres, hat, ey.symm⟩

/-- **C96** (partial: as C76 and C90, and the C interface has no function for archives) A program
normalizes addresses of a process, and is given offsets in files.  If it, or another program, asks for the symbols at
those offsets later, with a symbolizer that may have been used before, it is given the symbols a program gets that
asks for the addresses themselves; and if it is given no offset but a symbol, that is this symbol. -/
theorem C96_round_trip_partial {k : SymbolizerOpts → Known M}
    (hlen : ∀ opts m data, (k opts).contents m = .ok (.ok data) → data.length < 2 ^ 63)
    {vdso : Dwarf.ElfParser} {contents : M → Except Err (Except Err Bytes)} {insp : Inspect.World M → Inspect.Source → Prop}
    {ok : Conditions M}
    (hok1 : ok = ⟨fun opts s w c => Orderly (settingsOf p opts) (k opts) s w c ∧ NotCaching c,
      fun b => Spec.Normalize.Orderly contents vdso (b.build p.tools), insp⟩)
    {x : Whole M} {a : Account} {os : List Block} (hrun : WholeRuns p n alloc ok x a os)
    (w : Normalize.World M) (thread : Nat) {o : Tool Normalize.Builder (Normalize.Normalizer M)} (ho : o ∈ x.normalizers)
    (opts : SymbolizerOpts) (har : opts.autoReload = true) (hk : (k opts).contents = contents)
    (src : ProcessSource) (hv : src.vdso = true) (hpm : src.perfMap = false) (hmf : src.mapFiles = false)
    {c : NormCall} {sorted : Bool} {addrs : List Nat}
    (hargs : NormalizeArgs x.store.mem o.addr src.pid c ⟨sorted, false, false⟩ addrs) {es : List Maps.Entry}
    (hes : w.toSession.maps src.pid = .ok (es.map .ok)) (hl : Listing es) (hne : es ≠ [])
    (hd : ∀ e ∈ es, NoDispatch (settingsOf p opts : Settings M (KernelCache M)) e)
    (hfits : ∀ l, Uses w.toSession.maps (.process src) l →
      Fits (settingsOf p opts) (k opts) w.toSession (present w.toSession) l)
    (hord : Spec.Normalize.Orderly contents vdso (o.opts.build p.tools) o.state w ⟨⟨sorted, false, false⟩, src.pid, addrs⟩)
    (hf : VdsoFound (o.opts.build p.tools) w src.pid (o.state.vmas src.pid)) {from_ : Normalize.Source}
    (hsrc : Spec.Normalize.mappingsAt (o.opts.build p.tools) w src.pid (o.state.vmas src.pid) = .ok from_)
    (hprov : Normalize.Provides from_ es addrs)
    (hsort : sorted = true → addrs.Pairwise (· ≤ ·))
    (hok : ∀ x ∈ addrs, ∃ v m, describe (Spec.Normalize.envAt (o.opts.build p.tools) w ⟨sorted, false, false⟩ src.pid) es x = .ok (v, m))
    (hg : ∀ x ∈ addrs, ¬ InVdsoGap (Spec.Normalize.envAt (o.opts.build p.tools) w ⟨sorted, false, false⟩ src.pid) es x)
    (hcon : Consistent (Spec.Normalize.envAt (o.opts.build p.tools) w ⟨sorted, false, false⟩ src.pid) es addrs)
    (hfit : FitOutput (o.state.normalize (o.opts.build p.tools) w ⟨sorted, false, false⟩ src.pid addrs).1)
    (hnul : ∀ (metas : List Normalize.UserMeta) (outputs : List (Nat × Nat)) (result : UserOutput),
      (o.state.normalize (o.opts.build p.tools) w ⟨sorted, false, false⟩ src.pid addrs).1 = .ok metas outputs →
      SameOutput metas outputs result → ∀ (y : OutMeta), y ∈ result.metas → ∀ (path : Bytes), y.path? = some path → 0 ∉ path) :
    (∃ (ptr : Nat) (x' : Whole M) (out : UserOutput), x.step p n alloc w thread (.norm c) = .ok (ptr, x') ∧
      NormHandsOut x.norms x'.norms ptr out ∧ out.outputs.length = addrs.length ∧
      (∀ (path : Bytes) (pairs : List (Nat × Nat)), pairs ≠ [] → InFile addrs out path pairs →
        SameLater p n alloc ok opts w src path pairs) ∧
      ∀ (i addr v idx : Nat) (m : OutMeta), addrs[i]? = some addr → out.outputs[i]? = some (v, idx) →
        out.metas[idx]? = some m → Told p n alloc ok opts w src addr m) ∨
    x.step p n alloc w thread (.norm c) = .error .outOfMemory := by
  have hv' := C95_views ha hp hn hi hrun
  have hobj := C95_objects ha hp hn hi hrun
  subst hok1
  subst hk
  have hN := hobj.2.1 o ho
  have hb := dispatchByName (p := p) (M := M) opts
  have hcontents : w.toSession.disk.contents = (k opts).contents := hord.1
  obtain ⟨metas, outs, h1, h2⟩ := trip_env (cfg := (settingsOf p opts : Settings M (KernelCache M))) o.opts hN w src hv hpm
    hmf sorted addrs hes hl hne hd hord hf hsrc hprov hsort hok hg hcon
  have h1' : (o.state.normalize (o.opts.build p.tools) w ⟨sorted, false, false⟩ src.pid addrs).1 = .ok metas outs := h1
  obtain ⟨_, _, c3⟩ := C90_normalize ha hn hv'.norm w thread (o := o) ho hargs (r := .ok metas outs)
    (state := (o.state.normalize (o.opts.build p.tools) w ⟨sorted, false, false⟩ src.pid addrs).2) (by rw [← h1'])
    (by rw [← h1']; exact hfit) rfl
  rcases (c3 metas outs _ rfl (sameOutput metas outs)).1 with ⟨ptr, host', k1, k2, k3⟩ | k1 | ⟨_, x', path, k1, k2, k3⟩
  · refine .inl ⟨ptr, { x with store := host'.store, errs := host'.errs, normalizers := host'.tools }, _, ?_, k3, ?_, ?_, ?_⟩
    · simp only [Whole.step, k1]
      rfl
    · rw [(sameOutput metas outs).1]
      exact h2.length_eq.symm
    · intro path pairs hpairs hin y y' z c d thread1 thread2 ret hy hstep hret hz
      obtain ⟨results, hres, hat, ey⟩ := direct_results ha hp hn hi hlen rfl har hcontents hfits hy hstep hret
      obtain ⟨az, osz, t, at2, ads2, cnt2, rz, abz, htz, rfl, rfl, argz⟩ := hz
      have vz := C95_views ha hp hn hi rz
      have oz := (C95_objects ha hp hn hi rz).1 t htz
      have fz := (abz t _ _ htz rfl argz).2
      have hpath : ∃ e ∈ es, ∃ q, e.pathName = some (.path q) ∧ path = q.symbolicPath := by
        obtain ⟨q, hq⟩ := List.exists_mem_of_ne_nil _ hpairs
        obtain ⟨i, idx, id, e1, e2, e3⟩ := hin q hq
        rw [(sameOutput metas outs).1] at e2
        obtain ⟨m, g1, _, g3⟩ := forall₂_at h2 e1 e2
        rw [metas_elf (sameOutput metas outs).2 e3] at g1
        cases g1
        exact g3 _ _ rfl
      have ez := (C68_fresh_partial hb har (hlen t.opts) oz w.toSession (.elf path src.debugSyms) (by intros; simp)
        (.fileOffset (pairs.map (·.2))) hcontents (by
          intro l hul
          cases hul
          obtain ⟨e, he, q, hq, rfl⟩ := hpath
          have := hfits _ (.process src _ e _ hes (by simpa using he) (.elf q hq))
          rwa [hmf] at this)).1
      obtain ⟨later, l1, l2⟩ := batches_agree _ src es path pairs (byName t.opts w.toSession) hes hl hne hpairs (by
        intro q hq
        obtain ⟨i, idx, id, e1, e2, e3⟩ := hin q hq
        rw [(sameOutput metas outs).1] at e2
        obtain ⟨m, g1, g2, _⟩ := forall₂_at h2 e1 e2
        rw [metas_elf (sameOutput metas outs).2 e3] at g1
        cases g1
        exact g2) ey
      refine ⟨results, hat, ?_⟩
      rw [(C95_calls w thread2).1]
      refine delivers ha hp vz.sym w.toSession thread2 htz argz (ez.trans l1) ?_ l2 (fun sym hs => fz _ (ez.trans l1) sym hs)
      rintro rfl
      have := l2.length_eq
      exact hres (List.length_eq_zero_iff.mp this)
    · intro i addr v idx m e1 e2 e3 y y' c thread1 ret hy hstep hret
      obtain ⟨results, hres, hat, ey⟩ := direct_results ha hp hn hi hlen rfl har hcontents hfits hy hstep hret
      have hone := C43_process_batch_partial _ src es _ _ (byName opts w.toSession) hes hl hne ey
      rw [(sameOutput metas outs).1] at e2
      obtain ⟨m', g1, g2, _⟩ := forall₂_at h2 e1 e2
      have hsame := forall₂_at (sameOutput metas outs).2 g1 e3
      cases hone with
      | cons j1 j2 =>
        cases j2
        rw [j1] at g2
        cases hsame with
        | apk path => trivial
        | elf path id => trivial
        | sym sym => cases g2 with | ok _ _ hab => cases hab; exact hat
        | unknown reason => cases g2 with | ok _ _ hab => cases hab; exact ⟨_, hat⟩
  · refine .inr ?_
    simp only [Whole.step, k1]
    rfl
  · exact absurd k3 (hnul metas outs _ h1' (sameOutput metas outs) x' k1 path k2)

end

/-! ### An example -/

open Blazesym.Normalize (exNorm exCfg exNorm_orderly exVdso)

/-- What is known of the files in the example. -/
def demoTripKnown (opts : SymbolizerOpts) : Known Nat where
  contents := (exNorm 0 1).disk.contents
  name := fun m => if m = 0 then ascii "/bin/c" else ascii "/bin/z.apk"
  debug := fun _ => .error .notFound
  member := fun _ place member data => memberResolver (settingsOf demoPlatform opts) (exNorm 0 1).toSession
    (ascii "/bin/z.apk") (ascii "/bin/z.apk") false place member data
  vdso := createVdsoParser (exNorm 0 1).toSession 7 0x7f0000 0x7f1000

theorem demoTrip_len (opts : SymbolizerOpts) (m : Nat) (data : Bytes)
    (h : (demoTripKnown opts).contents m = .ok (.ok data)) : data.length < 2 ^ 63 := by
  match m, h with
  | 0, h => have := Except.ok.inj (Except.ok.inj h); subst this; decide +kernel
  | 1, h => have := Except.ok.inj (Except.ok.inj h); subst this; decide +kernel
  | 2, h => cases h
  | 3, h => have := Except.ok.inj (Except.ok.inj h); subst this; decide +kernel
  | 4, h => have := Except.ok.inj (Except.ok.inj h); subst this; decide +kernel
  | _ + 5, h => cases h

theorem demoTrip_fits (opts : SymbolizerOpts) (l : Lookup) (h : Uses (Normalize.exNorm 0 1).toSession.maps (.process exSource) l) :
    Fits (settingsOf demoPlatform opts) (demoTripKnown opts) (Normalize.exNorm 0 1).toSession (present (Normalize.exNorm 0 1).toSession) l := by
  generalize hs : Source.process exSource = src at h
  cases h with
  | process src items e l h1 h2 h3 =>
    cases hs
    have h1' : (Normalize.exNorm 0 1).toSession.maps 7 = .ok items := h1
    rw [exMaps] at h1'
    cases h1'
    have he : e ∈ exEntries := by simpa using h2
    have hp' : ∀ p, e.pathName = some (.path p) → p.symbolicPath = ascii "/bin/c" ∨ p.symbolicPath = ascii "/bin/z.apk" := by
      intro p hp
      simp only [exEntries, List.mem_cons, List.not_mem_nil, or_false] at he
      rcases he with rfl | rfl | rfl | rfl <;> cases hp <;> simp
    cases h3 with
    | dispatch name _ => trivial
    | apk p hp hx =>
      intro m data hm hc before z hz
      rcases hp' p hp with h | h
      · rw [h] at hx; exact absurd hx (by decide +kernel)
      · show memberResolver _ _ p.symbolicPath p.symbolicPath _ _ _ _ = _
        rw [h]; rfl
    | elf p hp =>
      intro m hm
      refine ⟨?_, by intro h; cases h⟩
      have hm' : (present (Normalize.exNorm 0 1).toSession).elf p.symbolicPath = .ok m := hm
      rcases hp' p hp with h | h <;> rw [h] at hm' ⊢
      · have : (present (Normalize.exNorm 0 1).toSession).elf (ascii "/bin/c") = .ok 0 := by decide +kernel
        rw [this] at hm'; cases hm'; rfl
      · have : (present (Normalize.exNorm 0 1).toSession).elf (ascii "/bin/z.apk") = .ok 1 := by decide +kernel
        rw [this] at hm'; cases hm'; rfl
    | vdso hn hv =>
      simp only [exEntries, List.mem_cons, List.not_mem_nil, or_false] at he
      rcases he with rfl | rfl | rfl | rfl <;> first | rfl | (exact absurd hn (by decide +kernel))
    | perfMap _ _ => trivial
  | _ => cases hs

/-- The conditions of the example. -/
def demoTripOk : Conditions Nat :=
  ⟨fun opts s w c => Orderly (settingsOf demoPlatform opts) (demoTripKnown opts) s w c ∧ NotCaching c,
    fun b => Spec.Normalize.Orderly (exNorm 0 1).disk.contents exVdso (b.build demoPlatform.tools), fun _ _ => True⟩

set_option maxRecDepth 20000 in
theorem demoWhole3_normalizers : demoWhole3.normalizers = [⟨4200, ⟨false, false, true, true⟩, Normalize.Normalizer.new⟩] := by rfl

set_option maxRecDepth 20000 in
theorem demoWhole3_args : NormalizeArgs demoWhole3.store.mem 4200 7 (.normalizeOpts 4200 7 4128 5 4168) ⟨true, false, false⟩ exAddrs :=
  .opts (by rfl) (by rfl)

/-- The hypotheses of `C96_round_trip_partial` are met, by the program that normalizes five addresses of a process. -/
theorem demoTrip :
    (∃ (ptr : Nat) (x' : Whole Nat) (out : UserOutput),
      demoWhole3.step demoPlatform ⟨64, 48⟩ bump (exNorm 0 1) 1 (.norm (.normalizeOpts 4200 7 4128 5 4168)) = .ok (ptr, x') ∧
      NormHandsOut demoWhole3.norms x'.norms ptr out ∧ out.outputs.length = exAddrs.length ∧
      (∀ (path : Bytes) (pairs : List (Nat × Nat)), pairs ≠ [] → InFile exAddrs out path pairs →
        SameLater demoPlatform ⟨64, 48⟩ bump demoTripOk defaultOpts (exNorm 0 1) exSource path pairs) ∧
      ∀ (i addr v idx : Nat) (m : OutMeta), exAddrs[i]? = some addr → out.outputs[i]? = some (v, idx) →
        out.metas[idx]? = some m → Told demoPlatform ⟨64, 48⟩ bump demoTripOk defaultOpts (exNorm 0 1) exSource addr m) ∨
    demoWhole3.step demoPlatform ⟨64, 48⟩ bump (exNorm 0 1) 1 (.norm (.normalizeOpts 4200 7 4128 5 4168))
      = .error .outOfMemory :=
  C96_round_trip_partial bump_good (by decide) (by decide) (by decide) demoTrip_len rfl (demoWhole3_runs demoTripOk)
    (exNorm 0 1) 1 (o := ⟨4200, ⟨false, false, true, true⟩, Normalize.Normalizer.new⟩)
    (by rw [demoWhole3_normalizers]; exact List.mem_singleton_self _) defaultOpts rfl rfl exSource rfl rfl rfl
    demoWhole3_args exMaps exEntries_listing (by decide) (by intro e _ d hd; cases hd) (demoTrip_fits defaultOpts)
    (exNorm_orderly 0 1 true _ _ _).1 ((exNorm_orderly 0 1 true Normalize.Normalizer.new ⟨true, false, false⟩ []).2 _)
    (Normalize.exNorm_maps 0 1 true _) ⟨by decide, .inl rfl⟩
    (by intro _; decide +kernel)
    (fun a ha => by
      obtain ⟨o, _, h⟩ := exDescribe a ha
      exact ⟨o.1, o.2, h⟩)
    exNoGap exConsistent demoNorm_fits
    (by
      intro metas outputs result h hs x hx path hp
      have h' : Normalize.NResult.ok metas outputs = _ := h.symm.trans demoNorm_result
      have := sameOutput_eq hs
      subst this
      cases h'
      simp only [demoNormMetas, exReported, List.map_cons, List.map_nil, outMeta, List.mem_cons, List.not_mem_nil,
        or_false] at hx
      rcases hx with rfl | rfl | rfl | rfl | rfl <;> first | (cases hp; decide +kernel) | (cases hp; done))

/-- The memory of a program: a `blaze_symbolize_src_process` for process 7 without map files, an address, a
`blaze_symbolize_src_elf` with the path `/bin/c`, and an offset. -/
def demoLaterMemory : Store :=
  ⟨fun x => (leBytes 8 32 ++ leBytes 4 7 ++ [0, 0, 1, 0] ++ leBytes 8 0 ++ leBytes 8 0 ++ leBytes 8 0x400008
      ++ leBytes 8 40 ++ leBytes 8 4176 ++ leBytes 8 0 ++ leBytes 8 0 ++ leBytes 8 0 ++ ascii "/bin/c" ++ [0, 0]
      ++ leBytes 8 8)[x - 4096]?, [⟨4096, 96, 8⟩]⟩

theorem demoLaterMemory_valid : demoLaterMemory.Valid := by
  refine ⟨fun b hb => ?_, List.pairwise_singleton _ _⟩
  rw [show demoLaterMemory.blocks = [⟨4096, 96, 8⟩] from rfl, List.mem_singleton] at hb
  subst hb; decide

/-- A program that has created a symbolizer. -/
def demoLater : Whole Nat := demoWholeCall ⟨demoLaterMemory, LastErr.init, [], [], []⟩ (.sym .new)

set_option maxRecDepth 20000 in
theorem demoLater_step : Whole.step demoPlatform ⟨64, 48⟩ bump (exNorm 0 1) 1 ⟨demoLaterMemory, LastErr.init, [], [], []⟩ (.sym .new)
    = .ok (4192, demoLater) := by rfl

theorem demoLater_runs (ok : Conditions Nat) :
    WholeRuns demoPlatform ⟨64, 48⟩ bump ok demoLater ⟨[], [], []⟩ [⟨4096, 96, 8⟩] :=
  .call _ _ _ _ _ (exNorm 0 1) 1 4192 (.sym .new) (.start demoLaterMemory demoLaterMemory_valid) trivial demoLater_step rfl

set_option maxRecDepth 20000 in
theorem demoLater_symbolizers :
    demoLater.symbolizers = [⟨4192, defaultOpts, State.new (settingsOf demoPlatform defaultOpts)⟩] := by rfl

set_option maxRecDepth 20000 in
theorem demoLater_process : SymbolizeArgs demoLater.store.mem 4096 4128 1 .process (.process exSource) (.absAddr [0x400008]) :=
  .process (by rfl) (by rfl)

set_option maxRecDepth 20000 in
theorem demoLater_elf : SymbolizeArgs demoLater.store.mem 4136 4184 1 .elfFile (.elf (ascii "/bin/c") false) (.fileOffset [8]) :=
  .elfFile (by rfl) (by rfl)

/-- The answer to both. -/
def demoAnswer : Symbolized := .sym ⟨ascii "f", some (ascii "/bin/c"), 0x1000, 8, some 16, none, []⟩

set_option maxRecDepth 20000 in
theorem demoLater_direct : ((State.new (settingsOf demoPlatform defaultOpts) : State Nat (KernelCache Nat)).symbolize
    (settingsOf demoPlatform defaultOpts) (exNorm 0 1).toSession (.process exSource) (.absAddr [0x400008])).1 = .ok [demoAnswer] := by
  decide +kernel

set_option maxRecDepth 20000 in
theorem demoLater_later : ((State.new (settingsOf demoPlatform defaultOpts) : State Nat (KernelCache Nat)).symbolize
    (settingsOf demoPlatform defaultOpts) (exNorm 0 1).toSession (.elf (ascii "/bin/c") false) (.fileOffset [8])).1 = .ok [demoAnswer] := by
  decide +kernel

theorem demoAnswer_fits : FitNumbers (.ok [demoAnswer]) := by
  intro results h sym hs
  cases h
  simp only [List.mem_singleton, demoAnswer] at hs
  cases hs
  exact ⟨by decide, by decide, fun info h => by simp at h, fun fn h => by simp at h⟩

set_option maxRecDepth 20000 in
theorem demoLater_asks : Asks demoPlatform ⟨64, 48⟩ bump demoTripOk defaultOpts (exNorm 0 1) .process (.process exSource)
    (.absAddr [0x400008]) demoLater (.symbolize 4192 .process 4096 4128 1) := by
  refine ⟨_, _, ⟨4192, defaultOpts, State.new (settingsOf demoPlatform defaultOpts)⟩, 4096, 4128, 1, demoLater_runs demoTripOk,
    ?_, by rw [demoLater_symbolizers]; exact List.mem_singleton_self _, rfl, rfl, demoLater_process⟩
  intro o source input ho _ hargs
  rw [show demoLater.syms.objects = demoLater.symbolizers from rfl, demoLater_symbolizers, List.mem_singleton] at ho
  subst ho
  have huniq : source = .process exSource ∧ input = .absAddr [0x400008] := by
    cases hargs with
    | process h1 h2 =>
      have g1 := h1.symm.trans (by rfl : _ = Except.ok (Except.ok (Source.process exSource)))
      have g2 := h2.symm.trans (by rfl : _ = Except.ok [0x400008])
      cases g1
      cases g2
      exact ⟨rfl, rfl⟩
  obtain ⟨rfl, rfl⟩ := huniq
  refine ⟨⟨⟨rfl, fun l hl => demoTrip_fits _ l hl⟩, trivial⟩, ?_⟩
  simp only
  rw [demoLater_direct]
  exact demoAnswer_fits

set_option maxRecDepth 20000 in
theorem demoLater_asks_file : Asks demoPlatform ⟨64, 48⟩ bump demoTripOk defaultOpts (exNorm 0 1) .elfFile
    (.elf (ascii "/bin/c") false) (.fileOffset [8]) demoLater (.symbolize 4192 .elfFile 4136 4184 1) := by
  refine ⟨_, _, ⟨4192, defaultOpts, State.new (settingsOf demoPlatform defaultOpts)⟩, 4136, 4184, 1, demoLater_runs demoTripOk,
    ?_, by rw [demoLater_symbolizers]; exact List.mem_singleton_self _, rfl, rfl, demoLater_elf⟩
  intro o source input ho _ hargs
  rw [show demoLater.syms.objects = demoLater.symbolizers from rfl, demoLater_symbolizers, List.mem_singleton] at ho
  subst ho
  have huniq : source = .elf (ascii "/bin/c") false ∧ input = .fileOffset [8] := by
    cases hargs with
    | elfFile h1 h2 =>
      have g1 := h1.symm.trans (by rfl : _ = Except.ok (Except.ok (Source.elf (ascii "/bin/c") false)))
      have g2 := h2.symm.trans (by rfl : _ = Except.ok [8])
      cases g1
      cases g2
      exact ⟨rfl, rfl⟩
  obtain ⟨rfl, rfl⟩ := huniq
  refine ⟨⟨⟨rfl, fun l hl => ?_⟩, trivial⟩, ?_⟩
  · cases hl
    exact demoTrip_fits defaultOpts _ (.process exSource _ _ _ exMaps (List.mem_map_of_mem List.mem_cons_self)
      (UsesEntry.elf (src := exSource) ⟨ascii "/proc/7/map_files/400000-401000", ascii "/bin/c"⟩ rfl))
  · simp only
    rw [demoLater_later]
    exact demoAnswer_fits

/-- The symbol that was found by its address is found by the offset in the file that normalization reports for it. -/
example (h : SameLater demoPlatform ⟨64, 48⟩ bump demoTripOk defaultOpts (exNorm 0 1) exSource (ascii "/bin/c") [(0x400008, 8)])
    (ret : Nat) (y' : Whole Nat) (hret : ret ≠ 0)
    (hy : demoLater.step demoPlatform ⟨64, 48⟩ bump (exNorm 0 1) 1 (.sym (.symbolize 4192 .process 4096 4128 1)) = .ok (ret, y')) :
    ∃ (results : List Symbolized), ResultsAt y'.store.mem ret results ∧
      Delivers bump demoLater.syms 2 (List.Forall₂ Agree results)
        ((demoLater.step demoPlatform ⟨64, 48⟩ bump (exNorm 0 1) 2 (.sym (.symbolize 4192 .elfFile 4136 4184 1))).map
          fun r => (r.1, r.2.syms)) :=
  h demoLater y' demoLater _ _ 1 2 ret demoLater_asks hy hret demoLater_asks_file

set_option maxRecDepth 20000 in
/-- Both calls come back with a result. -/
example :
    (demoLater.step demoPlatform ⟨64, 48⟩ bump (exNorm 0 1) 1 (.sym (.symbolize 4192 .process 4096 4128 1))).toOption.map
      (·.1 != 0) = some true ∧
    (demoLater.step demoPlatform ⟨64, 48⟩ bump (exNorm 0 1) 1 (.sym (.symbolize 4192 .elfFile 4136 4184 1))).toOption.map
      (·.1 != 0) = some true := by
  constructor <;> decide +kernel

end Blazesym.CApi
