import Verif.Session.Symbolize
import Verif.Session.LookupSpec
import Verif.Symbolize.ProcessProps

/-!
# Requests that fill caches answer like requests without caches

If every single lookup does so.
-/

set_option autoImplicit false

namespace Blazesym.Symbolize
open Blazesym.Util Blazesym.Maps Blazesym.Normalize Blazesym.Cache Blazesym.Spec.Symbolize

variable {S α β γ δ : Type}

/-- From states with `I` a computation yields what is related to a value, and `I` holds afterwards. -/
def Sim (I : S → Prop) (R : α → β → Prop) (a : Act S α) (v : Except Err β) : Prop :=
  ∀ s, I s → ERel R (a s).1 v ∧ I (a s).2

theorem Sim.lift {I : S → Prop} {R : α → β → Prop} {r : Except Err α} {v : Except Err β} (h : ERel R r v) :
    Sim I R (Act.lift r) v := fun _ hs => ⟨h, hs⟩

theorem Sim.bind {I : S → Prop} {R : α → β → Prop} {R' : γ → δ → Prop} {a : Act S α} {v : Except Err β}
    {f : α → Act S γ} {w : Except Err δ} (h : Sim I R a v)
    (he : ∀ e, v = .error e → w = .error e) (hf : ∀ x y, v = .ok y → R x y → Sim I R' (f x) w) :
    Sim I R' (a.bind f) w := by
  intro s hs
  obtain ⟨h1, h2⟩ := h s hs
  unfold Act.bind
  cases hr : a s with
  | mk r s' =>
    rw [hr] at h1 h2
    simp only at h1 h2
    cases h1 with
    | error e => simp only; rw [he e rfl]; exact ⟨.error e, h2⟩
    | ok x y hxy => exact hf x y rfl hxy s' h2

theorem Sim.mapResult {I : S → Prop} {R : α → β → Prop} {R' : γ → δ → Prop} {a : Act S α} {v : Except Err β}
    {f : Except Err α → Except Err γ} {w : Except Err δ} (h : Sim I R a v)
    (hf : ∀ r, ERel R r v → ERel R' (f r) w) : Sim I R' (a.mapResult f) w := by
  intro s hs
  obtain ⟨h1, h2⟩ := h s hs
  unfold Act.mapResult
  cases hr : a s with
  | mk r s' =>
    rw [hr] at h1 h2
    exact ⟨hf r h1, h2⟩

theorem Sim.traverse {I : S → Prop} {R : β → γ → Prop} {f : α → Act S β} {g : α → Except Err γ}
    (xs : List α) (h : ∀ x ∈ xs, Sim I R (f x) (g x)) :
    Sim I (List.Forall₂ R) (Act.traverse f xs) (collect (xs.map g)) := by
  induction xs with
  | nil => exact Sim.lift (.ok _ _ .nil)
  | cons x xs ih =>
    simp only [Act.traverse, List.map_cons]
    refine Sim.bind (h x List.mem_cons_self) (fun e he => by rw [he]; rfl) ?_
    intro y z hz hyz
    rw [hz]
    simp only [collect]
    refine Sim.bind (ih fun a ha => h a (List.mem_cons_of_mem _ ha)) (fun e he => by simp only [he]) ?_
    intro ys zs hzs hr
    simp only [hzs]
    exact Sim.lift (.ok _ _ (.cons hyz hr))

/-- Related answers of resolvers. -/
inductive FoundRel (Q : Option Bytes → Option Bytes → Prop) :
    Except Reason ResolvedSym → Except Reason ResolvedSym → Prop where
  | error (r : Reason) : FoundRel Q (.error r) (.error r)
  | ok (a b : ResolvedSym) : { a with module := none } = { b with module := none } → Q a.module b.module →
      FoundRel Q (.ok a) (.ok b)

/-- Related resolvers. -/
def FnRel (Q : Option Bytes → Option Bytes → Prop) (f g : SymFn) : Prop :=
  ∀ addr opts, ERel (FoundRel Q) (f addr opts) (g addr opts)

def ResRel (Q : Option Bytes → Option Bytes → Prop) (f g : Resolver) : Prop :=
  FnRel Q f.find g.find ∧ f.toVirt = g.toVirt

def OptRel (R : α → β → Prop) : Option α → Option β → Prop
  | none, none => True
  | some a, some b => R a b
  | _, _ => False

/-- Every lookup that satisfies `D` does what the environment says. -/
structure HostSim (I : S → Prop) (Q : Option Bytes → Option Bytes → Prop) (D : Lookup → Prop) (h : Host S)
    (env : Env) : Prop where
  opts : h.opts = env.opts
  demangle : h.demangle = env.demangle
  demangler : h.demangler = env.demangler
  apk : ∀ actual represented off debugSyms, D (.apk actual represented debugSyms) →
    Sim I (OptRel fun x y => FnRel Q x.1 y.1 ∧ x.2 = y.2) (h.apk actual represented off debugSyms)
      (env.apk actual represented off debugSyms)
  breakpad : ∀ path, D (.breakpad path) → Sim I (FnRel Q) (h.breakpad path) (env.breakpad path)
  elf : ∀ actual represented debugSyms, D (.elf actual represented debugSyms) →
    Sim I (ResRel Q) (h.elf actual represented debugSyms) (env.elf actual represented debugSyms)
  kernel : ∀ src, D (.kernel src) →
    Sim I (fun (g : ActFn S) (f : SymFn) => ∀ addr, Sim I (FoundRel Q) (g addr env.opts) (f addr env.opts))
      (h.kernel src) (env.kernel src)
  gsymData : ∀ data, ERel (FnRel Q) (h.gsymData data) (env.gsymData data)
  gsymFile : ∀ path, D (.gsym path) → Sim I (FnRel Q) (h.gsymFile path) (env.gsymFile path)
  perfMap : ∀ pid, D (.perfMap pid) → Sim I (OptRel (FnRel Q)) (h.perfMap pid) (env.perfMap pid)
  vdso : ∀ pid start stop, D (.vdso pid start stop) →
    Sim I (ResRel Q) (h.vdso pid start stop) (env.vdso pid start stop)
  maps : ∀ pid, Sim I Eq (h.maps pid) (env.maps pid)
  byName : ByName env
  dispatch : ∀ start stop name cache, D (.dispatch start stop name) → Agrees env cache →
    Sim I (fun x y => OptRel (ResRel Q) x y.1) (h.dispatch start stop name)
      (dispatchResolver env cache start stop name)

variable {I : S → Prop} {Q : Option Bytes → Option Bytes → Prop} {D : Lookup → Prop} {h : Host S} {env : Env}

theorem erel_refl {ε : Type} {R : α → α → Prop} (hR : ∀ x, R x x) (r : Except ε α) : ERel R r r := by
  cases r with
  | error e => exact .error e
  | ok x => exact .ok x x (hR x)

theorem with_sim (hs : HostSim I Q D h env) (addr : Nat) {f g : SymFn}
    (hfg : ERel (FoundRel Q) (f addr env.opts) (g addr env.opts)) :
    ERel (OutRel Q) (h.symbolizeWith addr f) (env.symbolizeWith addr g) := by
  unfold Host.symbolizeWith Env.symbolizeWith symbolizeWithResolver
  rw [hs.opts, hs.demangle, hs.demangler]
  cases hf : f addr env.opts with
  | error e =>
    rw [hf] at hfg
    cases hg : g addr env.opts with
    | error e' => rw [hg] at hfg; cases hfg; exact .error e
    | ok y => rw [hg] at hfg; cases hfg
  | ok x =>
    rw [hf] at hfg
    cases hg : g addr env.opts with
    | error e' => rw [hg] at hfg; cases hfg
    | ok y =>
      rw [hg] at hfg
      cases hfg with
      | ok _ _ hxy =>
        cases hxy with
        | error r => exact .ok _ _ (.unknown r)
        | ok a b hab hq =>
          obtain ⟨an, am, aa, as, al, ac, ai⟩ := a
          obtain ⟨bn, bm, ba, bs, bl, bc, bi⟩ := b
          simp only [ResolvedSym.mk.injEq, true_and] at hab
          obtain ⟨rfl, rfl, rfl, rfl, rfl, rfl⟩ := hab
          simp only [convertSym]
          cases subU addr aa with
          | error e => exact .error e
          | ok o => exact .ok _ _ (.sym _ _ ⟨rfl, hq⟩)

theorem offset_sim (hs : HostSim I Q D h env) {f g : Resolver} (hfg : ResRel Q f g) (off : Nat) :
    ERel (OutRel Q) (h.symbolizeOffset f off) (env.symbolizeOffset g off) := by
  unfold Host.symbolizeOffset Env.symbolizeOffset
  rw [hfg.2]
  cases g.toVirt off with
  | error e => exact .error e
  | ok o =>
    cases o with
    | none => exact .ok _ _ (.unknown _)
    | some addr => exact with_sim hs addr (hfg.1 addr env.opts)

theorem apk_sim (hs : HostSim I Q D h env) (actual represented : Bytes) (off : Nat) (debugSyms : Bool)
    (hd : D (.apk actual represented debugSyms)) :
    Sim I (OutRel Q) (h.symbolizeApk actual represented off debugSyms)
      (env.symbolizeApk actual represented off debugSyms) := by
  unfold Host.symbolizeApk Env.symbolizeApk
  refine Sim.bind (hs.apk actual represented off debugSyms hd) (fun e he => by rw [he]) ?_
  intro x y hy hxy
  rw [hy]
  cases x with
  | none =>
    cases y with
    | none => exact Sim.lift (.ok _ _ (.unknown _))
    | some y => exact hxy.elim
  | some x =>
    cases y with
    | none => exact hxy.elim
    | some y =>
      obtain ⟨xf, xa⟩ := x
      obtain ⟨yf, ya⟩ := y
      obtain ⟨h1, h2⟩ := hxy
      simp only at h1 h2
      subst h2
      exact Sim.lift (with_sim hs _ (h1 _ _))

theorem perfMap_sim (hs : HostSim I Q D h env) (src : ProcessSource) (addr : Nat) (hd : D (.perfMap src.pid)) :
    Sim I (OutRel Q) (h.handlePerfMapAddr src addr) (handlePerfMapAddr env src addr) := by
  unfold Host.handlePerfMapAddr handlePerfMapAddr
  refine Sim.bind (hs.perfMap src.pid hd) (fun e he => by rw [he]) ?_
  intro x y hy hxy
  rw [hy]
  cases x with
  | none =>
    cases y with
    | none => exact Sim.lift (.ok _ _ (.unknown _))
    | some y => exact hxy.elim
  | some x =>
    cases y with
    | none => exact hxy.elim
    | some y => exact Sim.lift (with_sim hs _ (hxy _ _))

theorem default_sim (hs : HostSim I Q D h env) (src : ProcessSource) (addr fileOff : Nat) (e : Entry)
    (hd : ∀ l, UsesEntry src e l → D l) :
    Sim I (OutRel Q) (h.handleDefault src addr fileOff e) (handleDefault env src addr fileOff e) := by
  unfold Host.handleDefault handleDefault
  cases hn : e.pathName with
  | none =>
    simp only
    split
    · rename_i hp
      exact perfMap_sim hs src addr (hd _ (.perfMap hn hp))
    · exact Sim.lift (.ok _ _ (.unknown _))
  | some name =>
    cases name with
    | path p =>
      simp only
      split
      · rename_i hext
        refine apk_sim hs _ _ _ _ (hd _ (.apk p hn ?_))
        rcases hext with hx | hx
        · left
          cases ho : extension p.symbolicPath with
          | none => rw [ho] at hx; exact absurd hx (by decide +kernel)
          | some x => rw [ho] at hx; simpa using hx
        · right
          cases ho : extension p.symbolicPath with
          | none => rw [ho] at hx; exact absurd hx (by decide +kernel)
          | some x => rw [ho] at hx; simpa using hx
      · refine Sim.bind (hs.elf _ _ _ (hd _ (.elf p hn))) (fun e he => by rw [he]) ?_
        intro x y hy hxy
        rw [hy]
        exact Sim.lift (offset_sim hs hxy fileOff)
    | component c =>
      simp only
      split
      · rename_i hc
        obtain ⟨hv, rfl⟩ := hc
        refine Sim.bind (hs.vdso _ _ _ (hd _ (.vdso hn hv))) (fun e he => by rw [he]) ?_
        intro x y hy hxy
        rw [hy]
        exact Sim.lift (offset_sim hs hxy fileOff)
      · exact Sim.lift (.ok _ _ (.unknown _))

/-- For an address in a mapping; the environment keeps the dispatched resolvers itself. -/
theorem entry_sim (hs : HostSim I Q D h env) (src : ProcessSource) (cache : DispatchCache)
    (hc : Agrees env cache) (addr : Nat) (e : Entry) (hd : ∀ l, UsesEntry src e l → D l) :
    Sim I (fun s y => OutRel Q s y.1) (h.handleEntryAddr src addr e) (handleEntryAddr env src cache addr e) := by
  unfold Host.handleEntryAddr handleEntryAddr
  cases addU64 (addr - e.start) e.offset with
  | error err => exact Sim.lift (.error err)
  | ok fileOff =>
    simp only
    have hdef : ∀ cache' : DispatchCache, Sim I (fun s (y : Symbolized × DispatchCache) => OutRel Q s y.1)
        (h.handleDefault src addr fileOff e)
        (match handleDefault env src addr fileOff e with
          | .error e => .error e
          | .ok s => .ok (s, cache')) := by
      intro cache' s hI
      obtain ⟨h1, h2⟩ := default_sim hs src addr fileOff e hd s hI
      refine ⟨?_, h2⟩
      generalize (h.handleDefault src addr fileOff e s).1 = r at h1
      generalize handleDefault env src addr fileOff e = v at h1
      cases h1 with
      | error e => exact .error e
      | ok a b hab => exact .ok _ _ hab
    cases hn : e.pathName with
    | none => exact hdef cache
    | some name =>
      simp only
      refine Sim.bind (hs.dispatch e.start e.stop name cache (hd _ (.dispatch name hn)) hc)
        (fun e he => by rw [he]) ?_
      rintro x ⟨y, cache'⟩ hy hxy
      rw [hy]
      simp only at hxy
      cases x with
      | none =>
        cases y with
        | none => exact hdef cache'
        | some y => exact hxy.elim
      | some x =>
        cases y with
        | none => exact hxy.elim
        | some y =>
          simp only
          have := offset_sim hs hxy fileOff
          generalize h.symbolizeOffset x fileOff = r at this ⊢
          generalize env.symbolizeOffset y fileOff = v at this ⊢
          cases this with
          | error e => exact Sim.lift (.error e)
          | ok a b hab => exact Sim.lift (.ok _ _ hab)

/-- The entries that are left. -/
def EntriesIn (P : Entry → Prop) : Normalize.Source → Prop
  | .list items => ∀ e, .ok e ∈ items → P e
  | .query q => ∀ addr e, q addr = .ok (some e) → P e

theorem next_in {P : Entry → Prop} {items : Normalize.Source} (hi : EntriesIn P items) (addr : Nat) :
    EntriesIn P (items.next addr).2 ∧ ∀ e, (items.next addr).1 = some (.ok e) → P e := by
  cases items with
  | list l =>
    cases l with
    | nil => exact ⟨hi, by simp [Normalize.Source.next]⟩
    | cons x t =>
      simp only [Normalize.Source.next]
      refine ⟨fun e he => hi e (List.mem_cons_of_mem _ he), fun e he => hi e ?_⟩
      simp only [Option.some.injEq] at he
      rw [he]; exact List.mem_cons_self
  | query q =>
    simp only [Normalize.Source.next]
    cases hq : q addr with
    | error e => exact ⟨hi, by simp⟩
    | ok o =>
      cases o with
      | none => exact ⟨hi, by simp⟩
      | some e =>
        refine ⟨hi, ?_⟩
        simp only [Option.some.injEq, Except.ok.injEq, forall_eq']
        exact hi addr e hq

theorem skip_in {P : Entry → Prop} (addr fuel : Nat) (entry : Entry) (items : Normalize.Source) (he : P entry)
    (hi : EntriesIn P items) :
    (∀ e i, skip addr fuel entry items = .entry e i → P e ∧ EntriesIn P i) ∧
    (∀ e i, skip addr fuel entry items = .exhausted e i → P e ∧ EntriesIn P i) := by
  induction fuel generalizing entry items with
  | zero => simp [skip]
  | succ fuel ih =>
    rw [skip]
    obtain ⟨h1, h2⟩ := next_in hi addr
    split
    · split
      · rename_i i hn
        rw [hn] at h1
        refine ⟨by simp, ?_⟩
        intro e i' h
        simp only [Found.exhausted.injEq] at h
        obtain ⟨rfl, rfl⟩ := h
        exact ⟨he, h1⟩
      · simp
      · rename_i entry' i hn
        rw [hn] at h1 h2
        exact ih entry' i (h2 entry' rfl) h1
    · refine ⟨?_, by simp⟩
      intro e i h
      simp only [Found.entry.injEq] at h
      obtain ⟨rfl, rfl⟩ := h
      exact ⟨he, hi⟩

theorem walkLoop_sim (hs : HostSim I Q D h env) (src : ProcessSource) (addrs : List Nat) (prev : Nat)
    (entry : Entry) (items : Normalize.Source) (out out' : List Symbolized) (cache : DispatchCache)
    (hc : Agrees env cache) (ho : List.Forall₂ (OutRel Q) out out')
    (he : ∀ l, UsesEntry src entry l → D l) (hi : EntriesIn (fun e => ∀ l, UsesEntry src e l → D l) items) :
    Sim I (fun s y => List.Forall₂ (OutRel Q) s y.1) (h.walkLoop src addrs prev entry items out)
      (walkLoop (symHandler env src) addrs prev entry items (out', cache)) := by
  induction addrs generalizing prev entry items out out' cache with
  | nil => exact Sim.lift (.ok _ _ ho)
  | cons addr rest ih =>
    rw [Host.walkLoop, walkLoop]
    split
    · exact Sim.lift (.error _)
    · obtain ⟨k1, k2⟩ := skip_in addr items.fuel entry items he hi
      have ho' : List.Forall₂ (OutRel Q) (out ++ [.unknown .unmapped]) (out' ++ [.unknown .unmapped]) :=
        List.rel_append ho (.cons (.unknown _) .nil)
      cases hk : skip addr items.fuel entry items with
      | diverged => exact Sim.lift (.error _)
      | failed e => exact Sim.lift (.error _)
      | exhausted e i =>
        obtain ⟨k3, k4⟩ := k2 e i hk
        exact ih addr e i _ _ cache hc ho' k3 k4
      | entry e i =>
        obtain ⟨k3, k4⟩ := k1 e i hk
        simp only
        split
        · exact ih addr e i _ _ cache hc ho' k3 k4
        · have hent := entry_sim hs src cache hc addr e k3
          have hagr := handle_agrees env src hs.byName cache hc addr e
          refine Sim.bind hent ?_ ?_
          · intro err herr
            simp only [symHandler, herr]
          · rintro x ⟨y, cache'⟩ hy hxy
            simp only [symHandler, hy]
            exact ih addr e i _ _ cache' (hagr.2 y cache' hy).1
              (List.rel_append ho (.cons hxy .nil)) k3 k4

theorem walk_sim (hs : HostSim I Q D h env) (src : ProcessSource) (addrs : List Nat)
    (items : Normalize.Source) (hi : EntriesIn (fun e => ∀ l, UsesEntry src e l → D l) items) :
    Sim I (fun s y => List.Forall₂ (OutRel Q) s y.1) (h.walk src addrs items)
      (walk (symHandler env src) addrs items ([], env.dispatched)) := by
  unfold Host.walk walk
  simp only
  obtain ⟨h1, h2⟩ := next_in hi (addrs.head?.getD 0)
  have hc : Agrees env env.dispatched := fun d hd name r hl => (hs.byName d hd).2 name r hl
  cases hn : items.next (addrs.head?.getD 0) with
  | mk o i =>
    rw [hn] at h1 h2
    cases o with
    | none => exact Sim.lift (.error _)
    | some r =>
      cases r with
      | error e => exact Sim.lift (.error _)
      | ok entry => exact walkLoop_sim hs src addrs _ entry i [] [] _ hc .nil (h2 entry rfl) h1

/-! ### The order of the results -/

inductive OutcomeRel {α β : Type} (R : α → β → Prop) : Outcome α → Outcome β → Prop where
  | done (a : α) (b : β) : R a b → OutcomeRel R (.done a) (.done b)
  | panicked : OutcomeRel R .panicked .panicked
  | diverged : OutcomeRel R .diverged .diverged

theorem forall₂_getElem? {R : α → β → Prop} {l : List α} {m : List β} (hlm : List.Forall₂ R l m) (i : Nat) :
    (l[i]? = none ∧ m[i]? = none) ∨ ∃ a b, l[i]? = some a ∧ m[i]? = some b ∧ R a b := by
  induction hlm generalizing i with
  | nil => left; simp
  | cons hab _ ih =>
    cases i with
    | zero => right; exact ⟨_, _, rfl, rfl, hab⟩
    | succ i => simpa using ih i

theorem forall₂_set {R : α → β → Prop} {l : List α} {m : List β} (hlm : List.Forall₂ R l m) (i : Nat) (a : α)
    (b : β) (hab : R a b) : List.Forall₂ R (l.set i a) (m.set i b) := by
  induction hlm generalizing i with
  | nil => exact .nil
  | cons h t ih =>
    cases i with
    | zero => exact .cons hab t
    | succ i => exact .cons h (ih i)

theorem swapAt_rel {R : α → β → Prop} {l : List α} {m : List β} (hlm : List.Forall₂ R l m) (i j : Nat) :
    (swapAt l i j = none ∧ swapAt m i j = none) ∨
    ∃ l' m', swapAt l i j = some l' ∧ swapAt m i j = some m' ∧ List.Forall₂ R l' m' := by
  unfold swapAt
  rcases forall₂_getElem? hlm i with ⟨h1, h2⟩ | ⟨a, b, h1, h2, hab⟩
  · left; simp [h1, h2]
  · rcases forall₂_getElem? hlm j with ⟨h3, h4⟩ | ⟨c, d, h3, h4, hcd⟩
    · left; simp [h1, h2, h3, h4]
    · right
      simp only [h1, h2, h3, h4]
      exact ⟨_, _, rfl, rfl, forall₂_set (forall₂_set hlm i _ _ hcd) j _ _ hab⟩

theorem reorderInner_rel {U : Type} {R : α → β → Prop} (i fuel : Nat) (l : List α) (m : List β)
    (indices : List (U × Nat)) (hlm : List.Forall₂ R l m) :
    OutcomeRel (fun x y => List.Forall₂ R x.1 y.1 ∧ x.2 = y.2) (reorderInner i fuel l indices)
      (reorderInner i fuel m indices) := by
  induction fuel generalizing l m indices with
  | zero => exact .diverged
  | succ fuel ih =>
    rw [reorderInner, reorderInner]
    cases indices[i]? with
    | none => exact .panicked
    | some x =>
      obtain ⟨u, idx⟩ := x
      simp only
      split
      · rcases swapAt_rel hlm i idx with ⟨h1, h2⟩ | ⟨l', m', h1, h2, h3⟩
        · rw [h1, h2]; exact .panicked
        · rw [h1, h2]
          cases swapAt indices i idx with
          | none => exact .panicked
          | some ind => exact ih l' m' ind h3
      · exact .done _ _ ⟨hlm, rfl⟩

theorem reorderOuter_rel {U : Type} {R : α → β → Prop} (fuel : Nat) (is : List Nat) (l : List α) (m : List β)
    (indices : List (U × Nat)) (hlm : List.Forall₂ R l m) :
    OutcomeRel (List.Forall₂ R) (reorderOuter fuel is l indices) (reorderOuter fuel is m indices) := by
  induction is generalizing l m indices with
  | nil => exact .done _ _ hlm
  | cons i is ih =>
    rw [reorderOuter, reorderOuter]
    have := reorderInner_rel i fuel l m indices hlm
    generalize reorderInner i fuel l indices = x at this ⊢
    generalize reorderInner i fuel m indices = y at this ⊢
    cases this with
    | panicked => exact .panicked
    | diverged => exact .diverged
    | done a b hab =>
      obtain ⟨a1, a2⟩ := a
      obtain ⟨b1, b2⟩ := b
      obtain ⟨h1, h2⟩ := hab
      simp only at h1 h2
      subst h2
      exact ih a1 b1 a2 h1

theorem inOrder_rel {R : Symbolized → Symbolized → Prop} (addrs : List Nat) (l m : List Symbolized)
    (hlm : List.Forall₂ R l m) : ERel (List.Forall₂ R) (inOrder addrs l) (inOrder addrs m) := by
  unfold inOrder reorder
  rw [hlm.length_eq]
  by_cases hl : m.length ≠ (sortWithIdx addrs).length
  · rw [if_pos hl, if_pos hl]; exact .error _
  · rw [if_neg hl, if_neg hl]
    have := reorderOuter_rel (addrs.length + 1) (List.range m.length) l m (sortWithIdx addrs) hlm
    generalize reorderOuter _ _ l _ = x at this ⊢
    generalize reorderOuter _ _ m _ = y at this ⊢
    cases this with
    | panicked => exact .error _
    | diverged => exact .error _
    | done a b hab => exact .ok _ _ hab

theorem userAddrs_sim (hs : HostSim I Q D h env) (src : ProcessSource) (addrs : List Nat)
    (hd : ∀ l, Uses env.maps (.process src) l → D l) :
    Sim I (List.Forall₂ (OutRel Q)) (h.symbolizeUserAddrs src addrs) (symbolizeUserAddrs env src addrs) := by
  unfold Host.symbolizeUserAddrs symbolizeUserAddrs
  refine Sim.bind (hs.maps src.pid) (fun e he => by rw [he]) ?_
  intro x items hitems hx
  subst hx
  rw [hitems]
  simp only [withOrderedElems, userHandle]
  have hw := walk_sim hs src ((sortWithIdx addrs).map Prod.fst) (.list x)
    (fun e he l hl => hd l (.process src x e l hitems he hl))
  refine Sim.bind hw (fun e he => by rw [he]) ?_
  rintro outs ⟨outs', cache⟩ ho hr
  rw [ho]
  simp only at hr ⊢
  refine Sim.lift ?_
  have := inOrder_rel addrs outs outs' hr
  unfold inOrder at this ⊢
  generalize reorder (addrs.length + 1) outs' (sortWithIdx addrs) = z at this ⊢
  cases z <;> exact this

theorem orElse_rel (fold : Err → Except Err Symbolized) (hf : ∀ e, ERel (OutRel Q) (fold e) (fold e))
    {x y : Except Err Symbolized} (hxy : ERel (OutRel Q) x y) : ERel (OutRel Q) (orElse fold x) (orElse fold y) := by
  cases hxy with
  | error e => cases e <;> first | exact .error _ | exact hf _
  | ok a b hab => exact .ok _ _ hab

theorem act_sim (hs : HostSim I Q D h env) (addr : Nat) (g : ActFn S) (f : SymFn)
    (hg : Sim I (FoundRel Q) (g addr env.opts) (f addr env.opts)) :
    Sim I (OutRel Q) (h.symbolizeAct addr g) (env.symbolizeWith addr f) := by
  unfold Host.symbolizeAct
  rw [hs.opts]
  refine Sim.bind hg (fun e he => by unfold Env.symbolizeWith symbolizeWithResolver; rw [he]) ?_
  intro x y hy hxy
  exact Sim.lift (with_sim hs addr (by rw [hy]; exact .ok _ _ hxy))

theorem impl_sim (hs : HostSim I Q D h env) (src : Source) (input : Input (List Nat))
    (fold : Err → Except Err Symbolized) (hf : ∀ e, ERel (OutRel Q) (fold e) (fold e))
    (hd : ∀ l, Uses env.maps src l → D l) :
    Sim I (List.Forall₂ (OutRel Q)) (h.symbolizeImpl src input fold)
      (match symbolizeImpl env src input fold with
        | .error e => .error e
        | .ok items => collect items) := by
  have pure : ∀ (addrs : List Nat) (f g : SymFn), FnRel Q f g →
      Sim I (List.Forall₂ (OutRel Q))
        (Act.traverse (fun addr => .lift (orElse fold (h.symbolizeWith addr f))) addrs)
        (collect (addrs.map fun addr => orElse fold (env.symbolizeWith addr g))) := by
    intro addrs f g hfg
    exact Sim.traverse addrs fun addr _ => Sim.lift (orElse_rel fold hf (with_sim hs addr (hfg _ _)))
  cases src with
  | apk path ds =>
    cases input with
    | absAddr a => exact Sim.lift (.error _)
    | virtOffset a => exact Sim.lift (.error _)
    | fileOffset addrs =>
      exact Sim.traverse addrs fun off _ =>
        Sim.mapResult (apk_sim hs path path off ds (hd _ (.apk path ds))) fun r hr => orElse_rel fold hf hr
  | breakpad path =>
    cases input with
    | absAddr a => exact Sim.lift (.error _)
    | virtOffset a => exact Sim.lift (.error _)
    | fileOffset addrs =>
      simp only [Host.symbolizeImpl, symbolizeImpl]
      refine Sim.bind (hs.breakpad path (hd _ (.breakpad path))) (fun e he => by rw [he]) ?_
      intro x y hy hxy
      rw [hy]
      exact pure addrs x y hxy
  | elf path ds =>
    simp only [Host.symbolizeImpl, symbolizeImpl]
    refine Sim.bind (hs.elf path path ds (hd _ (.elf path ds))) (fun e he => by rw [he]) ?_
    intro x y hy hxy
    rw [hy]
    cases input with
    | absAddr a => exact Sim.lift (.error _)
    | virtOffset addrs => exact pure addrs x.find y.find hxy.1
    | fileOffset addrs =>
      exact Sim.traverse addrs fun off _ => Sim.lift (orElse_rel fold hf (offset_sim hs hxy off))
  | kernel k =>
    cases input with
    | virtOffset a => exact Sim.lift (.error _)
    | fileOffset a => exact Sim.lift (.error _)
    | absAddr addrs =>
      simp only [Host.symbolizeImpl, symbolizeImpl]
      refine Sim.bind (hs.kernel k (hd _ (.kernel k))) (fun e he => by rw [he]) ?_
      intro x y hy hxy
      rw [hy]
      exact Sim.traverse addrs fun addr _ =>
        Sim.mapResult (act_sim hs addr x y (hxy addr)) fun r hr => orElse_rel fold hf hr
  | process p =>
    cases input with
    | virtOffset a => exact Sim.lift (.error _)
    | fileOffset a => exact Sim.lift (.error _)
    | absAddr addrs =>
      simp only [Host.symbolizeImpl, symbolizeImpl]
      refine Sim.bind (userAddrs_sim hs p addrs hd) (fun e he => by rw [he]) ?_
      intro x y hy hxy
      rw [hy]
      simp only
      rw [collect_all_ok]
      clear hy
      have : ∀ x y, List.Forall₂ (OutRel Q) x y →
          Sim I (List.Forall₂ (OutRel Q)) (Act.traverse (fun s => .lift (orElse fold (.ok s))) x) (.ok y) := by
        intro x y hxy
        induction hxy with
        | nil => exact Sim.lift (.ok _ _ .nil)
        | cons hab _ ih =>
          rw [Act.traverse]
          refine Sim.bind (Sim.lift (.ok _ _ hab)) (fun e he => by cases he) ?_
          intro u v hv huv
          cases hv
          refine Sim.bind ih (fun e he => by cases he) ?_
          intro us vs hvs husvs
          cases hvs
          exact Sim.lift (.ok _ _ (.cons huv husvs))
      exact this x y hxy
  | gsymData data =>
    cases input with
    | absAddr a => exact Sim.lift (.error _)
    | fileOffset a => exact Sim.lift (.error _)
    | virtOffset addrs =>
      simp only [Host.symbolizeImpl, symbolizeImpl]
      refine Sim.bind (Sim.lift (hs.gsymData data)) (fun e he => by rw [he]) ?_
      intro x y hy hxy
      rw [hy]
      exact pure addrs x y hxy
  | gsymFile path =>
    cases input with
    | absAddr a => exact Sim.lift (.error _)
    | fileOffset a => exact Sim.lift (.error _)
    | virtOffset addrs =>
      simp only [Host.symbolizeImpl, symbolizeImpl]
      refine Sim.bind (hs.gsymFile path (hd _ (.gsym path))) (fun e he => by rw [he]) ?_
      intro x y hy hxy
      rw [hy]
      exact pure addrs x y hxy

theorem symbolize_sim (hs : HostSim I Q D h env) (src : Source) (input : Input (List Nat))
    (hd : ∀ l, Uses env.maps src l → D l) :
    Sim I (List.Forall₂ (OutRel Q)) (h.symbolize src input) (symbolize env src input) :=
  impl_sim hs src input _ (fun _ => .ok _ _ (.unknown _)) hd

/-- A request for one address has one item, or else no item fails. -/
theorem impl_single (env : Env) (src : Source) (input : Input Nat) (items : List (Except Err Symbolized))
    (hi : symbolizeImpl env src (input.map fun addr => [addr]) (fun e => .error e) = .ok items) :
    (∃ x, items = [x]) ∨ ∃ l : List Symbolized, items = l.map .ok := by
  cases src with
  | process p =>
    right
    cases input with
    | virtOffset a => simp [symbolizeImpl, Input.map] at hi
    | fileOffset a => simp [symbolizeImpl, Input.map] at hi
    | absAddr a =>
      simp only [symbolizeImpl, Input.map] at hi
      cases hu : symbolizeUserAddrs env p [a] with
      | error e => rw [hu] at hi; simp at hi
      | ok l =>
        rw [hu] at hi
        simp only [Except.ok.injEq] at hi
        exact ⟨l, by rw [← hi]; rfl⟩
  | apk path ds =>
    left
    cases input <;> simp [symbolizeImpl, Input.map] at hi
    exact ⟨_, hi.symm⟩
  | breakpad path =>
    left
    cases input <;> simp [symbolizeImpl, Input.map] at hi
    cases hb : env.breakpad path with
    | error e => rw [hb] at hi; simp at hi
    | ok r => rw [hb] at hi; simp at hi; exact ⟨_, hi.symm⟩
  | elf path ds =>
    left
    cases hb : env.elf path path ds with
    | error e => simp [symbolizeImpl, hb] at hi
    | ok r => cases input <;> simp [symbolizeImpl, Input.map, hb] at hi <;> exact ⟨_, hi.symm⟩
  | kernel k =>
    left
    cases input <;> simp [symbolizeImpl, Input.map] at hi
    cases hb : env.kernel k with
    | error e => rw [hb] at hi; simp at hi
    | ok r => rw [hb] at hi; simp at hi; exact ⟨_, hi.symm⟩
  | gsymData data =>
    left
    cases input <;> simp [symbolizeImpl, Input.map] at hi
    cases hb : env.gsymData data with
    | error e => rw [hb] at hi; simp at hi
    | ok r => rw [hb] at hi; simp at hi; exact ⟨_, hi.symm⟩
  | gsymFile path =>
    left
    cases input <;> simp [symbolizeImpl, Input.map] at hi
    cases hb : env.gsymFile path with
    | error e => rw [hb] at hi; simp at hi
    | ok r => rw [hb] at hi; simp at hi; exact ⟨_, hi.symm⟩

theorem collect_ok (l : List Symbolized) : collect (l.map (Except.ok (ε := Err))) = .ok l := by
  induction l with
  | nil => rfl
  | cons a t ih => simp [collect, ih]

theorem symbolizeSingle_sim (hs : HostSim I Q D h env) (src : Source) (input : Input Nat)
    (hd : ∀ l, Uses env.maps src l → D l) :
    Sim I (OutRel Q) (h.symbolizeSingle src input) (symbolizeSingle env src input) := by
  unfold Host.symbolizeSingle symbolizeSingle
  refine Sim.mapResult (impl_sim hs src (input.map fun addr => [addr]) (fun e => .error e) (fun e => .error e) hd) ?_
  intro r hr
  have hone := impl_single env src input
  generalize symbolizeImpl env src (input.map fun addr => [addr]) (fun e => .error e) = v at hr hone ⊢
  cases v with
  | error e => cases hr; exact .error e
  | ok items =>
    simp only at hr
    rcases hone items rfl with ⟨x, rfl⟩ | ⟨l, rfl⟩
    · cases x with
      | error e => cases hr; exact .error e
      | ok x =>
        simp only [collect] at hr
        cases hr with
        | ok a _ hab =>
          cases hab with
          | cons h1 h2 => cases h2; exact .ok _ _ h1
    · rw [collect_ok] at hr
      cases hr with
      | ok a _ hab =>
        cases hab with
        | nil => exact .error _
        | cons h1 h2 =>
          cases h2 with
          | nil => exact .ok _ _ h1
          | cons _ _ => exact .error _

end Blazesym.Symbolize
