import Verif.CApi.HostLemmas
import Verif.CApi.NormProgramSpec
import Verif.CApi.OutputLemmas
import Verif.CApi.OutputProps

/-! Lemmas about programs that use normalizers through the C interface. -/

set_option autoImplicit false

namespace Blazesym.CApi

open Blazesym.Error Blazesym.Normalize
open Blazesym.Spec.Normalize (Reachable)

variable {M : Type} [DecidableEq M]

theorem OutputArray.same {m m' : Mem} {outs : List (Nat × Nat)} {a : Nat} (h : OutputArray m a outs)
    (hs : Same m m' a (a + 32 * outs.length)) : OutputArray m' a outs := by
  induction outs generalizing a with
  | nil => trivial
  | cons o outs ih =>
    obtain ⟨x, y⟩ := o
    rw [List.length_cons] at hs
    obtain ⟨h1, h2, h3, h4⟩ := h
    exact ⟨h1.same (hs.sub (by omega) (by omega)), h2.same (hs.sub (by omega) (by omega)),
      h3.same (by rw [List.length_replicate]; exact hs.sub (by omega) (by omega)),
      ih h4 (hs.sub (by omega) (by omega))⟩

theorem UserOutputAt.same {m m' : Mem} {p : Nat} {out : UserOutput} {bs : List Block} (h : UserOutputAt m p out bs)
    (hu : Unchanged m m' bs) : UserOutputAt m' p out bs := by
  obtain ⟨metas, outputs, bs₁, h0, h1, h2, h3, h4, h5, h6, h7, rfl⟩ := h
  have hp : Same m m' p (p + 48) := hu.at (b := ⟨p, 48, 8⟩) (by simp)
  have hm := unchanged_owned (hu.mono (cs := owned metas (64 * out.metas.length) 8) fun b hb => by simp [hb])
  have ho := unchanged_owned (hu.mono (cs := owned outputs (32 * out.outputs.length) 8) fun b hb => by simp [hb])
  refine ⟨metas, outputs, bs₁, h0, h1.same (hp.sub (by omega) (by omega)), h2.same (hp.sub (by omega) (by omega)),
    h3.same (hu.mono fun b hb => by simp [hb]) hm, h4.same (hp.sub (by omega) (by omega)),
    h5.same (hp.sub (by omega) (by omega)), h6.same ho, h7.same ?_, rfl⟩
  rw [List.length_replicate]
  exact hp.sub (by omega) (by omega)

/-- A result that was handed out is there. -/
def OutputThere (m : Mem) (g : Given UserOutput) : Prop :=
  ∃ (bs : List Block), bs.Perm g.blocks ∧ UserOutputAt m g.ptr g.result bs

theorem outputThere_stable : Stable OutputThere := by
  refine ⟨?_, ?_, ?_⟩
  · rintro m m' g ⟨bs, hp, h⟩ hu
    exact ⟨bs, hp, h.same (hu.mono fun b hb => hp.mem_iff.1 hb)⟩
  · rintro m g g' ⟨bs, hp, h⟩ ⟨bs', hp', h'⟩ he
    obtain ⟨_, _, _, _, _, _, _, _, _, _, _, rfl⟩ := h
    obtain ⟨_, _, _, _, _, _, _, _, _, _, _, rfl⟩ := h'
    exact ⟨⟨g.ptr, 48, 8⟩, ⟨g'.ptr, 48, 8⟩, hp.mem_iff.1 (by simp), hp'.mem_iff.1 (by simp), he, by simp, by simp⟩
  · rintro m g ⟨bs, hp, h⟩
    obtain ⟨_, _, _, h0, _⟩ := h
    omega

theorem sameMeta (x : UserMeta) : SameMeta x (outMeta x) := by cases x <;> constructor

theorem sameMeta_eq {x : UserMeta} {y : OutMeta} (h : SameMeta x y) : y = outMeta x := by cases h <;> rfl

theorem sameOutput (metas : List UserMeta) (outputs : List (Nat × Nat)) :
    SameOutput metas outputs ⟨outputs, metas.map outMeta⟩ := by
  refine ⟨rfl, ?_⟩
  induction metas with
  | nil => exact .nil
  | cons x xs ih => exact .cons (sameMeta x) ih

theorem sameOutput_eq {metas : List UserMeta} {outputs : List (Nat × Nat)} {out : UserOutput}
    (h : SameOutput metas outputs out) : out = ⟨outputs, metas.map outMeta⟩ := by
  obtain ⟨outs, ms⟩ := out
  obtain ⟨h1, h2⟩ := h
  simp only at h1 h2
  subst h1
  congr 1
  induction h2 with
  | nil => rfl
  | cons h _ ih => rw [List.map_cons, sameMeta_eq h, ih]

section
variable {tools : Dwarf.Tools} {size : Nat} {alloc : Allocator}
  {ok : Builder → Normalizer M → World M → Spec.Normalize.Call → Prop} {host : NormHost M} {gs : List (Given UserOutput)}
  {os : List Block}

/-- The normalizers there are. -/
def NormReach (tools : Dwarf.Tools) (ok : Builder → Normalizer M → World M → Spec.Normalize.Call → Prop) (b : Builder)
    (s : Normalizer M) : Prop := Reachable (b.build tools) (ok b) s

theorem normalize_eq {w : World M} {thread : Nat} {o : Tool Builder (Normalizer M)} (ho : host.tool o.addr = .ok o)
    {pid addrs cnt : Nat} {opts : Opts} {xs : List Nat} (hx : userArray host.store.mem addrs 8 cnt = .ok xs) :
    normalizeIn tools alloc w host thread o.addr pid addrs cnt opts =
      (do
        match ← outcome (normalized (o.state.normalize (o.opts.build tools) w opts pid xs).1) with
        | .ok out =>
          let (p, store) ← convertOutput alloc host.store out
          return (p, host.next o.addr (o.state.normalize (o.opts.build tools) w opts pid xs).2 thread CApi.ok store)
        | .error e =>
          return (0, host.next o.addr (o.state.normalize (o.opts.build tools) w opts pid xs).2 thread (errCode e) host.store)) := by
  unfold normalizeIn
  simp only [bind, Except.bind, ho, hx]
  rfl

/-- What the functions for normalization do. -/
theorem normalize_cases (ha : GoodAllocator alloc) {w : World M} (hv : host.store.Valid) {thread : Nat}
    {o : Tool Builder (Normalizer M)} (ho : host.tool o.addr = .ok o)
    {pid addrs cnt : Nat} {opts : Opts} {xs : List Nat} (hx : userArray host.store.mem addrs 8 cnt = .ok xs)
    {r : NResult} {state : Normalizer M} (hr : o.state.normalize (o.opts.build tools) w opts pid xs = (r, state)) :
    (r = .err .panic → normalizeIn tools alloc w host thread o.addr pid addrs cnt opts = .error .abort) ∧
    (∀ (e : Err), e ≠ .panic → r = .err e → normalizeIn tools alloc w host thread o.addr pid addrs cnt opts
      = .ok (0, host.next o.addr state thread (errCode (kindOfErr e)) host.store)) ∧
    ∀ (metas : List UserMeta) (outputs : List (Nat × Nat)), r = .ok metas outputs →
      (∀ (f : Fault), convertOutput alloc host.store ⟨outputs, metas.map outMeta⟩ = .error f →
        normalizeIn tools alloc w host thread o.addr pid addrs cnt opts = .error f) ∧
      ∀ (p : Nat) (store : Store), convertOutput alloc host.store ⟨outputs, metas.map outMeta⟩ = .ok (p, store) →
        (⟨outputs, metas.map outMeta⟩ : UserOutput).Fits →
        normalizeIn tools alloc w host thread o.addr pid addrs cnt opts = .ok (p, host.next o.addr state thread 0 store)
        ∧ p ≠ 0 ∧ ∃ (bs : List Block), Ext host.store store bs ∧ UserOutputAt store.mem p ⟨outputs, metas.map outMeta⟩ bs := by
  have heq := normalize_eq (tools := tools) (alloc := alloc) (w := w) (thread := thread) (pid := pid) (opts := opts) ho hx
  rw [hr] at heq
  simp only at heq
  refine ⟨?_, ?_, ?_⟩
  · rintro rfl
    rw [heq]; rfl
  · rintro e he rfl
    rw [heq, normalized, outcome_error he]; rfl
  · rintro metas outputs rfl
    rw [heq, normalized, outcome_ok]
    simp only [bind, Except.bind]
    refine ⟨fun f hf => by rw [hf], fun p store hc hfit => ?_⟩
    rw [hc]
    obtain ⟨bs, h1, h2⟩ := convertOutput_spec ha hv hfit hc
    refine ⟨rfl, ?_, bs, h1, h2⟩
    obtain ⟨_, _, _, h0, _⟩ := h2
    omega

/-- A request reaches the normalizer, or the call does not come back. -/
theorem normalizeIn_inv {w : World M} {thread norm pid addrs cnt ret : Nat} {opts : Opts} {host' : NormHost M}
    (hc : normalizeIn tools alloc w host thread norm pid addrs cnt opts = .ok (ret, host')) :
    ∃ (o : Tool Builder (Normalizer M)) (xs : List Nat), host.tool norm = .ok o ∧ userArray host.store.mem addrs 8 cnt = .ok xs := by
  unfold normalizeIn at hc
  cases ho : host.tool norm with
  | error f => rw [ho] at hc; cases hc
  | ok o =>
    cases hx : userArray host.store.mem addrs 8 cnt with
    | error f => rw [ho, hx] at hc; cases hc
    | ok xs => exact ⟨o, xs, rfl, rfl⟩

theorem normalizeIn_keeps (ht : HostInv size OutputThere (NormReach tools ok) host gs os) (ha : GoodAllocator alloc)
    (hz : 0 < size) {w : World M} {thread norm pid addrs cnt ret : Nat} {opts : Opts} {host' : NormHost M}
    (hc : normalizeIn tools alloc w host thread norm pid addrs cnt opts = .ok (ret, host'))
    (hok : ∀ (o : Tool Builder (Normalizer M)) (xs : List Nat), o ∈ host.tools → o.addr = norm →
      userArray host.store.mem addrs 8 cnt = .ok xs →
      ok o.opts o.state w ⟨opts, pid, xs⟩ ∧ FitOutput (o.state.normalize (o.opts.build tools) w opts pid xs).1)
    {out : UserOutput}
    (hout : ∀ (o : Tool Builder (Normalizer M)) (xs : List Nat) (metas : List UserMeta)
      (outputs : List (Nat × Nat)), o ∈ host.tools → o.addr = norm → userArray host.store.mem addrs 8 cnt = .ok xs →
      (o.state.normalize (o.opts.build tools) w opts pid xs).1 = .ok metas outputs → SameOutput metas outputs out)
    {gs' : List (Given UserOutput)} (hg : HandedOver host host' ret out gs gs') :
    HostInv size OutputThere (NormReach tools ok) host' gs' os := by
  obtain ⟨o, xs, ho, hx⟩ := normalizeIn_inv hc
  obtain ⟨hm, rfl⟩ := tool_mem ho
  obtain ⟨hok, hfit⟩ := hok o xs hm rfl hx
  replace hout := fun metas outputs => hout o xs metas outputs hm rfl hx
  obtain ⟨r, state, hr⟩ : ∃ r state, o.state.normalize (o.opts.build tools) w opts pid xs = (r, state) := ⟨_, _, rfl⟩
  have hreach : NormReach tools ok o.opts state := by
    have := Reachable.call o.state w ⟨opts, pid, xs⟩ (ht.tools o hm) hok
    simp only [hr] at this
    exact this
  obtain ⟨c1, c2, c3⟩ := normalize_cases (tools := tools) (thread := thread) ha ht.valid ho hx hr
  rw [hr] at hfit hout
  simp only at hfit hout
  cases hrr : r with
  | err e =>
    by_cases hp : e = .panic
    · rw [c1 (by rw [hrr, hp])] at hc; cases hc
    · rw [c2 e hp hrr] at hc
      simp only [Except.ok.injEq, Prod.mk.injEq] at hc
      obtain ⟨rfl, rfl⟩ := hc
      exact ht.handed outputThere_stable hz hm hreach thread _ (Ext.refl ht.valid) hg (fun _ => rfl)
        (fun h => absurd rfl h)
  | ok metas outputs =>
    obtain ⟨d1, d2⟩ := c3 metas outputs hrr
    cases hcv : convertOutput alloc host.store ⟨outputs, metas.map outMeta⟩ with
    | error f => rw [d1 f hcv] at hc; cases hc
    | ok x =>
      obtain ⟨p, store⟩ := x
      obtain ⟨k1, k2, bs, k3, k4⟩ := d2 p store hcv (hfit metas outputs _ hrr (sameOutput metas outputs))
      rw [k1] at hc
      simp only [Except.ok.injEq, Prod.mk.injEq] at hc
      obtain ⟨rfl, rfl⟩ := hc
      have := sameOutput_eq (hout metas outputs hrr)
      subst this
      exact ht.handed outputThere_stable hz hm hreach thread _ k3 hg (fun h => absurd h k2)
        (fun _ bs' hb => ⟨bs, hb.symm, k4⟩)

theorem outputFree_spec (s : Store) (g : Given UserOutput) (rest : List Block) (hs : s.Valid) (h : OutputThere s.mem g)
    (hm : s.blocks.Perm (g.blocks ++ rest)) :
    ∃ (t : Store), userOutputFree s g.ptr = .ok t ∧ t.blocks.Perm rest ∧ t.Valid ∧ Unchanged s.mem t.mem rest := by
  obtain ⟨bs, hp, h⟩ := h
  exact C74_free s hs g.ptr g.result bs rest h (hm.trans (hp.symm.append_right _))

theorem norm_step (ht : HostInv size OutputThere (NormReach tools ok) host gs os) (ha : GoodAllocator alloc)
    (hz : 0 < size) {w : World M} {thread ret : Nat} {c : NormCall} {host' : NormHost M} {gs' : List (Given UserOutput)}
    (hab : NormAbides tools ok host gs w c) (hc : normStep tools size alloc w thread host c = .ok (ret, host'))
    (hg : NormAccounts tools host host' w c ret gs gs') : HostInv size OutputThere (NormReach tools ok) host' gs' os := by
  cases c with
  | new =>
    have hg : gs' = gs := hg
    subst hg
    exact ht.create outputThere_stable ha hz (by exact Reachable.new) hc
  | newOpts opts =>
    have hg : gs' = gs := hg
    subst hg
    simp only [normStep] at hc
    cases hi : inputAs host.store.mem opts .normalizerOpts normalizerOpts with
    | error f => rw [hi] at hc; cases hc
    | ok x =>
      rw [hi] at hc
      simp only [bind, Except.bind] at hc
      cases x with
      | error e =>
        simp only [pure, Except.pure, Except.ok.injEq, Prod.mk.injEq] at hc
        obtain ⟨_, rfl⟩ := hc
        exact ht.report thread _
      | ok o => exact ht.create outputThere_stable ha hz (by exact Reachable.new) hc
  | free norm =>
    have hg : gs' = gs := hg
    subst hg
    exact ht.destroy outputThere_stable hz hc
  | normalize norm pid addrs cnt =>
    obtain ⟨out, h1, h2⟩ := hg
    have hc : normalizeIn tools alloc w host thread norm pid addrs cnt defaultRequest = .ok (ret, host') := hc
    refine normalizeIn_keeps ht ha hz hc ?_ ?_ h2
    · rintro o xs hm rfl hx
      exact hab.2 o pid _ xs hm (.default hx)
    · rintro o xs metas outputs hm rfl hx hr
      exact h1 o pid _ xs metas outputs hm (.default hx) hr
  | normalizeOpts norm pid addrs cnt opts =>
    obtain ⟨out, h1, h2⟩ := hg
    simp only [normStep] at hc
    cases hi : inputAs host.store.mem opts .normalizeOpts normalizeOpts with
    | error f => rw [hi] at hc; cases hc
    | ok x =>
      rw [hi] at hc
      simp only [bind, Except.bind] at hc
      cases x with
      | error e =>
        simp only [pure, Except.pure, Except.ok.injEq, Prod.mk.injEq] at hc
        obtain ⟨rfl, rfl⟩ := hc
        rcases h2 with ⟨_, rfl⟩ | ⟨_, h0, _⟩
        · exact ht.report thread _
        · exact absurd rfl h0
      | ok o =>
        obtain ⟨s, mf, ae⟩ := o
        refine normalizeIn_keeps ht ha hz hc ?_ ?_ h2
        · rintro o xs hm rfl hx
          exact hab.2 o pid _ xs hm (.opts hx hi)
        · rintro o xs metas outputs hm rfl hx hr
          exact h1 o pid _ xs metas outputs hm (.opts hx hi) hr
  | outputFree out =>
    obtain ⟨store, k1, k2, _⟩ := ht.release outputThere_stable outputFree_spec (fun _ => rfl) (hab.1 out rfl) hg
    simp only [normStep, k1, bind, Except.bind, pure, Except.pure, Except.ok.injEq, Prod.mk.injEq] at hc
    obtain ⟨_, rfl⟩ := hc
    exact k2

theorem inv_of_normRuns (ha : GoodAllocator alloc) (hz : 0 < size) (h : NormRuns tools size alloc ok host gs os) :
    HostInv size OutputThere (NormReach tools ok) host gs os :=
  hostInv_of_runs (step := normStep tools size alloc) (abides := NormAbides tools ok) (accounts := NormAccounts tools)
    outputThere_stable (fun _ _ _ _ _ _ _ _ _ ih hab hc hg => norm_step ih ha hz hab hc hg) h

end

end Blazesym.CApi
