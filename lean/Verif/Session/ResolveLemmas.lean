import Verif.Session.Spec
import Verif.Cache.ElfCacheProps

/-! # What a cache holds is what a fresh lookup yields -/

set_option autoImplicit false

namespace Blazesym.Cache

open Blazesym.Spec

variable {P M F T Pr D : Type} [DecidableEq P] [DecidableEq M]

/-- The cache holds nothing but versions of files with their contents, and values that satisfy `Val`. -/
structure Faithful (contents : M → Except Err F) (Val : M → F → T → Prop) (s : FileCache P M F T) :
    Prop where
  wf : WF s
  file : ∀ (m : M) (e : Entry F T), s.entries.get m = some e → contents m = .ok e.file
  value : ∀ (m : M) (e : Entry F T) (t : T), s.entries.get m = some e → e.value = some t → Val m e.file t

theorem faithful_new (contents : M → Except Err F) (Val : M → F → T → Prop) (ar : Bool) :
    Faithful contents Val (FileCache.new ar : FileCache P M F T) :=
  ⟨wf_new ar, by simp [FileCache.new, InsertMap.get, InsertMap.find],
    by simp [FileCache.new, InsertMap.get, InsertMap.find]⟩

theorem faithful_of_values {contents : M → Except Err F} {Val : M → F → T → Prop}
    {s s' : FileCache P M F T} (hs : Faithful contents Val s) (hwf : WF s')
    (h : ∀ (m : M) (e : Entry F T), s'.entries.get m = some e →
      (∃ e0, s.entries.get m = some e0 ∧ e0.value = e.value ∧ e0.file = e.file) ∨
      (contents m = .ok e.file ∧ (∀ t, e.value = some t → Val m e.file t))) :
    Faithful contents Val s' := by
  refine ⟨hwf, ?_, ?_⟩
  · intro m e he
    rcases h m e he with ⟨e0, h1, _, h3⟩ | ⟨h1, _⟩
    · rw [← h3]; exact hs.file m e0 h1
    · exact h1
  · intro m e t he ht
    rcases h m e he with ⟨e0, h1, h2, h3⟩ | ⟨_, h2⟩
    · rw [← h3]; exact hs.value m e0 t h1 (h2.trans ht)
    · exact h2 t ht

/-- The frame: what does not change during a request. -/
structure Frame (stat : P → Except Err M) (s s' : FileCache P M F T) : Prop where
  autoReload : s'.autoReload = s.autoReload
  effective : ∀ q, effective s' stat q = effective s stat q
  pins : ∀ q m, Current s' q true m → Current s q true m
  keeps : ∀ q m, Current s q true m → Current s' q true m

theorem Frame.refl (stat : P → Except Err M) (s : FileCache P M F T) : Frame stat s s :=
  ⟨rfl, fun _ => rfl, fun _ _ h => h, fun _ _ h => h⟩

theorem Frame.trans {stat : P → Except Err M} {a b c : FileCache P M F T} (h : Frame stat a b)
    (h' : Frame stat b c) : Frame stat a c :=
  ⟨h'.autoReload.trans h.autoReload, fun q => (h'.effective q).trans (h.effective q),
    fun q m hc => h.pins q m (h'.pins q m hc), fun q m hc => h'.keeps q m (h.keeps q m hc)⟩

/-- A change of entries only. -/
theorem frame_of_cache {stat : P → Except Err M} {s s' : FileCache P M F T} (hc : s'.cache = s.cache)
    (ha : s'.autoReload = s.autoReload) : Frame stat s s' := by
  refine ⟨ha, fun q => ?_, fun q m => ?_, fun q m => ?_⟩
  · unfold Spec.effective; rw [hc, ha]
  · unfold Current; rw [hc]; exact id
  · unfold Current; rw [hc]; exact id

/-- Whether a lookup of the path uses what the cache has. -/
def Kept (s : FileCache P M F T) (p : P) : Prop :=
  ∃ b m, Current s p b m ∧ (b = true ∨ s.autoReload = false)

theorem effective_kept {s : FileCache P M F T} {p : P} {b : Bool} {m : M} (h : Current s p b m)
    (hb : b = true ∨ s.autoReload = false) (stat : P → Except Err M) : effective s stat p = .ok m := by
  obtain ⟨pe, h1, h2⟩ := h
  unfold effective
  rw [h1]
  simp only [h2]
  rw [if_pos (by tauto)]

theorem effective_stat {s : FileCache P M F T} {p : P} (h : ¬ Kept s p) (stat : P → Except Err M) :
    effective s stat p = stat p := by
  unfold effective
  cases hc : s.cache.get p with
  | none => rfl
  | some pe =>
    cases hp : pe.current with
    | none => simp only [hp]
    | some q =>
      obtain ⟨b, m⟩ := q
      simp only [hp]
      rw [if_neg]
      intro hb
      exact h ⟨b, m, ⟨pe, hc, hp⟩, by tauto⟩

/-- The cache entries of other paths do not change in a lookup, and the path's own one is its
current version. -/
theorem entry_cache {s : FileCache P M F T} (p : P) (st : Except Err M) (o : Except Err F)
    (hk : ¬ Kept s p) {m : M} {e : Entry F T} {s' : FileCache P M F T}
    (h : s.entry p st o = (.ok (m, e), s')) :
    (∀ q, q ≠ p → s'.cache.get q = s.cache.get q) ∧ s'.autoReload = s.autoReload := by
  unfold FileCache.entry at h
  cases hc : s.cache.get p with
  | some pe =>
    rw [hc] at h
    simp only at h
    have key : s.reload p pe st o = (.ok (m, e), s') →
        (∀ q, q ≠ p → s'.cache.get q = s.cache.get q) ∧ s'.autoReload = s.autoReload := by
      intro h
      unfold FileCache.reload at h
      cases hg : s.getOrInsert pe st o with
      | error e => rw [hg] at h; simp at h
      | ok r =>
        rw [hg] at h
        simp only at h
        split at h
        · simp only [Prod.mk.injEq] at h
          obtain ⟨_, rfl⟩ := h
          exact ⟨fun q hq => by simp [hq], rfl⟩
        · simp at h
    cases hcur : pe.current with
    | none => rw [hcur] at h; exact key h
    | some q =>
      obtain ⟨b, m'⟩ := q
      rw [hcur] at h
      simp only at h
      rw [if_neg] at h
      · exact key h
      · intro hb
        apply hk
        refine ⟨b, m', ⟨pe, hc, hcur⟩, ?_⟩
        cases b <;> simp_all
  | none =>
    rw [hc] at h
    simp only at h
    cases hg : s.getOrInsert PathEntry.default st o with
    | error e => rw [hg] at h; simp at h
    | ok r =>
      rw [hg] at h
      simp only at h
      split at h
      · simp only [Prod.mk.injEq] at h
        obtain ⟨_, rfl⟩ := h
        exact ⟨fun q hq => by simp [InsertMap.get_getOrInsert, hq], rfl⟩
      · simp at h

/-- A lookup changes no entry but that of the version it returns. -/
theorem entry_entries {s : FileCache P M F T} (p : P) (st : Except Err M) (o : Except Err F)
    (hk : ¬ Kept s p) {m : M} {e : Entry F T} {s' : FileCache P M F T} (hst : st = .ok m)
    (hr : s.entry p st o = (.ok (m, e), s')) (x : M) (hne : x ≠ m) :
    s'.entries.get x = s.entries.get x := by
  unfold FileCache.entry at hr
  have key : ∀ pe en pe' m', s.getOrInsert pe st o = .ok (en, pe', m') →
      en.get x = s.entries.get x := by
    intro pe en pe' m' hg
    obtain ⟨hst', _, _, e0, _, hget⟩ := getOrInsert_ok hg
    rw [hst] at hst'; cases hst'
    rw [hget x, if_neg hne]
  cases hc : s.cache.get p with
  | none =>
    rw [hc] at hr
    simp only at hr
    cases hg : s.getOrInsert PathEntry.default st o with
    | error e => rw [hg] at hr; simp at hr
    | ok r =>
      obtain ⟨en, pe', m'⟩ := r
      have hx' := key _ en pe' m' hg
      rw [hg] at hr
      simp only at hr
      split at hr
      · simp only [Prod.mk.injEq] at hr
        obtain ⟨_, rfl⟩ := hr
        exact hx'
      · simp at hr
  | some pe =>
    have hrel : s.reload p pe st o = (.ok (m, e), s') →
        s'.entries.get x = s.entries.get x := by
      intro hr
      unfold FileCache.reload at hr
      cases hg : s.getOrInsert pe st o with
      | error e => rw [hg] at hr; simp at hr
      | ok r =>
        obtain ⟨en, pe', m'⟩ := r
        have hx' := key _ en pe' m' hg
        rw [hg] at hr
        simp only at hr
        split at hr
        · simp only [Prod.mk.injEq] at hr
          obtain ⟨_, rfl⟩ := hr
          exact hx'
        · simp at hr
    rw [hc] at hr
    simp only at hr
    cases hcur' : pe.current with
    | none => rw [hcur'] at hr; exact hrel hr
    | some q =>
      obtain ⟨b, m'⟩ := q
      rw [hcur'] at hr
      simp only at hr
      rw [if_neg] at hr
      · exact hrel hr
      · intro hb
        apply hk
        refine ⟨b, m', ⟨pe, hc, hcur'⟩, ?_⟩
        cases b <;> simp_all

/-- A lookup in a faithful cache. -/
theorem entry_faithful {disk : Disk P M F} {Val : M → F → T → Prop} {s : FileCache P M F T}
    (hs : Faithful disk.contents Val s) (p : P) :
    (∀ e, effective s disk.stat p = .error e →
      s.entry p (disk.stat p) (disk.opened p) = (.error e, s)) ∧
    (∀ m e, effective s disk.stat p = .ok m → disk.contents m = .error e →
      s.entry p (disk.stat p) (disk.opened p) = (.error e, s)) ∧
    (∀ m f, effective s disk.stat p = .ok m → disk.contents m = .ok f →
      ∃ (e : Entry F T) (s' : FileCache P M F T),
        s.entry p (disk.stat p) (disk.opened p) = (.ok (m, e), s') ∧ e.file = f ∧
        s'.entries.get m = some e ∧ Faithful disk.contents Val s' ∧ Frame disk.stat s s' ∧
        (∀ x : M, x ≠ m → s'.entries.get x = s.entries.get x)) := by
  by_cases hk : Kept s p
  · obtain ⟨b, m, hc, hb⟩ := hk
    have he := effective_kept hc hb disk.stat
    obtain ⟨e, hg, hent⟩ := entry_keep hs.wf p (disk.stat p) (disk.opened p) b m hc hb
    have hf := hs.file m e hg
    refine ⟨?_, ?_, ?_⟩
    · intro e' h; rw [he] at h; cases h
    · intro m' e' h h'; rw [he] at h; cases h; rw [hf] at h'; cases h'
    · intro m' f h h'
      rw [he] at h; cases h
      rw [hf] at h'; cases h'
      exact ⟨e, s, hent, rfl, hg, hs, Frame.refl _ _, fun x _ => rfl⟩
  · have he := effective_stat hk disk.stat
    have hnp : ∀ m, ¬ Current s p true m := fun m hc => hk ⟨true, m, hc, Or.inl rfl⟩
    have har : s.autoReload = true ∨ s.cache.get p = none := by
      cases hc : s.cache.get p with
      | none => exact Or.inr rfl
      | some pe =>
        left
        cases ha : s.autoReload with
        | true => rfl
        | false =>
          exfalso
          have := hs.wf.cur p pe hc
          obtain ⟨q, hq⟩ := Option.isSome_iff_exists.mp this
          exact hk ⟨q.1, q.2, ⟨pe, hc, hq⟩, Or.inr ha⟩
    obtain ⟨h1, h2⟩ := entry_reload p (disk.stat p) (disk.opened p) hnp har
    rw [he]
    have hwf := entry_wf hs.wf p (disk.stat p) (disk.opened p)
    cases hr : s.entry p (disk.stat p) (disk.opened p) with
    | mk r s' =>
      rw [hr] at h1 h2 hwf
      simp only at h1 h2 hwf
      cases r with
      | error err =>
        obtain ⟨hs', hcause⟩ := h1 err rfl
        subst hs'
        refine ⟨?_, ?_, ?_⟩
        · intro e h
          rcases hcause with hc | ⟨m, hc, _⟩
          · rw [h] at hc; cases hc; rfl
          · rw [h] at hc; cases hc
        · intro m e h h'
          rcases hcause with hc | ⟨m', hc, _, ho⟩
          · rw [h] at hc; cases hc
          · unfold Disk.opened at ho
            rw [h] at hc ho
            cases hc
            simp only [h'] at ho
            cases ho; rfl
        · intro m f h h'
          exfalso
          rcases hcause with hc | ⟨m', hc, _, ho⟩
          · rw [h] at hc; cases hc
          · unfold Disk.opened at ho
            rw [h] at hc ho
            cases hc
            simp only [h'] at ho
            cases ho
      | ok q =>
        obtain ⟨m, e⟩ := q
        obtain ⟨hst, hcur, hent⟩ := h2 m e rfl
        have hopen : disk.opened p = disk.contents m := by unfold Disk.opened; rw [hst]
        have hfile : disk.contents m = .ok e.file := by
          rcases hent with ⟨e0, h3, h4, _⟩ | ⟨_, h3, _⟩
          · rw [← h4]; exact hs.file m e0 h3
          · rw [← hopen]; exact h3
        have hstored := ElfCache.entry_stored hr
        have hentries := entry_entries p (disk.stat p) (disk.opened p) hk hst hr
        obtain ⟨hother, hauto⟩ := entry_cache p (disk.stat p) (disk.opened p) hk hr
        refine ⟨?_, ?_, ?_⟩
        · intro e' h; rw [hst] at h; cases h
        · intro m' e' h h'; rw [hst] at h; cases h; rw [hfile] at h'; cases h'
        · intro m' f h h'
          rw [hst] at h; cases h
          rw [hfile] at h'; cases h'
          refine ⟨e, s', rfl, rfl, hstored, ?_, ⟨hauto, ?_, ?_, ?_⟩, hentries⟩
          · refine faithful_of_values hs hwf ?_
            intro x ex hx
            by_cases hxm : x = m
            · subst hxm
              rw [hstored] at hx; cases hx
              rcases hent with ⟨e0, h3, h4, h5⟩ | ⟨_, _, h4⟩
              · exact Or.inl ⟨e0, h3, h5, h4⟩
              · exact Or.inr ⟨hfile, fun t ht => by rw [h4] at ht; cases ht⟩
            · rw [hentries x hxm] at hx
              exact Or.inl ⟨ex, hx, rfl, rfl⟩
          · intro q
            by_cases hq : q = p
            · subst hq
              rw [he, hst]
              obtain ⟨pe, hc1, hc2⟩ := hcur
              unfold effective
              rw [hc1]
              simp only [hc2]
              split
              · rfl
              · exact hst
            · unfold effective
              rw [hother q hq, hauto]
          · intro q x hq
            by_cases hqp : q = p
            · subst hqp
              obtain ⟨pe, hc1, hc2⟩ := hcur
              obtain ⟨pe', hc3, hc4⟩ := hq
              rw [hc1] at hc3; cases hc3
              rw [hc2] at hc4; cases hc4
            · obtain ⟨pe', hc3, hc4⟩ := hq
              exact ⟨pe', by rw [← hother q hqp]; exact hc3, hc4⟩
          · intro q x hq
            by_cases hqp : q = p
            · subst hqp; exact (hnp x hq).elim
            · obtain ⟨pe', hc3, hc4⟩ := hq
              exact ⟨pe', by rw [hother q hqp]; exact hc3, hc4⟩

theorem initValue_faithful {contents : M → Except Err F} {Val : M → F → T → Prop}
    {s : FileCache P M F T} (hs : Faithful contents Val s) (m : M) (t : T)
    (h : ∀ e, s.entries.get m = some e → e.value = none → Val m e.file t) :
    Faithful contents Val (s.initValue m t) := by
  refine faithful_of_values hs (initValue_wf hs.wf m t) ?_
  intro x ex hx
  unfold FileCache.initValue at hx
  simp only [InsertMap.get_update] at hx
  split at hx
  · rename_i hxm
    subst hxm
    cases hg : s.entries.get x with
    | none => simp [hg] at hx
    | some e0 =>
      simp only [hg, Option.map_some, Option.some.injEq] at hx
      subst hx
      cases hv : e0.value with
      | some v => exact Or.inl ⟨e0, rfl, by simp [hv], rfl⟩
      | none =>
        right
        refine ⟨hs.file x e0 hg, ?_⟩
        intro t' ht'
        simp only [Option.orElse_none, Option.some.injEq] at ht'
        subst ht'
        exact h e0 hg hv
  · exact Or.inl ⟨ex, hx, rfl, rfl⟩

theorem initValue_frame (stat : P → Except Err M) (s : FileCache P M F T) (m : M) (t : T) :
    Frame stat s (s.initValue m t) := frame_of_cache rfl rfl

/-- What `resolve` yields. -/
theorem resolve_faithful {disk : Disk P M F} {create : F → Except Err T} {s : FileCache P M F T}
    (hs : Faithful disk.contents (fun _ f t => create f = .ok t) s) (p : P) :
    (s.resolve disk p create).1 =
      ofVersion disk.contents (fun _ f => create f) (effective s disk.stat p) ∧
    Faithful disk.contents (fun _ f t => create f = .ok t) (s.resolve disk p create).2 ∧
    Frame disk.stat s (s.resolve disk p create).2 := by
  obtain ⟨h1, h2, h3⟩ := entry_faithful hs p
  unfold FileCache.resolve ofVersion
  cases he : effective s disk.stat p with
  | error e => rw [h1 e he]; exact ⟨rfl, hs, Frame.refl _ _⟩
  | ok m =>
    cases hc : disk.contents m with
    | error e => rw [h2 m e he hc]; exact ⟨by simp [hc], hs, Frame.refl _ _⟩
    | ok f =>
      obtain ⟨e, s', hent, hf, hg, hs', hfr, _⟩ := h3 m f he hc
      rw [hent]
      simp only [hc]
      cases hv : e.value with
      | some t =>
        simp only
        have := hs'.value m e t hg hv
        rw [hf] at this
        exact ⟨this.symm, hs', hfr⟩
      | none =>
        simp only
        rw [hf]
        cases hcr : create f with
        | error err => exact ⟨rfl, hs', hfr⟩
        | ok t =>
          refine ⟨rfl, initValue_faithful hs' m t ?_, hfr.trans (initValue_frame _ _ _ _)⟩
          intro e' he' _
          rw [hg] at he'; cases he'
          rw [hf]; exact hcr

/-- What `resolveOptional` yields. -/
theorem resolveOptional_faithful {disk : Disk P M F} {create : F → Except Err T} {s : FileCache P M F T}
    (hs : Faithful disk.contents (fun _ f t => create f = .ok t) s) (p : P) :
    (s.resolveOptional disk p create).1 =
      (match ofVersion disk.contents (fun _ f => .ok f) (effective s disk.stat p) with
        | .error .notFound => .ok none
        | .error e => .error e
        | .ok f => (create f).map some) ∧
    Faithful disk.contents (fun _ f t => create f = .ok t) (s.resolveOptional disk p create).2 ∧
    Frame disk.stat s (s.resolveOptional disk p create).2 := by
  obtain ⟨h1, h2, h3⟩ := entry_faithful hs p
  unfold FileCache.resolveOptional ofVersion
  cases he : effective s disk.stat p with
  | error e => rw [h1 e he]; cases e <;> exact ⟨rfl, hs, Frame.refl _ _⟩
  | ok m =>
    cases hc : disk.contents m with
    | error e => rw [h2 m e he hc]; cases e <;> exact ⟨by simp [hc], hs, Frame.refl _ _⟩
    | ok f =>
      obtain ⟨e, s', hent, hf, hg, hs', hfr, _⟩ := h3 m f he hc
      rw [hent]
      simp only [hc]
      cases hv : e.value with
      | some t =>
        simp only
        have := hs'.value m e t hg hv
        rw [hf] at this
        exact ⟨by rw [this]; rfl, hs', hfr⟩
      | none =>
        simp only
        rw [hf]
        cases hcr : create f with
        | error err => exact ⟨rfl, hs', hfr⟩
        | ok t =>
          refine ⟨rfl, initValue_faithful hs' m t ?_, hfr.trans (initValue_frame _ _ _ _)⟩
          intro e' he' _
          rw [hg] at he'; cases he'
          rw [hf]; exact hcr

end Blazesym.Cache
