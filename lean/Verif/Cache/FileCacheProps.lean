import Verif.Cache.FileCacheLemmas
import Verif.Cache.FileCacheSpec
import Mathlib.Data.List.Induction

/-!
# C13 and C14: the file cache

All statements are about a cache reached by an arbitrary history of calls, in an arbitrary
changing file system.
-/

set_option autoImplicit false

namespace Blazesym.Cache

open Blazesym.Spec

universe u v w x

variable {P : Type u} {M : Type v} {F : Type w} {T : Type x} [DecidableEq P] [DecidableEq M]

theorem reachable_wf {ar : Bool} {ops : List (FileCache.Op P M F T)} {s : FileCache P M F T}
    (h : Reachable ar ops s) : WF s := by
  rw [h]; exact run_wf (wf_new ar) ops

theorem run_append (s : FileCache P M F T) (a b : List (FileCache.Op P M F T)) :
    s.run (a ++ b) = (s.run a).run b := by
  simp [FileCache.run, List.foldl_append]

/-- The reload setting is never changed. -/
theorem step_autoReload (s : FileCache P M F T) (op : FileCache.Op P M F T) :
    (s.step op).autoReload = s.autoReload := by
  cases op with
  | entry p st o =>
    simp only [FileCache.step, FileCache.entry, FileCache.reload]
    repeat' split
    all_goals rfl
  | pin p => simp only [FileCache.step, FileCache.setPinState]; (repeat' split) <;> rfl
  | unpin p => simp only [FileCache.step, FileCache.setPinState]; (repeat' split) <;> rfl
  | evict p => simp only [FileCache.step, FileCache.evict]; (repeat' split) <;> rfl
  | initValue m t => rfl

theorem run_autoReload (s : FileCache P M F T) (ops : List (FileCache.Op P M F T)) :
    (s.run ops).autoReload = s.autoReload := by
  induction ops generalizing s with
  | nil => rfl
  | cons op t ih => exact (ih _).trans (step_autoReload s op)

theorem refers_iff {s : FileCache P M F T} {p : P} {m : M} :
    Refers s p m ↔ ∃ pe, s.cache.get p = some pe ∧ m ∈ pe.metas := by
  unfold Refers
  simp only [mem_metas]

/-- **C14** (reference counts).  After any history the reference count of a cached file
identity is the number of distinct paths that refer to it, and it is positive. -/
theorem C14_refcount (ar : Bool) (ops : List (FileCache.Op P M F T)) (s : FileCache P M F T)
    (h : Reachable ar ops s) (m : M) (e : Entry F T) (he : s.entries.get m = some e) :
    0 < e.references ∧
    ∃ ps : List P, ps.Nodup ∧ (∀ p, p ∈ ps ↔ Refers s p m) ∧ e.references = ps.length := by
  have hs := reachable_wf h
  have hp := hs.present m e he
  refine ⟨hp.2, (s.cache.pairs.filter (fun q => decide (m ∈ q.2.metas))).map Prod.fst, ?_, ?_, ?_⟩
  · exact List.Nodup.sublist (List.Sublist.map _ List.filter_sublist) hs.keysP
  · intro p
    rw [refers_iff]
    simp only [List.mem_map, List.mem_filter, decide_eq_true_eq, Prod.exists, exists_and_right,
      exists_eq_right]
    constructor
    · rintro ⟨pe, hm, hmm⟩
      exact ⟨pe, InsertMap.find_of_mem hs.keysP hm, hmm⟩
    · rintro ⟨pe, hm, hmm⟩
      exact ⟨pe, InsertMap.find_mem hm, hmm⟩
  · rw [hp.1, List.length_map, refCount, List.countP_eq_length_filter]

/-- **C14** (no dangling references, no leaks).  After any history a file identity is
cached exactly if some path refers to it. -/
theorem C14_cached_iff_referenced (ar : Bool) (ops : List (FileCache.Op P M F T))
    (s : FileCache P M F T) (h : Reachable ar ops s) (m : M) :
    (s.entries.get m).isSome ↔ ∃ p, Refers s p m := by
  have hs := reachable_wf h
  constructor
  · intro hi
    obtain ⟨e, he⟩ := Option.isSome_iff_exists.1 hi
    have hp := hs.present m e he
    obtain ⟨p, pe, h1, h2⟩ := exists_of_refCount_pos hs.keysP (m := m) (by omega)
    exact ⟨p, refers_iff.2 ⟨pe, h1, h2⟩⟩
  · rintro ⟨p, hr⟩
    obtain ⟨pe, h1, h2⟩ := refers_iff.1 hr
    cases hg : s.entries.get m with
    | some e => rfl
    | none =>
      have := hs.absent m hg
      have := refCount_pos_of h1 h2
      omega

/-- Result of `entry` on a path that will be looked up in the file system. -/
theorem entry_reload {s : FileCache P M F T} (p : P) (st : Except Err M) (o : Except Err F)
    (hnp : ∀ m, ¬ (Current s p true m)) (har : s.autoReload = true ∨ s.cache.get p = none) :
    (∀ e, (s.entry p st o).1 = .error e →
      (s.entry p st o).2 = s ∧
      (st = .error e ∨ ∃ m, st = .ok m ∧ s.entries.get m = none ∧ o = .error e)) ∧
    (∀ m e, (s.entry p st o).1 = .ok (m, e) →
      st = .ok m ∧ Current (s.entry p st o).2 p false m ∧
      ((∃ e0, s.entries.get m = some e0 ∧ e0.file = e.file ∧ e0.value = e.value) ∨
        (s.entries.get m = none ∧ o = .ok e.file ∧ e.value = none))) := by
  unfold FileCache.entry
  cases hc : s.cache.get p with
  | some pe =>
    have har : s.autoReload = true := by
      rcases har with h | h
      · exact h
      · rw [hc] at h; simp at h
    have key : ∀ r : Except Err (M × Entry F T) × FileCache P M F T,
        r = s.reload p pe st o →
        (∀ e, r.1 = .error e → r.2 = s ∧
          (st = .error e ∨ ∃ m, st = .ok m ∧ s.entries.get m = none ∧ o = .error e)) ∧
        (∀ m e, r.1 = .ok (m, e) → st = .ok m ∧ Current r.2 p false m ∧
          ((∃ e0, s.entries.get m = some e0 ∧ e0.file = e.file ∧ e0.value = e.value) ∨
            (s.entries.get m = none ∧ o = .ok e.file ∧ e.value = none))) := by
      rintro r rfl
      unfold FileCache.reload
      cases hg : s.getOrInsert pe st o with
      | error e =>
        refine ⟨?_, by intro m e' h; simp at h⟩
        intro e' he
        simp only [Except.error.injEq] at he
        subst he
        exact ⟨rfl, getOrInsert_error hg⟩
      | ok q =>
        obtain ⟨entries, pe', m⟩ := q
        obtain ⟨hst, hpe, hkn, e0, he0, hget⟩ := getOrInsert_ok hg
        have hm := hget m
        simp only [if_true] at hm
        simp only [hm]
        refine ⟨by intro e h; simp at h, ?_⟩
        intro m' e h
        simp only [Except.ok.injEq, Prod.mk.injEq] at h
        obtain ⟨rfl, rfl⟩ := h
        refine ⟨hst, ⟨pe', ?_, ?_⟩, ?_⟩
        · simp [InsertMap.get_update, hc]
        · rw [hpe]; unfold FileCache.switchTo; repeat' split
          all_goals rfl
        · rcases he0 with he0 | ⟨h1, h2, h3, h4⟩
          · exact Or.inl ⟨e0, he0, rfl, rfl⟩
          · exact Or.inr ⟨h1, h2, h4⟩
    cases hcur : pe.current with
    | none => simp only [hcur]; exact key _ rfl
    | some q =>
      obtain ⟨b, m⟩ := q
      have hb : b = false := by
        cases b with
        | false => rfl
        | true => exact absurd ⟨pe, hc, hcur⟩ (hnp m)
      subst hb
      have hcond : ¬ ((!s.autoReload || false) = true) := by simp [har]
      simp only [hcur]
      rw [if_neg hcond]
      exact key _ rfl
  | none =>
    simp only
    cases hg : s.getOrInsert PathEntry.default st o with
    | error e =>
      refine ⟨?_, by intro m e' h; simp at h⟩
      intro e' he
      simp only [Except.error.injEq] at he
      subst he
      exact ⟨rfl, getOrInsert_error hg⟩
    | ok q =>
      obtain ⟨entries, pe', m⟩ := q
      obtain ⟨hst, hpe, hkn, e0, he0, hget⟩ := getOrInsert_ok hg
      have hm := hget m
      simp only [if_true] at hm
      simp only [hm]
      refine ⟨by intro e h; simp at h, ?_⟩
      intro m' e h
      simp only [Except.ok.injEq, Prod.mk.injEq] at h
      obtain ⟨rfl, rfl⟩ := h
      refine ⟨hst, ⟨pe', ?_, ?_⟩, ?_⟩
      · simp [InsertMap.get_getOrInsert, hc]
      · rw [hpe]; rfl
      · rcases he0 with he0 | ⟨h1, h2, h3, h4⟩
        · exact Or.inl ⟨e0, he0, rfl, rfl⟩
        · exact Or.inr ⟨h1, h2, h4⟩

/-- Result of `entry` on a known path that is pinned, or in a cache without reloading. -/
theorem entry_keep {s : FileCache P M F T} (hs : WF s) (p : P) (st : Except Err M)
    (o : Except Err F) (b : Bool) (m : M) (hcur : Current s p b m)
    (hk : b = true ∨ s.autoReload = false) :
    ∃ e, s.entries.get m = some e ∧ s.entry p st o = (.ok (m, e), s) := by
  obtain ⟨pe, hc, hpe⟩ := hcur
  have hmem : m ∈ pe.metas := mem_metas.2 (Or.inl ⟨b, hpe⟩)
  cases hg : s.entries.get m with
  | none =>
    have := hs.absent m hg
    have := refCount_pos_of hc hmem
    omega
  | some e =>
    refine ⟨e, rfl, ?_⟩
    unfold FileCache.entry
    rw [hc]
    simp only [hpe]
    have : (!s.autoReload || b) = true := by rcases hk with h | h <;> simp [h]
    rw [if_pos this, hg]

/-- **C14** (no panic).  In every reachable state neither a lookup nor an eviction hits a
missing cache entry: a lookup fails only with the error of `stat` or `open`, an eviction
never. -/
theorem C14_no_panic (ar : Bool) (ops : List (FileCache.Op P M F T)) (s : FileCache P M F T)
    (h : Reachable ar ops s) (p : P) :
    (∀ st o e, (s.entry p st o).1 = .error e → st = .error e ∨ o = .error e) ∧
    (∃ b, (s.evict p).1 = .ok b) := by
  have hs := reachable_wf h
  refine ⟨?_, ?_⟩
  · intro st o e he
    by_cases hk : ∃ b m, Current s p b m ∧ (b = true ∨ s.autoReload = false)
    · obtain ⟨b, m, hc, hb⟩ := hk
      obtain ⟨e', _, h2⟩ := entry_keep hs p st o b m hc hb
      rw [h2] at he; simp at he
    · have hnp : ∀ m, ¬ Current s p true m := fun m hc => hk ⟨true, m, hc, Or.inl rfl⟩
      have har : s.autoReload = true ∨ s.cache.get p = none := by
        cases hc : s.cache.get p with
        | none => exact Or.inr rfl
        | some pe =>
          left
          have := hs.cur p pe hc
          obtain ⟨⟨b, m⟩, hbm⟩ := Option.isSome_iff_exists.1 this
          by_contra hne
          exact hk ⟨b, m, ⟨pe, hc, hbm⟩, Or.inr (by simpa using hne)⟩
      rcases ((entry_reload p st o hnp har).1 e he).2 with h | ⟨m, _, _, h⟩
      · exact Or.inl h
      · exact Or.inr h
  · cases hc : s.cache.get p with
    | none => exact ⟨false, by rw [evict_absent p hc]⟩
    | some pe =>
      obtain ⟨b, en, h1, _⟩ := evict_spec hs p pe hc
      exact ⟨b, by rw [h1]⟩

/-- **C14** (eviction).  After evicting `p` nothing refers to files through `p`; every
other path is exactly as before; a file is still cached exactly if another path refers to
it, with its handle and its memoized value unchanged; and the result says whether a file
that was cached no longer is. -/
theorem C14_evict (ar : Bool) (ops : List (FileCache.Op P M F T)) (s : FileCache P M F T)
    (h : Reachable ar ops s) (p : P) :
    (s.evict p).2.cache.get p = none ∧
    (∀ q, q ≠ p → (s.evict p).2.cache.get q = s.cache.get q) ∧
    (∀ m, ((s.evict p).2.entries.get m).isSome ↔ ∃ q, q ≠ p ∧ Refers s q m) ∧
    (∀ m e', (s.evict p).2.entries.get m = some e' →
      ∃ e, s.entries.get m = some e ∧ e.file = e'.file ∧ e.value = e'.value) ∧
    ((s.evict p).1 = .ok true ↔
      ∃ m, (s.entries.get m).isSome ∧ (s.evict p).2.entries.get m = none) := by
  have hs := reachable_wf h
  have hr' : Reachable ar (ops ++ [.evict p]) (s.evict p).2 := by
    unfold Reachable at *
    rw [run_append, ← h]
    rfl
  have hiff := fun m => C14_cached_iff_referenced ar _ _ hr' m
  cases hc : s.cache.get p with
  | none =>
    have he := evict_absent p hc
    rw [he] at hiff ⊢
    refine ⟨hc, fun _ _ => rfl, ?_, ?_, ?_⟩
    · intro m
      rw [hiff]
      constructor
      · rintro ⟨q, hq⟩
        refine ⟨q, ?_, hq⟩
        rintro rfl
        obtain ⟨pe, h1, _⟩ := hq
        rw [hc] at h1; simp at h1
      · rintro ⟨q, _, hq⟩; exact ⟨q, hq⟩
    · intro m e' he'; exact ⟨e', he', rfl, rfl⟩
    · constructor
      · intro h; simp at h
      · rintro ⟨m, h1, h2⟩; simp only at h2; rw [h2] at h1; simp at h1
  | some pe =>
    obtain ⟨b, en, h1, h2, h3, h4⟩ := evict_spec hs p pe hc
    rw [h1] at hiff ⊢
    refine ⟨by simp, fun q hq => by simp [hq], ?_, ?_, ?_⟩
    · intro m
      rw [hiff]
      constructor
      · rintro ⟨q, hq⟩
        obtain ⟨pe', hg, hm⟩ := hq
        simp only [InsertMap.get_remove] at hg
        split at hg
        · simp at hg
        · rename_i hne
          exact ⟨q, hne, pe', hg, hm⟩
      · rintro ⟨q, hne, pe', hg, hm⟩
        exact ⟨q, pe', by simp [hne, hg], hm⟩
    · intro m e' he'
      simp only at he'
      rw [h3] at he'
      split at he'
      · cases hg : s.entries.get m with
        | none => simp [hg] at he'
        | some e =>
          simp only [hg] at he'
          split at he'
          · simp at he'; subst he'; exact ⟨e, rfl, rfl, rfl⟩
          · simp at he'
      · exact ⟨e', he', rfl, rfl⟩
    · simp only [Except.ok.injEq]
      rw [h4]
      constructor
      · rintro ⟨m, hm, e, he, hle⟩
        refine ⟨m, by simp [he], ?_⟩
        rw [h3]; simp [hm, he]; omega
      · rintro ⟨m, hs1, hn⟩
        rw [h3] at hn
        split at hn
        · rename_i hm
          obtain ⟨e, he⟩ := Option.isSome_iff_exists.1 hs1
          refine ⟨m, hm, e, he, ?_⟩
          simp only [he] at hn
          split at hn
          · simp at hn
          · omega
        · rw [hn] at hs1; simp at hs1

/-- **C13** (current contents).  With reloading enabled, a successful lookup of a path that
is not pinned returns the entry of the identity `stat` reports at that very moment, and
makes it current; with reloading disabled the same holds for a path not known yet. -/
theorem C13_returns_present_identity (ar : Bool) (ops : List (FileCache.Op P M F T))
    (s : FileCache P M F T) (_h : Reachable ar ops s) (p : P) (st : Except Err M)
    (o : Except Err F) (m : M) (e : Entry F T)
    (hnp : ∀ m, ¬ Current s p true m) (har : s.autoReload = true ∨ s.cache.get p = none)
    (hok : (s.entry p st o).1 = .ok (m, e)) :
    st = .ok m ∧ Current (s.entry p st o).2 p false m := by
  have := (entry_reload p st o hnp har).2 m e hok
  exact ⟨this.1, this.2.1⟩

/-- **C13** (success).  Such a lookup succeeds whenever `stat` and `open` do. -/
theorem C13_lookup_succeeds (ar : Bool) (ops : List (FileCache.Op P M F T))
    (s : FileCache P M F T) (h : Reachable ar ops s) (p : P) (m : M) (f : F) :
    ∃ r, (s.entry p (.ok m) (.ok f)).1 = .ok r := by
  cases hr : (s.entry p (.ok m) (.ok f)).1 with
  | ok r => exact ⟨r, rfl⟩
  | error e =>
    rcases (C14_no_panic ar ops s h p).1 _ _ e hr with h | h <;> simp at h

/-- **C13** (failed lookups).  A lookup that fails leaves the cache exactly as it was. -/
theorem C13_failed_lookup_changes_nothing (ar : Bool) (ops : List (FileCache.Op P M F T))
    (s : FileCache P M F T) (h : Reachable ar ops s) (p : P) (st : Except Err M)
    (o : Except Err F) (err : Err) (herr : (s.entry p st o).1 = .error err) :
    (s.entry p st o).2 = s := by
  have hs := reachable_wf h
  by_cases hk : ∃ b m, Current s p b m ∧ (b = true ∨ s.autoReload = false)
  · obtain ⟨b, m, hc, hb⟩ := hk
    obtain ⟨e', _, h2⟩ := entry_keep hs p st o b m hc hb
    rw [h2]
  · have hnp : ∀ m, ¬ Current s p true m := fun m hc => hk ⟨true, m, hc, Or.inl rfl⟩
    have har : s.autoReload = true ∨ s.cache.get p = none := by
      cases hc : s.cache.get p with
      | none => exact Or.inr rfl
      | some pe =>
        left
        obtain ⟨⟨b, m⟩, hbm⟩ := Option.isSome_iff_exists.1 (hs.cur p pe hc)
        by_contra hne
        exact hk ⟨b, m, ⟨pe, hc, hbm⟩, Or.inr (by simpa using hne)⟩
    exact ((entry_reload p st o hnp har).1 err herr).1

/-- **C13** (pinned or not reloading).  A known path that is pinned, or any known path of a
cache without reloading, yields its current identity without consulting the file system and
without changing the cache. -/
theorem C13_pinned_is_returned (ar : Bool) (ops : List (FileCache.Op P M F T))
    (s : FileCache P M F T) (h : Reachable ar ops s) (p : P) (st : Except Err M)
    (o : Except Err F) (pinned : Bool) (m : M) (hcur : Current s p pinned m)
    (hk : pinned = true ∨ ar = false) :
    ∃ e, s.entries.get m = some e ∧ s.entry p st o = (.ok (m, e), s) := by
  have har : s.autoReload = ar := by rw [h, run_autoReload]; rfl
  exact entry_keep (reachable_wf h) p st o pinned m hcur (by rw [har]; exact hk)

/-- The entry at `m`, once there, keeps its file handle and memoized value as long as some
path keeps referring to it. -/
theorem step_keeps_entry {s : FileCache P M F T} (hs : WF s) (op : FileCache.Op P M F T) (m : M)
    (e : Entry F T) (he : s.entries.get m = some e) (e' : Entry F T)
    (he' : (s.step op).entries.get m = some e') :
    e'.file = e.file ∧ (∀ t, e.value = some t → e'.value = some t) := by
  cases op with
  | entry p st o =>
    simp only [FileCache.step, FileCache.entry, FileCache.reload] at he'
    have key : ∀ (pe : PathEntry M) entries pe' m', s.getOrInsert pe st o = .ok (entries, pe', m') →
        entries.get m = some e' → e'.file = e.file ∧ (∀ t, e.value = some t → e'.value = some t) := by
      intro pe entries pe' m' hg hx
      obtain ⟨_, _, _, e0, he0, hget⟩ := getOrInsert_ok hg
      rw [hget] at hx
      split at hx
      · rename_i hm; subst hm
        simp at hx; subst hx
        rcases he0 with he0 | ⟨hn, _⟩
        · rw [he] at he0; simp at he0; subst he0; exact ⟨rfl, fun _ h => h⟩
        · rw [he] at hn; simp at hn
      · rw [he] at hx; simp at hx; subst hx; exact ⟨rfl, fun _ h => h⟩
    have triv : s.entries.get m = some e' → e'.file = e.file ∧ (∀ t, e.value = some t → e'.value = some t) := by
      intro hx; rw [he] at hx; simp at hx; subst hx; exact ⟨rfl, fun _ h => h⟩
    cases hc : s.cache.get p with
    | none =>
      simp only [hc] at he'
      cases hg : s.getOrInsert PathEntry.default st o with
      | error x => simp only [hg] at he'; exact triv he'
      | ok r =>
        obtain ⟨entries, pe', m'⟩ := r
        simp only [hg] at he'
        cases hm : entries.get m' with
        | none => simp only [hm] at he'; exact key _ _ _ _ hg he'
        | some x => simp only [hm] at he'; exact key _ _ _ _ hg he'
    | some pe =>
      simp only [hc] at he'
      cases hcur : pe.current with
      | none =>
        simp only [hcur] at he'
        cases hg : s.getOrInsert pe st o with
        | error x => simp only [hg] at he'; exact triv he'
        | ok r =>
          obtain ⟨entries, pe', m'⟩ := r
          simp only [hg] at he'
          cases hm : entries.get m' with
          | none => simp only [hm] at he'; exact key _ _ _ _ hg he'
          | some x => simp only [hm] at he'; exact key _ _ _ _ hg he'
      | some q =>
        obtain ⟨b, mc⟩ := q
        simp only [hcur] at he'
        by_cases hb : (!s.autoReload || b) = true
        · rw [if_pos hb] at he'
          cases hm : s.entries.get mc with
          | none => simp only [hm] at he'; exact triv he'
          | some x => simp only [hm] at he'; exact triv he'
        · rw [if_neg hb] at he'
          cases hg : s.getOrInsert pe st o with
          | error x => simp only [hg] at he'; exact triv he'
          | ok r =>
            obtain ⟨entries, pe', m'⟩ := r
            simp only [hg] at he'
            cases hm : entries.get m' with
            | none => simp only [hm] at he'; exact key _ _ _ _ hg he'
            | some x => simp only [hm] at he'; exact key _ _ _ _ hg he'
  | pin p =>
    have : (s.setPinState p true).2.entries = s.entries := by
      unfold FileCache.setPinState; (repeat' split) <;> rfl
    simp only [FileCache.step, this] at he'
    rw [he] at he'; simp at he'; subst he'; exact ⟨rfl, fun _ h => h⟩
  | unpin p =>
    have : (s.setPinState p false).2.entries = s.entries := by
      unfold FileCache.setPinState; (repeat' split) <;> rfl
    simp only [FileCache.step, this] at he'
    rw [he] at he'; simp at he'; subst he'; exact ⟨rfl, fun _ h => h⟩
  | evict p =>
    simp only [FileCache.step] at he'
    cases hc : s.cache.get p with
    | none =>
      rw [evict_absent p hc] at he'
      simp only at he'
      rw [he] at he'; simp at he'; subst he'; exact ⟨rfl, fun _ h => h⟩
    | some pe =>
      obtain ⟨b, en, h1, h2, h3, h4⟩ := evict_spec hs p pe hc
      rw [h1] at he'
      simp only at he'
      rw [h3, he] at he'
      split at he'
      · simp only at he'
        split at he'
        · simp at he'; subst he'; exact ⟨rfl, fun _ h => h⟩
        · simp at he'
      · simp at he'; subst he'; exact ⟨rfl, fun _ h => h⟩
  | initValue m' t =>
    simp only [FileCache.step, FileCache.initValue, InsertMap.get_update, he] at he'
    split at he'
    · simp at he'; subst he'
      refine ⟨rfl, ?_⟩
      intro t' ht
      simp [ht]
    · simp at he'; subst he'; exact ⟨rfl, fun _ h => h⟩

/-- A pinned path stays current through any call other than its eviction or unpinning; in a
cache without reloading it does so through any call but its eviction. -/
theorem step_keeps_current {s : FileCache P M F T} (hs : WF s) (op : FileCache.Op P M F T) (p : P)
    (b : Bool) (m : M) (hcur : Current s p b m)
    (hk : (b = true ∧ ¬ TouchesPin p op) ∨ (s.autoReload = false ∧ ¬ Evicts p op)) :
    ∃ b', Current (s.step op) p b' m ∧ (b' = true ∨ s.autoReload = false) := by
  obtain ⟨pe, hc, hpe⟩ := hcur
  have hk' : b = true ∨ s.autoReload = false := hk.elim (fun h => Or.inl h.1) (fun h => Or.inr h.1)
  cases op with
  | entry q st o =>
    simp only [FileCache.step]
    by_cases hq : q = p
    · subst hq
      obtain ⟨e, _, h2⟩ := entry_keep hs q st o b m ⟨pe, hc, hpe⟩ hk'
      rw [h2]
      exact ⟨b, ⟨pe, hc, hpe⟩, hk'⟩
    · refine ⟨b, ⟨pe, ?_, hpe⟩, hk'⟩
      have hne : p ≠ q := Ne.symm hq
      unfold FileCache.entry FileCache.reload
      repeat' split
      all_goals first
        | exact hc
        | (simp only [InsertMap.get_update, InsertMap.get_getOrInsert, hne, if_false]; exact hc)
  | pin q =>
    simp only [FileCache.step, FileCache.setPinState]
    by_cases hq : q = p
    · subst hq
      simp only [hc, hpe]
      exact ⟨true, ⟨{ pe with current := some (true, m) }, by simp [hc], rfl⟩, Or.inl rfl⟩
    · refine ⟨b, ⟨pe, ?_, hpe⟩, hk'⟩
      have hne : p ≠ q := Ne.symm hq
      repeat' split
      all_goals first
        | exact hc
        | (simp only [InsertMap.get_update, hne, if_false]; exact hc)
  | unpin q =>
    simp only [FileCache.step, FileCache.setPinState]
    by_cases hq : q = p
    · subst hq
      rcases hk with ⟨_, h⟩ | ⟨har, _⟩
      · exact absurd rfl h
      · simp only [hc, hpe]
        exact ⟨false, ⟨{ pe with current := some (false, m) }, by simp [hc], rfl⟩, Or.inr har⟩
    · refine ⟨b, ⟨pe, ?_, hpe⟩, hk'⟩
      have hne : p ≠ q := Ne.symm hq
      repeat' split
      all_goals first
        | exact hc
        | (simp only [InsertMap.get_update, hne, if_false]; exact hc)
  | evict q =>
    by_cases hq : q = p
    · subst hq
      rcases hk with ⟨_, h⟩ | ⟨_, h⟩
      · exact absurd rfl h
      · exact absurd rfl h
    · refine ⟨b, ⟨pe, ?_, hpe⟩, hk'⟩
      have hne : p ≠ q := Ne.symm hq
      simp only [FileCache.step]
      cases hcq : s.cache.get q with
      | none => rw [evict_absent q hcq]; exact hc
      | some pq =>
        obtain ⟨b2, en, h1, _⟩ := evict_spec hs q pq hcq
        rw [h1]; simp [hne, hc]
  | initValue m' t => exact ⟨b, ⟨pe, hc, hpe⟩, hk'⟩

/-- **C13** (pinning lasts).  From the moment a path is pinned at identity `m`, through any
history without an eviction or unpinning of that path, and whatever happens to the file,
lookups keep returning the entry of `m`, with the same file handle and, once memoized, the
same value.  The same holds for known paths of a cache without reloading, through any
history without an eviction of that path. -/
theorem C13_pinned_stays (ar : Bool) (ops later : List (FileCache.Op P M F T))
    (s : FileCache P M F T) (h : Reachable ar ops s) (p : P) (pinned : Bool) (m : M) (e : Entry F T)
    (hcur : Current s p pinned m) (he : s.entries.get m = some e)
    (hk : (pinned = true ∧ ∀ op ∈ later, ¬ TouchesPin p op) ∨
      (ar = false ∧ ∀ op ∈ later, ¬ Evicts p op))
    (st : Except Err M) (o : Except Err F) :
    ∃ e', ((s.run later).entry p st o) = (.ok (m, e'), s.run later) ∧ e'.file = e.file ∧
      (∀ t, e.value = some t → e'.value = some t) := by
  have har : s.autoReload = ar := by rw [h, run_autoReload]; rfl
  have hs := reachable_wf h
  clear h
  subst har
  induction later generalizing s pinned e with
  | nil =>
    obtain ⟨e', h1, h2⟩ := entry_keep hs p st o pinned m hcur
      (hk.elim (fun h => Or.inl h.1) (fun h => Or.inr h.1))
    rw [he] at h1; simp at h1; subst h1
    exact ⟨e, h2, rfl, fun _ h => h⟩
  | cons op t ih =>
    obtain ⟨b', hc', hb'⟩ := step_keeps_current hs op p pinned m hcur
      (hk.elim (fun h => Or.inl ⟨h.1, h.2 op (by simp)⟩) (fun h => Or.inr ⟨h.1, h.2 op (by simp)⟩))
    have hs' := step_wf hs op
    have har' := step_autoReload s op
    have he' : ∃ e', (s.step op).entries.get m = some e' := by
      cases hg : (s.step op).entries.get m with
      | some e' => exact ⟨e', rfl⟩
      | none =>
        obtain ⟨pe, h1, h2⟩ := hc'
        have := hs'.absent m hg
        have := refCount_pos_of h1 (mem_metas.2 (Or.inl ⟨b', h2⟩))
        omega
    obtain ⟨e', he'⟩ := he'
    obtain ⟨hf, hv⟩ := step_keeps_entry hs op m e he e' he'
    have hk' : (b' = true ∧ ∀ op ∈ t, ¬ TouchesPin p op) ∨
        ((s.step op).autoReload = false ∧ ∀ op ∈ t, ¬ Evicts p op) := by
      rw [har']
      rcases hk with ⟨_, h2⟩ | ⟨h1, h2⟩
      · rcases hb' with hb' | hb'
        · exact Or.inl ⟨hb', fun o ho => h2 o (by simp [ho])⟩
        · right
          refine ⟨hb', fun o ho hev => h2 o (by simp [ho]) ?_⟩
          cases o <;> simp_all [Evicts, TouchesPin]
      · exact Or.inr ⟨h1, fun o ho => h2 o (by simp [ho])⟩
    obtain ⟨e2, h1, h2, h3⟩ := ih (s.step op) b' e' hc' he' hs' hk'
    exact ⟨e2, h1, h2.trans hf, fun t ht => h3 t (hv t ht)⟩

/-- **C13** (no mix-up).  Whatever identity a lookup returns, the file handle in the
returned entry was opened by a lookup that saw exactly this identity at that time, and a
memoized value was stored for exactly this identity. -/
theorem C13_entry_belongs_to_identity (ar : Bool) (ops : List (FileCache.Op P M F T))
    (s : FileCache P M F T) (h : Reachable ar ops s) (p : P) (st : Except Err M)
    (o : Except Err F) (m : M) (e : Entry F T) (hok : (s.entry p st o).1 = .ok (m, e)) :
    OpenedAs (ops ++ [.entry p st o]) m e.file ∧
    (∀ t, e.value = some t → FileCache.Op.initValue m t ∈ ops) := by
  -- every entry of a reachable state was opened for its identity
  have inv : ∀ (ops : List (FileCache.Op P M F T)) m e,
      ((FileCache.new ar).run ops).entries.get m = some e →
      OpenedAs ops m e.file ∧ (∀ t, e.value = some t → FileCache.Op.initValue m t ∈ ops) := by
    intro ops
    induction ops using List.reverseRecOn with
    | nil => intro m e he; simp [FileCache.run, FileCache.new, InsertMap.get, InsertMap.find] at he
    | append_singleton ops op ih =>
      intro m e' he'
      have hstep : (FileCache.new ar).run (ops ++ [op]) = ((FileCache.new ar).run ops).step op := by
        simp [FileCache.run, List.foldl_append]
      rw [hstep] at he'
      have hs := run_wf (wf_new ar) ops
      have hmono : ∀ f, OpenedAs ops m f → OpenedAs (ops ++ [op]) m f := by
        rintro f ⟨q, hq⟩; exact ⟨q, by simp [hq]⟩
      cases hg : ((FileCache.new ar).run ops).entries.get m with
      | some e =>
        obtain ⟨hf, hv⟩ := step_keeps_entry hs op m e hg e' he'
        obtain ⟨h1, h2⟩ := ih m e hg
        refine ⟨hf ▸ hmono _ h1, ?_⟩
        intro t ht
        cases hev : e.value with
        | some t0 =>
          have := hv t0 hev
          rw [this] at ht; simp at ht; subst ht
          simp [h2 t0 hev]
        | none =>
          -- the value was set by this very step
          generalize (FileCache.new ar).run ops = s at *
          cases op with
          | initValue m' t' =>
            simp only [FileCache.step, FileCache.initValue, InsertMap.get_update, hg] at he'
            split at he'
            · rename_i hm; subst hm
              simp at he'; subst he'
              simp [hev] at ht; subst ht; simp
            · simp at he'; subst he'; rw [hev] at ht; simp at ht
          | pin q =>
            have : (s.setPinState q true).2.entries = s.entries := by
              unfold FileCache.setPinState; (repeat' split) <;> rfl
            simp only [FileCache.step, this] at he'
            rw [hg] at he'; simp at he'; subst he'; rw [hev] at ht; simp at ht
          | unpin q =>
            have : (s.setPinState q false).2.entries = s.entries := by
              unfold FileCache.setPinState; (repeat' split) <;> rfl
            simp only [FileCache.step, this] at he'
            rw [hg] at he'; simp at he'; subst he'; rw [hev] at ht; simp at ht
          | evict q =>
            simp only [FileCache.step] at he'
            cases hc : s.cache.get q with
            | none =>
              rw [evict_absent q hc] at he'
              simp only at he'
              rw [hg] at he'; simp at he'; subst he'; rw [hev] at ht; simp at ht
            | some pe =>
              obtain ⟨b, en, h1, h2, h3, h4⟩ := evict_spec hs q pe hc
              rw [h1] at he'
              simp only at he'
              rw [h3, hg] at he'
              split at he'
              · simp only at he'
                split at he'
                · simp at he'; subst he'; rw [show _ = e.value from rfl, hev] at ht; simp at ht
                · simp at he'
              · simp at he'; subst he'; rw [hev] at ht; simp at ht
          | entry q st o =>
            exfalso
            simp only [FileCache.step, FileCache.entry, FileCache.reload] at he'
            have key : ∀ (pe : PathEntry M) entries pe' m', s.getOrInsert pe st o = .ok (entries, pe', m') →
                entries.get m = some e' → False := by
              intro pe entries pe' m' hgi hx
              obtain ⟨_, _, _, e0, he0, hget⟩ := getOrInsert_ok hgi
              rw [hget] at hx
              split at hx
              · rename_i hm; subst hm
                simp at hx; subst hx
                rcases he0 with he0 | ⟨hn, _⟩
                · rw [hg] at he0; simp at he0; subst he0
                  simp [hev] at ht
                · rw [hg] at hn; simp at hn
              · rw [hg] at hx; simp at hx; subst hx; rw [hev] at ht; simp at ht
            have triv : s.entries.get m = some e' → False := by
              intro hx; rw [hg] at hx; simp at hx; subst hx; rw [hev] at ht; simp at ht
            revert he'
            repeat' split
            all_goals intro he'
            all_goals first
              | exact triv he'
              | (rename_i hgi _ _ _; exact key _ _ _ _ hgi he')
              | (rename_i hgi _ _; exact key _ _ _ _ hgi he')
              | (rename_i hgi _; exact key _ _ _ _ hgi he')
      | none =>
        -- the entry was created by this very step, hence by a lookup
        generalize (FileCache.new ar).run ops = s at *
        cases op with
        | initValue m' t' =>
          simp only [FileCache.step, FileCache.initValue, InsertMap.get_update, hg] at he'
          simp at he'
        | pin q =>
          have : (s.setPinState q true).2.entries = s.entries := by
            unfold FileCache.setPinState; (repeat' split) <;> rfl
          simp only [FileCache.step, this] at he'
          rw [hg] at he'; simp at he'
        | unpin q =>
          have : (s.setPinState q false).2.entries = s.entries := by
            unfold FileCache.setPinState; (repeat' split) <;> rfl
          simp only [FileCache.step, this] at he'
          rw [hg] at he'; simp at he'
        | evict q =>
          simp only [FileCache.step] at he'
          cases hc : s.cache.get q with
          | none =>
            rw [evict_absent q hc] at he'
            simp only at he'
            rw [hg] at he'; simp at he'
          | some pe =>
            obtain ⟨b, en, h1, h2, h3, h4⟩ := evict_spec hs q pe hc
            rw [h1] at he'
            simp only at he'
            rw [h3, hg] at he'
            simp at he'
        | entry q st o =>
          simp only [FileCache.step, FileCache.entry, FileCache.reload] at he'
          have key : ∀ (pe : PathEntry M) entries pe' m', s.getOrInsert pe st o = .ok (entries, pe', m') →
              entries.get m = some e' →
              OpenedAs (ops ++ [FileCache.Op.entry q st o]) m e'.file ∧
                (∀ t, e'.value = some t → FileCache.Op.initValue m t ∈ ops ++ [FileCache.Op.entry q st o]) := by
            intro pe entries pe' m' hgi hx
            obtain ⟨hst, _, _, e0, he0, hget⟩ := getOrInsert_ok hgi
            rw [hget] at hx
            split at hx
            · rename_i hm; subst hm
              simp at hx; subst hx
              rcases he0 with he0 | ⟨hn, ho, _, hv⟩
              · rw [hg] at he0; simp at he0
              · subst hst; subst ho
                refine ⟨⟨q, by simp⟩, ?_⟩
                intro t ht; simp [hv] at ht
            · rw [hg] at hx; simp at hx
          have triv : s.entries.get m = some e' → False := by
            intro hx; rw [hg] at hx; simp at hx
          revert he'
          repeat' split
          all_goals intro he'
          all_goals first
            | exact (triv he').elim
            | (rename_i hgi _ _ _; exact key _ _ _ _ hgi he')
            | (rename_i hgi _ _; exact key _ _ _ _ hgi he')
            | (rename_i hgi _; exact key _ _ _ _ hgi he')
  have hfin : (s.entry p st o).2.entries.get m = some e := by
    have hs := reachable_wf h
    by_cases hk : ∃ b m, Current s p b m ∧ (b = true ∨ s.autoReload = false)
    · obtain ⟨b, m', hc, hb⟩ := hk
      obtain ⟨e', h1, h2⟩ := entry_keep hs p st o b m' hc hb
      rw [h2] at hok ⊢
      simp at hok
      obtain ⟨rfl, rfl⟩ := hok
      exact h1
    · revert hok
      unfold FileCache.entry FileCache.reload
      repeat' split
      all_goals intro hok
      all_goals simp only [Except.ok.injEq, Prod.mk.injEq, reduceCtorEq] at hok
      all_goals obtain ⟨rfl, rfl⟩ := hok
      all_goals assumption
  have hstep : (s.entry p st o).2 = (FileCache.new ar).run (ops ++ [.entry p st o]) := by
    rw [run_append, ← h]
    rfl
  rw [hstep] at hfin
  obtain ⟨h1, h2⟩ := inv _ m e hfin
  refine ⟨h1, ?_⟩
  intro t ht
  have := h2 t ht
  simpa using this

/-- **C14** (memoized values).  A value once memoized for an identity is never replaced
while the identity stays cached, whatever calls follow. -/
theorem C14_value_stable (ar : Bool) (ops : List (FileCache.Op P M F T)) (s : FileCache P M F T)
    (h : Reachable ar ops s) (op : FileCache.Op P M F T) (m : M) (e e' : Entry F T)
    (he : s.entries.get m = some e) (he' : (s.step op).entries.get m = some e') :
    e'.file = e.file ∧ (∀ t, e.value = some t → e'.value = some t) :=
  step_keeps_entry (reachable_wf h) op m e he e' he'

/-- A history with two paths reaching one file, a replaced file, pinning and eviction. -/
def sampleOps : List (FileCache.Op Nat Nat Nat Nat) :=
  [.entry 1 (.ok 10) (.ok 100), .entry 2 (.ok 10) (.ok 101), .initValue 10 7,
   .entry 1 (.ok 11) (.ok 102), .pin 1, .entry 1 (.ok 12) (.ok 103)]

example :
    let s := (FileCache.new true : FileCache Nat Nat Nat Nat).run sampleOps
    s.entries.get 10 = some ⟨2, 100, some 7⟩ ∧ s.entries.get 11 = some ⟨1, 102, none⟩ ∧
    s.entries.get 12 = none ∧ (s.entry 1 (.ok 13) (.ok 104)).1 = .ok (11, ⟨1, 102, none⟩) ∧
    (s.evict 1).1 = .ok true ∧ (s.evict 1).2.entries.get 10 = some ⟨1, 100, some 7⟩ ∧
    (s.evict 1).2.entries.get 11 = none := by
  refine ⟨?_, ?_, ?_, ?_, ?_, ?_, ?_⟩ <;> rfl

/-- Path 1 of the sample is pinned at identity 11, so `C13_pinned_stays` applies to it. -/
example : Current ((FileCache.new true : FileCache Nat Nat Nat Nat).run sampleOps) 1 true 11 :=
  ⟨⟨some (true, 11), [10]⟩, rfl, rfl⟩

end Blazesym.Cache
