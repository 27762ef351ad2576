import Verif.Cache.FileCache
import Verif.Cache.InsertMapLemmas

/-! # Invariant of the file cache -/

set_option autoImplicit false

namespace Blazesym.Cache

universe u v w x

variable {P : Type u} {M : Type v} {F : Type w} {T : Type x} [DecidableEq P] [DecidableEq M]

/-- Number of path entries that refer to `m`. -/
def refCount (c : InsertMap P (PathEntry M)) (m : M) : Nat :=
  c.pairs.countP (fun q => decide (m ∈ q.2.metas))

/-- The invariant. -/
structure WF (s : FileCache P M F T) : Prop where
  keysP : s.cache.KeysNodup
  keysM : s.entries.KeysNodup
  cur : ∀ p pe, s.cache.get p = some pe → pe.current.isSome
  prev : ∀ p pe, s.cache.get p = some pe → pe.previous.Nodup
  present : ∀ m e, s.entries.get m = some e → e.references = refCount s.cache m ∧ 0 < e.references
  absent : ∀ m, s.entries.get m = none → refCount s.cache m = 0

theorem metas_nodup {pe : PathEntry M} (h : pe.previous.Nodup) : pe.metas.Nodup := by
  unfold PathEntry.metas
  split
  · split
    · exact h
    · rename_i hm
      rw [List.nodup_append]
      refine ⟨h, by simp, ?_⟩
      intro a ha b hb
      simp at hb
      subst hb
      exact fun e => hm (e ▸ ha)
  · exact h

theorem mem_metas {pe : PathEntry M} {m : M} :
    m ∈ pe.metas ↔ (∃ b, pe.current = some (b, m)) ∨ m ∈ pe.previous := by
  unfold PathEntry.metas
  cases h : pe.current with
  | none => simp
  | some q =>
    obtain ⟨b, c⟩ := q
    simp only
    split
    · rename_i hc
      constructor
      · intro hm; exact Or.inr hm
      · rintro (⟨b', hb⟩ | hm)
        · simp at hb; rw [← hb.2]; exact hc
        · exact hm
    · simp only [List.mem_append, List.mem_singleton, Option.some.injEq, Prod.mk.injEq]
      constructor
      · rintro (hm | hm)
        · exact Or.inr hm
        · exact Or.inl ⟨b, rfl, hm.symm⟩
      · rintro (⟨b', _, hb⟩ | hm)
        · exact Or.inr hb.symm
        · exact Or.inl hm

theorem refCount_pos_of {c : InsertMap P (PathEntry M)} {p : P} {pe : PathEntry M} {m : M}
    (h : c.get p = some pe) (hm : m ∈ pe.metas) : 0 < refCount c m := by
  unfold refCount
  rw [List.countP_pos_iff]
  exact ⟨(p, pe), InsertMap.find_mem h, by simpa using hm⟩

theorem exists_of_refCount_pos {c : InsertMap P (PathEntry M)} (hk : c.KeysNodup) {m : M}
    (h : 0 < refCount c m) : ∃ p pe, c.get p = some pe ∧ m ∈ pe.metas := by
  unfold refCount at h
  rw [List.countP_pos_iff] at h
  obtain ⟨⟨p, pe⟩, hm, hp⟩ := h
  exact ⟨p, pe, InsertMap.find_of_mem hk hm, by simpa using hp⟩

/-- The pure part of `get_or_insert`. -/
theorem switchTo_spec (pe : PathEntry M) (hp : pe.previous.Nodup) (m : M) :
    (∀ x, x ∈ (FileCache.switchTo pe m).1.metas ↔ x ∈ pe.metas ∨ x = m) ∧
    (FileCache.switchTo pe m).2 = decide (m ∉ pe.metas) ∧
    (FileCache.switchTo pe m).1.current = some (false, m) ∧
    (FileCache.switchTo pe m).1.previous.Nodup := by
  unfold FileCache.switchTo
  cases h : pe.current with
  | none =>
    refine ⟨?_, ?_, rfl, hp⟩
    · intro x
      rw [mem_metas, mem_metas]
      simp [h]
      tauto
    · simp [mem_metas, h]
  | some q =>
    obtain ⟨b, cur⟩ := q
    simp only
    by_cases hc : cur = m
    · subst hc
      rw [if_pos rfl]
      refine ⟨?_, ?_, rfl, hp⟩
      · intro x
        rw [mem_metas, mem_metas]
        simp [h]
        tauto
      · simp [mem_metas, h]
    · rw [if_neg hc]
      refine ⟨?_, ?_, rfl, ?_⟩
      · intro x
        rw [mem_metas, mem_metas]
        simp only [h]
        split
        · rename_i hm
          simp only [Option.some.injEq, Prod.mk.injEq]
          constructor
          · rintro (⟨_, _, rfl⟩ | hx)
            · exact Or.inr rfl
            · exact Or.inl (Or.inr hx)
          · rintro ((⟨_, _, rfl⟩ | hx) | rfl)
            · exact Or.inr hm
            · exact Or.inr hx
            · exact Or.inl ⟨false, rfl, rfl⟩
        · simp only [Option.some.injEq, Prod.mk.injEq, List.mem_append, List.mem_singleton]
          constructor
          · rintro (⟨_, _, rfl⟩ | hx | rfl)
            · exact Or.inr rfl
            · exact Or.inl (Or.inr hx)
            · exact Or.inl (Or.inl ⟨b, rfl, rfl⟩)
          · rintro ((⟨_, _, rfl⟩ | hx) | rfl)
            · exact Or.inr (Or.inr rfl)
            · exact Or.inr (Or.inl hx)
            · exact Or.inl ⟨false, rfl, rfl⟩
      · congr 1
        simp only [mem_metas, h, eq_iff_iff]
        split
        · rename_i hm
          simp only [Option.some.injEq, Prod.mk.injEq, hc, and_false, exists_false, false_or]
        · simp only [Option.some.injEq, Prod.mk.injEq, hc, and_false, exists_false, false_or,
            List.mem_append, List.mem_singleton]
          simp [Ne.symm hc]
      · split
        · exact hp
        · rename_i hm
          rw [List.nodup_append]
          refine ⟨hp, by simp, ?_⟩
          intro a ha b hb
          simp at hb
          subst hb
          exact fun e => hm (e ▸ ha)

/-- What `get_or_insert` does on success. -/
theorem getOrInsert_ok {s : FileCache P M F T} {pe : PathEntry M} {stat : Except Err M}
    {opened : Except Err F} {entries : InsertMap M (Entry F T)} {pe' : PathEntry M} {m : M}
    (h : s.getOrInsert pe stat opened = .ok (entries, pe', m)) :
    stat = .ok m ∧ pe' = (FileCache.switchTo pe m).1 ∧
    (s.entries.KeysNodup → entries.KeysNodup) ∧
    ∃ e0 : Entry F T,
      (s.entries.get m = some e0 ∨
        (s.entries.get m = none ∧ opened = .ok e0.file ∧ e0.references = 0 ∧ e0.value = none)) ∧
      ∀ x, entries.get x = if x = m then
          some { e0 with references := e0.references + if (FileCache.switchTo pe m).2 then 1 else 0 }
        else s.entries.get x := by
  unfold FileCache.getOrInsert at h
  cases stat with
  | error e => simp at h
  | ok m0 =>
    simp only at h
    cases hg : s.entries.get m0 with
    | some e0 =>
      have hgt : s.entries.getOrTryInsert m0 (fun _ => opened.map (fun f => (⟨0, f, none⟩ : Entry F T))) =
          (.ok e0, s.entries) := by
        unfold InsertMap.getOrTryInsert
        rw [show InsertMap.find s.entries.pairs m0 = some e0 from hg]
      rw [hgt] at h
      simp only [Except.ok.injEq, Prod.mk.injEq] at h
      obtain ⟨h1, h2, h3⟩ := h
      subst h3
      refine ⟨rfl, h2.symm, ?_, e0, Or.inl hg, ?_⟩
      · intro hk
        rw [← h1]
        split
        · exact InsertMap.keysNodup_update hk _ _
        · exact hk
      · intro x
        rw [← h1]
        split
        · rw [InsertMap.get_update]
          by_cases hx : x = m0
          · subst hx; simp [hg]
          · simp [hx]
        · by_cases hx : x = m0
          · subst hx; simp [hg]
          · simp [hx]
    | none =>
      cases opened with
      | error e =>
        simp only [Except.map, InsertMap.getOrTryInsert] at h
        rw [show InsertMap.find s.entries.pairs m0 = none from hg] at h
        simp at h
      | ok f =>
        simp only [Except.map, InsertMap.getOrTryInsert] at h
        rw [show InsertMap.find s.entries.pairs m0 = none from hg] at h
        simp only [Except.ok.injEq, Prod.mk.injEq] at h
        obtain ⟨h1, h2, h3⟩ := h
        subst h3
        refine ⟨rfl, h2.symm, ?_, ⟨0, f, none⟩, Or.inr ⟨hg, rfl, rfl, rfl⟩, ?_⟩
        · intro hk
          have hk' := InsertMap.keysNodup_cons hk hg (⟨0, f, none⟩ : Entry F T)
          rw [← h1]
          split
          · exact InsertMap.keysNodup_update hk' _ _
          · exact hk'
        · have hfind : ∀ x, InsertMap.get (⟨(m0, (⟨0, f, none⟩ : Entry F T)) :: s.entries.pairs⟩) x =
              if x = m0 then some ⟨0, f, none⟩ else s.entries.get x := by
            intro x
            unfold InsertMap.get
            by_cases hx : x = m0
            · subst hx; simp [InsertMap.find]
            · simp [InsertMap.find, hx, Ne.symm hx]
          intro x
          rw [← h1]
          split
          · rw [InsertMap.get_update]
            by_cases hx : x = m0
            · subst hx; simp [hfind]
            · simp [hx, hfind]
          · by_cases hx : x = m0
            · subst hx; simp [hfind]
            · simp [hx, hfind]

/-- When `get_or_insert` fails. -/
theorem getOrInsert_error {s : FileCache P M F T} {pe : PathEntry M} {stat : Except Err M}
    {opened : Except Err F} {e : Err} (h : s.getOrInsert pe stat opened = .error e) :
    stat = .error e ∨ ∃ m, stat = .ok m ∧ s.entries.get m = none ∧ opened = .error e := by
  unfold FileCache.getOrInsert at h
  cases stat with
  | error e' => left; simpa using h
  | ok m0 =>
    right
    refine ⟨m0, rfl, ?_⟩
    simp only at h
    cases hg : s.entries.get m0 with
    | some e0 =>
      unfold InsertMap.getOrTryInsert at h
      rw [show InsertMap.find s.entries.pairs m0 = some e0 from hg] at h
      simp at h
    | none =>
      refine ⟨rfl, ?_⟩
      cases opened with
      | error e' =>
        simp only [Except.map, InsertMap.getOrTryInsert] at h
        rw [show InsertMap.find s.entries.pairs m0 = none from hg] at h
        simpa using h
      | ok f =>
        simp only [Except.map, InsertMap.getOrTryInsert] at h
        rw [show InsertMap.find s.entries.pairs m0 = none from hg] at h
        simp at h

theorem refCount_update {c : InsertMap P (PathEntry M)} (hk : c.KeysNodup) {p : P}
    {pe pe' : PathEntry M} (h : c.get p = some pe) (m : M) :
    refCount (c.update p (fun _ => pe')) m + (if m ∈ pe.metas then 1 else 0) =
      refCount c m + (if m ∈ pe'.metas then 1 else 0) := by
  have := InsertMap.countP_update (k := p) (v := pe) hk h (fun _ => pe') (fun q => decide (m ∈ q.metas))
  simpa [refCount, InsertMap.update] using this

theorem refCount_remove {c : InsertMap P (PathEntry M)} (hk : c.KeysNodup) {p : P}
    {pe : PathEntry M} (h : c.get p = some pe) (m : M) :
    refCount (c.remove p).2 m + (if m ∈ pe.metas then 1 else 0) = refCount c m := by
  have := InsertMap.countP_erase (k := p) (v := pe) hk h (fun q => decide (m ∈ q.metas))
  simpa [refCount, InsertMap.remove] using this

theorem refCount_insert {c : InsertMap P (PathEntry M)} {p : P} {pe : PathEntry M}
    (h : c.get p = none) (m : M) :
    refCount (c.getOrInsert p pe).2 m = refCount c m + (if m ∈ pe.metas then 1 else 0) := by
  unfold refCount InsertMap.getOrInsert
  rw [show InsertMap.find c.pairs p = none from h]
  simp [List.countP_cons]

/-- Loop of `evict`. -/
theorem dropRefs_spec (ms : List M) (hn : ms.Nodup) (en : InsertMap M (Entry F T)) (b : Bool)
    (hk : en.KeysNodup) (hp : ∀ m ∈ ms, ∃ e, en.get m = some e) :
    ∃ b' en', FileCache.dropRefs ms en b = .ok (b', en') ∧ en'.KeysNodup ∧
      (∀ x, en'.get x = if x ∈ ms then
          (match en.get x with
            | some e => if e.references > 1 then some { e with references := e.references - 1 } else none
            | none => none)
        else en.get x) ∧
      (b' = true ↔ b = true ∨ ∃ m ∈ ms, ∃ e, en.get m = some e ∧ e.references ≤ 1) := by
  induction ms generalizing en b with
  | nil => exact ⟨b, en, rfl, hk, by simp, by simp⟩
  | cons m ms ih =>
    obtain ⟨e, he⟩ := hp m (by simp)
    simp only [List.nodup_cons] at hn
    unfold FileCache.dropRefs
    rw [he]
    simp only
    by_cases hr : e.references > 1
    · rw [if_pos hr]
      obtain ⟨b', en', h1, h2, h3, h4⟩ := ih hn.2
        (en.update m (fun e => { e with references := e.references - 1 })) b
        (InsertMap.keysNodup_update hk _ _) (by
          intro x hx
          have hxm : x ≠ m := fun e => hn.1 (e ▸ hx)
          rw [InsertMap.get_update]; simp [hxm]
          exact hp x (by simp [hx]))
      refine ⟨b', en', h1, h2, ?_, ?_⟩
      · intro x
        rw [h3]
        by_cases hxm : x = m
        · subst hxm
          simp [hn.1, he, hr]
        · simp [hxm]
      · rw [h4]
        constructor
        · rintro (h | ⟨x, hx, e', hg, hle⟩)
          · exact Or.inl h
          · right
            have hxm : x ≠ m := fun e => hn.1 (e ▸ hx)
            rw [InsertMap.get_update] at hg
            simp [hxm] at hg
            exact ⟨x, by simp [hx], e', hg, hle⟩
        · rintro (h | ⟨x, hx, e', hg, hle⟩)
          · exact Or.inl h
          · rcases List.mem_cons.1 hx with rfl | hx
            · rw [he] at hg; simp at hg; subst hg; omega
            · right
              have hxm : x ≠ m := fun e => hn.1 (e ▸ hx)
              refine ⟨x, hx, e', ?_, hle⟩
              rw [InsertMap.get_update]; simp [hxm, hg]
    · rw [if_neg hr]
      obtain ⟨b', en', h1, h2, h3, h4⟩ := ih hn.2 (en.remove m).2 true
        (InsertMap.keysNodup_remove hk _) (by
          intro x hx
          have hxm : x ≠ m := fun e => hn.1 (e ▸ hx)
          rw [InsertMap.get_remove]; simp [hxm]
          exact hp x (by simp [hx]))
      refine ⟨b', en', h1, h2, ?_, ?_⟩
      · intro x
        rw [h3]
        by_cases hxm : x = m
        · subst hxm
          simp [hn.1, he, hr]
        · simp [hxm]
      · rw [h4]
        simp only [true_or, true_iff]
        exact Or.inr ⟨m, by simp, e, he, by omega⟩

theorem wf_new (ar : Bool) : WF (FileCache.new ar : FileCache P M F T) := by
  constructor <;> simp [FileCache.new, InsertMap.KeysNodup, InsertMap.get, InsertMap.find, refCount]

/-- Shape of `entry` on a known path that is looked up again. -/
theorem entry_wf {s : FileCache P M F T} (hs : WF s) (path : P) (stat : Except Err M)
    (opened : Except Err F) : WF (s.entry path stat opened).2 := by
  unfold FileCache.entry
  cases hc : s.cache.get path with
  | some pe =>
    simp only
    have hreload : WF (s.reload path pe stat opened).2 := by
      unfold FileCache.reload
      cases hg : s.getOrInsert pe stat opened with
      | error e => exact hs
      | ok r =>
        obtain ⟨entries, pe', m⟩ := r
        obtain ⟨hst, hpe, hkn, e0, he0, hget⟩ := getOrInsert_ok hg
        obtain ⟨sw1, sw2, sw3, sw4⟩ := switchTo_spec pe (hs.prev _ _ hc) m
        have hwf : WF ({ s with cache := s.cache.update path (fun _ => pe'), entries := entries } : FileCache P M F T) := by
          have hrc := fun x => refCount_update (pe' := pe') hs.keysP hc x
          refine ⟨InsertMap.keysNodup_update hs.keysP _ _, hkn hs.keysM, ?_, ?_, ?_, ?_⟩
          · intro p q hq
            simp only [InsertMap.get_update] at hq
            split at hq
            · rename_i hp; subst hp
              rw [hc] at hq; simp at hq; subst hq; rw [hpe, sw3]; rfl
            · exact hs.cur _ _ hq
          · intro p q hq
            simp only [InsertMap.get_update] at hq
            split at hq
            · rename_i hp; subst hp
              rw [hc] at hq; simp at hq; subst hq; rw [hpe]; exact sw4
            · exact hs.prev _ _ hq
          · intro x e hx
            simp only at hx ⊢
            rw [hget] at hx
            have := hrc x
            rw [hpe] at this ⊢
            simp only [sw1 x] at this
            by_cases hxm : x = m
            · subst hxm
              simp only [if_true, Option.some.injEq] at hx
              subst hx
              simp only [or_true, if_true, sw2] at this ⊢
              rcases he0 with he0 | ⟨hnone, _, hr0, _⟩
              · have hp := hs.present _ _ he0
                by_cases hm : x ∈ pe.metas
                · simp only [hm, if_true, not_true_eq_false, decide_false, Bool.false_eq_true, if_false] at this ⊢
                  omega
                · simp only [hm, if_false, not_false_eq_true, decide_true, if_true] at this ⊢
                  omega
              · have hab := hs.absent _ hnone
                have hm : x ∉ pe.metas := by
                  intro hm
                  have := refCount_pos_of hc hm
                  omega
                simp only [hm, if_false, not_false_eq_true, decide_true, if_true] at this ⊢
                omega
            · simp only [if_neg hxm] at hx
              have hp := hs.present _ _ hx
              simp only [hxm, or_false] at this
              omega
          · intro x hx
            simp only at hx ⊢
            rw [hget] at hx
            by_cases hxm : x = m
            · subst hxm; simp at hx
            · simp only [if_neg hxm] at hx
              have hab := hs.absent _ hx
              have := hrc x
              rw [hpe] at this ⊢
              simp only [sw1 x, hxm, or_false] at this
              omega
        simp only
        cases entries.get m with
        | some e => exact hwf
        | none => exact hwf
    cases hcur : pe.current with
    | none => exact hreload
    | some q =>
      obtain ⟨pinned, m⟩ := q
      simp only
      split
      · cases s.entries.get m with
        | some e => exact hs
        | none => exact hs
      · exact hreload
  | none =>
    simp only
    cases hg : s.getOrInsert PathEntry.default stat opened with
    | error e => exact hs
    | ok r =>
      obtain ⟨entries, pe', m⟩ := r
      obtain ⟨hst, hpe, hkn, e0, he0, hget⟩ := getOrInsert_ok hg
      obtain ⟨sw1, sw2, sw3, sw4⟩ := switchTo_spec (PathEntry.default : PathEntry M) (by simp [PathEntry.default]) m
      have hdm : ∀ x, x ∉ (PathEntry.default : PathEntry M).metas := by
        intro x; simp [PathEntry.default, PathEntry.metas]
      have hwf : WF ({ s with cache := (s.cache.getOrInsert path pe').2, entries := entries } : FileCache P M F T) := by
        refine ⟨InsertMap.keysNodup_getOrInsert hs.keysP _ _, hkn hs.keysM, ?_, ?_, ?_, ?_⟩
        · intro p q hq
          simp only [InsertMap.get_getOrInsert, hc] at hq
          split at hq
          · simp at hq; subst hq; rw [hpe, sw3]; rfl
          · exact hs.cur _ _ hq
        · intro p q hq
          simp only [InsertMap.get_getOrInsert, hc] at hq
          split at hq
          · simp at hq; subst hq; rw [hpe]; exact sw4
          · exact hs.prev _ _ hq
        · intro x e hx
          simp only at hx ⊢
          rw [hget] at hx
          have hrc := refCount_insert (pe := pe') hc x
          rw [hpe] at hrc ⊢
          simp only [sw1 x, hdm x, false_or] at hrc
          by_cases hxm : x = m
          · subst hxm
            simp only [if_true, Option.some.injEq] at hx
            subst hx
            simp only [if_true, sw2, hdm x, not_false_eq_true, decide_true] at hrc ⊢
            rcases he0 with he0 | ⟨hnone, _, hr0, _⟩
            · have hp := hs.present _ _ he0
              omega
            · have hab := hs.absent _ hnone
              omega
          · simp only [if_neg hxm] at hx
            have hp := hs.present _ _ hx
            simp only [hxm, if_false] at hrc
            omega
        · intro x hx
          simp only at hx ⊢
          rw [hget] at hx
          by_cases hxm : x = m
          · subst hxm; simp at hx
          · simp only [if_neg hxm] at hx
            have hab := hs.absent _ hx
            have hrc := refCount_insert (pe := pe') hc x
            rw [hpe] at hrc ⊢
            simp only [sw1 x, hdm x, hxm, or_false, if_false] at hrc
            omega
      simp only
      cases entries.get m with
      | some e => exact hwf
      | none => exact hwf

theorem setPinState_wf {s : FileCache P M F T} (hs : WF s) (path : P) (b : Bool) :
    WF (s.setPinState path b).2 := by
  unfold FileCache.setPinState
  cases hc : s.cache.get path with
  | none => exact hs
  | some pe =>
    simp only
    cases hcur : pe.current with
    | none => exact hs
    | some q =>
      obtain ⟨b0, m⟩ := q
      simp only
      have hrc : ∀ x, refCount (s.cache.update path (fun pe => { pe with current := some (b, m) })) x =
          refCount s.cache x := by
        intro x
        have := InsertMap.countP_update (k := path) (v := pe) hs.keysP hc
          (fun pe => { pe with current := some (b, m) }) (fun q => decide (x ∈ q.metas))
        have hm : x ∈ ({ pe with current := some (b, m) } : PathEntry M).metas ↔ x ∈ pe.metas := by
          rw [mem_metas, mem_metas, hcur]; simp
        simp only [decide_eq_true_eq, hm] at this
        have h2 : refCount (s.cache.update path (fun pe => { pe with current := some (b, m) })) x + (if x ∈ pe.metas then 1 else 0) =
          refCount s.cache x + (if x ∈ pe.metas then 1 else 0) := this
        omega
      refine ⟨InsertMap.keysNodup_update hs.keysP _ _, hs.keysM, ?_, ?_, ?_, ?_⟩
      · intro p q hq
        simp only [InsertMap.get_update] at hq
        split at hq
        · rename_i hp; subst hp
          rw [hc] at hq; simp at hq; subst hq; rfl
        · exact hs.cur _ _ hq
      · intro p q hq
        simp only [InsertMap.get_update] at hq
        split at hq
        · rename_i hp; subst hp
          rw [hc] at hq; simp at hq; subst hq; have h := hs.prev _ _ hc; exact h
        · exact hs.prev _ _ hq
      · intro x e hx; simp only at hx ⊢; rw [hrc]; exact hs.present _ _ hx
      · intro x hx; simp only at hx ⊢; rw [hrc]; exact hs.absent _ hx

/-- What `evict` does in a consistent state. -/
theorem evict_spec {s : FileCache P M F T} (hs : WF s) (path : P) (pe : PathEntry M)
    (hc : s.cache.get path = some pe) :
    ∃ b en, s.evict path = (.ok b, { s with cache := (s.cache.remove path).2, entries := en }) ∧
      en.KeysNodup ∧
      (∀ x, en.get x = if x ∈ pe.metas then
          (match s.entries.get x with
            | some e => if e.references > 1 then some { e with references := e.references - 1 } else none
            | none => none)
        else s.entries.get x) ∧
      (b = true ↔ ∃ m ∈ pe.metas, ∃ e, s.entries.get m = some e ∧ e.references ≤ 1) := by
  obtain ⟨b, en, h1, h2, h3, h4⟩ := dropRefs_spec pe.metas (metas_nodup (hs.prev _ _ hc)) s.entries false
    hs.keysM (by
      intro m hm
      cases hg : s.entries.get m with
      | some e => exact ⟨e, rfl⟩
      | none =>
        have := hs.absent _ hg
        have := refCount_pos_of hc hm
        omega)
  refine ⟨b, en, ?_, h2, h3, by simpa using h4⟩
  unfold FileCache.evict
  have : s.cache.remove path = (some pe, (s.cache.remove path).2) := by
    unfold InsertMap.remove
    rw [show InsertMap.find s.cache.pairs path = some pe from hc]
  rw [this]
  simp only [h1]

theorem evict_absent {s : FileCache P M F T} (path : P) (hc : s.cache.get path = none) :
    s.evict path = (.ok false, s) := by
  unfold FileCache.evict InsertMap.remove
  rw [show InsertMap.find s.cache.pairs path = none from hc]

theorem evict_wf {s : FileCache P M F T} (hs : WF s) (path : P) : WF (s.evict path).2 := by
  cases hc : s.cache.get path with
  | none => rw [evict_absent path hc]; exact hs
  | some pe =>
    obtain ⟨b, en, h1, h2, h3, h4⟩ := evict_spec hs path pe hc
    rw [h1]
    have hrc := fun x => refCount_remove hs.keysP hc x
    refine ⟨InsertMap.keysNodup_remove hs.keysP _, h2, ?_, ?_, ?_, ?_⟩
    · intro p q hq
      simp only [InsertMap.get_remove] at hq
      split at hq
      · simp at hq
      · exact hs.cur _ _ hq
    · intro p q hq
      simp only [InsertMap.get_remove] at hq
      split at hq
      · simp at hq
      · exact hs.prev _ _ hq
    · intro x e hx
      simp only at hx ⊢
      rw [h3] at hx
      have hr := hrc x
      by_cases hm : x ∈ pe.metas
      · simp only [hm, if_true] at hx hr
        cases hg : s.entries.get x with
        | none => simp [hg] at hx
        | some e0 =>
          have hp := hs.present _ _ hg
          simp only [hg] at hx
          split at hx
          · simp at hx; subst hx; simp only; omega
          · simp at hx
      · simp only [hm, if_false] at hx hr
        have hp := hs.present _ _ hx
        omega
    · intro x hx
      simp only at hx ⊢
      rw [h3] at hx
      have hr := hrc x
      by_cases hm : x ∈ pe.metas
      · simp only [hm, if_true] at hx hr
        cases hg : s.entries.get x with
        | none => have := hs.absent _ hg; omega
        | some e0 =>
          have hp := hs.present _ _ hg
          simp only [hg] at hx
          split at hx
          · simp at hx
          · omega
      · simp only [hm, if_false] at hx hr
        have := hs.absent _ hx
        omega

theorem initValue_wf {s : FileCache P M F T} (hs : WF s) (m : M) (t : T) : WF (s.initValue m t) := by
  refine ⟨hs.keysP, InsertMap.keysNodup_update hs.keysM _ _, hs.cur, hs.prev, ?_, ?_⟩
  · intro x e hx
    simp only [FileCache.initValue, InsertMap.get_update] at hx ⊢
    split at hx
    · rename_i h; subst h
      cases hg : s.entries.get x with
      | none => simp [hg] at hx
      | some e0 =>
        simp [hg] at hx; subst hx; have h := hs.present _ _ hg; exact h
    · exact hs.present _ _ hx
  · intro x hx
    simp only [FileCache.initValue, InsertMap.get_update] at hx ⊢
    split at hx
    · rename_i h; subst h
      exact hs.absent _ (by simpa using hx)
    · exact hs.absent _ hx

theorem step_wf {s : FileCache P M F T} (hs : WF s) (op : FileCache.Op P M F T) :
    WF (s.step op) := by
  cases op with
  | entry p st o => exact entry_wf hs p st o
  | pin p => exact setPinState_wf hs p true
  | unpin p => exact setPinState_wf hs p false
  | evict p => exact evict_wf hs p
  | initValue m t => exact initValue_wf hs m t

theorem run_wf {s : FileCache P M F T} (hs : WF s) (ops : List (FileCache.Op P M F T)) :
    WF (s.run ops) := by
  induction ops generalizing s with
  | nil => exact hs
  | cons op t ih => exact ih (step_wf hs op)

end Blazesym.Cache
