import Verif.Cache.ElfCache
import Verif.Cache.FileCacheProps

/-!
# C15 (failed cache requests) and C53 (one parser per file, shared by both views)
-/

set_option autoImplicit false

namespace Blazesym.Cache

open Blazesym.Spec

universe u v w x y

variable {P : Type u} {M : Type v} {F : Type w} {Pr : Type x} {D : Type y}
  [DecidableEq P] [DecidableEq M]

namespace ElfCache

/-- One call on the ELF cache. -/
inductive Op (P : Type u) (M : Type v) (F : Type w) (Pr : Type x) (D : Type y) where
  | plain (path : P) (st : Except Err M) (o : Except Err F) (parse : F → Except Err Pr)
  | dwarf (path : P) (st : Except Err M) (o : Except Err F) (parse : F → Except Err Pr)
      (nested : List (Nested P M F)) (build : Pr → List (Except Err Pr) → Except Err D)
  | cache (path : P) (st : Except Err M) (o : Except Err F) (parse : F → Except Err Pr)
      (fill : Pr → Except Err Unit)
  | evict (path : P)

/-- State after a call. -/
def step (s : ElfCache P M F Pr D) : Op P M F Pr D → ElfCache P M F Pr D
  | .plain p st o parse => (plain s p st o parse).2
  | .dwarf p st o parse n b => (dwarf s p st o parse n b).2
  | .cache p st o parse fill => (cacheElf s p st o parse fill).2
  | .evict p => (s.evict p).2

/-- State after a history. -/
def run (s : ElfCache P M F Pr D) (ops : List (Op P M F Pr D)) : ElfCache P M F Pr D :=
  ops.foldl step s

/-- A stored record has a view, and its two views share the parser. -/
def DataOk (d : ElfData Pr D) : Prop :=
  (d.elf.isSome ∨ d.dwarf.isSome) ∧
  ∀ p p' r, d.elf = some p → d.dwarf = some (p', r) → p = p'

/-- The invariant. -/
def Inv (s : ElfCache P M F Pr D) : Prop :=
  WF s ∧ ∀ m e d, s.entries.get m = some e → e.value = some d → DataOk d

theorem setValue_wf {s : ElfCache P M F Pr D} (hs : WF s) (m : M) (v : ElfData Pr D) :
    WF (setValue s m v) := by
  refine ⟨hs.keysP, InsertMap.keysNodup_update hs.keysM _ _, hs.cur, hs.prev, ?_, ?_⟩
  · intro x e hx
    simp only [setValue, InsertMap.get_update] at hx ⊢
    split at hx
    · rename_i h; subst h
      cases hg : s.entries.get x with
      | none => simp [hg] at hx
      | some e0 =>
        simp [hg] at hx; subst hx; have h := hs.present _ _ hg; exact h
    · exact hs.present _ _ hx
  · intro x hx
    simp only [setValue, InsertMap.get_update] at hx ⊢
    split at hx
    · rename_i h; subst h
      exact hs.absent _ (by simpa using hx)
    · exact hs.absent _ hx

theorem setValue_inv {s : ElfCache P M F Pr D} (hs : Inv s) (m : M) (v : ElfData Pr D)
    (hv : DataOk v) : Inv (setValue s m v) := by
  refine ⟨setValue_wf hs.1 m v, ?_⟩
  intro x e d hx hd
  simp only [setValue, InsertMap.get_update] at hx
  split at hx
  · rename_i h; subst h
    cases hg : s.entries.get x with
    | none => simp [hg] at hx
    | some e0 =>
      simp [hg] at hx; subst hx; simp at hd; subst hd; exact hv
  · exact hs.2 x e d hx hd

/-- After any file cache call, an entry's value is one that was there before. -/
theorem fileStep_values {T : Type x} {s : FileCache P M F T} (hs : WF s) (op : FileCache.Op P M F T)
    (hop : ∀ m t, op ≠ .initValue m t) (m : M) (e : Entry F T)
    (he : (s.step op).entries.get m = some e) :
    (∃ e0, s.entries.get m = some e0 ∧ e0.value = e.value ∧ e0.file = e.file) ∨
    (s.entries.get m = none ∧ e.value = none) := by
  cases op with
  | initValue m t => exact absurd rfl (hop m t)
  | pin q =>
    have : (s.setPinState q true).2.entries = s.entries := by
      unfold FileCache.setPinState; (repeat' split) <;> rfl
    simp only [FileCache.step, this] at he
    exact Or.inl ⟨e, he, rfl, rfl⟩
  | unpin q =>
    have : (s.setPinState q false).2.entries = s.entries := by
      unfold FileCache.setPinState; (repeat' split) <;> rfl
    simp only [FileCache.step, this] at he
    exact Or.inl ⟨e, he, rfl, rfl⟩
  | evict q =>
    simp only [FileCache.step] at he
    cases hc : s.cache.get q with
    | none =>
      rw [evict_absent q hc] at he
      exact Or.inl ⟨e, he, rfl, rfl⟩
    | some pe =>
      obtain ⟨b, en, h1, h2, h3, h4⟩ := evict_spec hs q pe hc
      rw [h1] at he
      simp only at he
      rw [h3] at he
      split at he
      · cases hg : s.entries.get m with
        | none => simp [hg] at he
        | some e0 =>
          simp only [hg] at he
          split at he
          · simp at he; subst he; exact Or.inl ⟨e0, rfl, rfl, rfl⟩
          · simp at he
      · exact Or.inl ⟨e, he, rfl, rfl⟩
  | entry q st o =>
    simp only [FileCache.step, FileCache.entry, FileCache.reload] at he
    have key : ∀ (pe : PathEntry M) entries pe' m', s.getOrInsert pe st o = .ok (entries, pe', m') →
        entries.get m = some e →
        (∃ e0, s.entries.get m = some e0 ∧ e0.value = e.value ∧ e0.file = e.file) ∨
          (s.entries.get m = none ∧ e.value = none) := by
      intro pe entries pe' m' hgi hx
      obtain ⟨hst, _, _, e0, he0, hget⟩ := getOrInsert_ok hgi
      rw [hget] at hx
      split at hx
      · rename_i hm; subst hm
        simp at hx; subst hx
        rcases he0 with he0 | ⟨hn, ho, _, hv⟩
        · exact Or.inl ⟨e0, he0, rfl, rfl⟩
        · exact Or.inr ⟨hn, hv⟩
      · exact Or.inl ⟨e, hx, rfl, rfl⟩
    have triv : s.entries.get m = some e → (∃ e0, s.entries.get m = some e0 ∧ e0.value = e.value ∧ e0.file = e.file) ∨
          (s.entries.get m = none ∧ e.value = none) := fun hx => Or.inl ⟨e, hx, rfl, rfl⟩
    revert he
    repeat' split
    all_goals intro he
    all_goals first
      | exact triv he
      | (rename_i hgi _ _ _; exact key _ _ _ _ hgi he)
      | (rename_i hgi _ _; exact key _ _ _ _ hgi he)
      | (rename_i hgi _; exact key _ _ _ _ hgi he)

theorem fileStep_inv {s : ElfCache P M F Pr D} (hs : Inv s) (op : FileCache.Op P M F (ElfData Pr D))
    (hop : ∀ m t, op ≠ .initValue m t) : Inv (FileCache.step s op) := by
  refine ⟨step_wf hs.1 op, ?_⟩
  intro m e d he hd
  rcases fileStep_values hs.1 op hop m e he with ⟨e0, h1, h2, _⟩ | ⟨_, h⟩
  · exact hs.2 m e0 d h1 (h2.trans hd)
  · rw [h] at hd; simp at hd

/-- A successful lookup returns the entry stored at the returned identity. -/
theorem entry_stored {T : Type x} {s : FileCache P M F T} {p : P} {st : Except Err M}
    {o : Except Err F} {m : M} {e : Entry F T} {s' : FileCache P M F T}
    (h : s.entry p st o = (.ok (m, e), s')) : s'.entries.get m = some e := by
  revert h
  unfold FileCache.entry FileCache.reload
  repeat' split
  all_goals intro hok
  all_goals simp only [Except.ok.injEq, Prod.mk.injEq, reduceCtorEq, false_and] at hok
  all_goals obtain ⟨⟨rfl, rfl⟩, rfl⟩ := hok
  all_goals assumption

theorem plain_inv {s : ElfCache P M F Pr D} (hs : Inv s) (p : P) (st : Except Err M)
    (o : Except Err F) (parse : F → Except Err Pr) : Inv (plain s p st o parse).2 := by
  have h1 : Inv (s.entry p st o).2 := fileStep_inv hs (.entry p st o) (by simp)
  unfold plain
  cases hr : s.entry p st o with
  | mk r s' =>
    rw [hr] at h1
    simp only at h1
    cases r with
    | error e => exact h1
    | ok q =>
      obtain ⟨m, e⟩ := q
      have hst := entry_stored hr
      simp only
      cases hv : e.value with
      | none =>
        simp only
        cases parse e.file with
        | error e => exact h1
        | ok pr => exact setValue_inv h1 m _ ⟨Or.inl rfl, by simp⟩
      | some data =>
        have hd := h1.2 m e data hst hv
        simp only
        cases he : data.elf with
        | some pr => exact h1
        | none =>
          simp only
          cases hdw : data.dwarf with
          | none => exact h1
          | some q =>
            obtain ⟨pr, d⟩ := q
            refine setValue_inv h1 m _ ⟨Or.inl rfl, ?_⟩
            intro a b r ha hb
            simp at ha hb
            rw [← ha, ← hb.1]

theorem runNested_inv (parse : F → Except Err Pr) (ns : List (Nested P M F))
    {s : ElfCache P M F Pr D} (hs : Inv s) : Inv (runNested parse ns s).2 := by
  induction ns generalizing s with
  | nil => exact hs
  | cons n t ih => exact ih (plain_inv hs n.path n.stat n.opened parse)

/-- A stored plain view is never changed by a lookup. -/
theorem plain_keeps {s : ElfCache P M F Pr D} (hs : Inv s) (p : P) (st : Except Err M)
    (o : Except Err F) (parse : F → Except Err Pr) (m : M) (e : Entry F (ElfData Pr D))
    (d : ElfData Pr D) (he : s.entries.get m = some e) (hv : e.value = some d) :
    ∃ e' d', (plain s p st o parse).2.entries.get m = some e' ∧ e'.value = some d' ∧
      d'.dwarf = d.dwarf ∧ (∀ x, d.elf = some x → d'.elf = some x) := by
  have hwf := entry_wf hs.1 p st o
  have h1 : ∃ e1, (s.entry p st o).2.entries.get m = some e1 ∧ e1.value = some d := by
    cases hg : (s.entry p st o).2.entries.get m with
    | some e1 =>
      have := step_keeps_entry hs.1 (.entry p st o) m e he e1 hg
      exact ⟨e1, rfl, this.2 d hv⟩
    | none =>
      exfalso
      have hrc := hwf.absent m hg
      have hp := hs.1.present m e he
      obtain ⟨q, pe, hq, hm⟩ := exists_of_refCount_pos hs.1.keysP (m := m) (by omega)
      -- the path keeps referring to it
      have : ∃ pe', (s.entry p st o).2.cache.get q = some pe' ∧ m ∈ pe'.metas := by
        unfold FileCache.entry
        cases hc : s.cache.get p with
        | none =>
          simp only
          have hne : q ≠ p := by rintro rfl; rw [hc] at hq; simp at hq
          cases hgi : s.getOrInsert PathEntry.default st o with
          | error x => exact ⟨pe, hq, hm⟩
          | ok r =>
            obtain ⟨en, pe', m'⟩ := r
            simp only
            cases en.get m' with
            | none => exact ⟨pe, by simp [InsertMap.get_getOrInsert, hne, hq], hm⟩
            | some e => exact ⟨pe, by simp [InsertMap.get_getOrInsert, hne, hq], hm⟩
        | some pep =>
          simp only
          have key : ∃ pe', (s.reload p pep st o).2.cache.get q = some pe' ∧ m ∈ pe'.metas := by
            unfold FileCache.reload
            cases hgi : s.getOrInsert pep st o with
            | error x => exact ⟨pe, hq, hm⟩
            | ok r =>
              obtain ⟨en, pe', m'⟩ := r
              obtain ⟨_, hpe, _⟩ := getOrInsert_ok hgi
              simp only
              have : ∃ pe2, (s.cache.update p (fun _ => pe')).get q = some pe2 ∧ m ∈ pe2.metas := by
                by_cases hqp : q = p
                · subst hqp
                  rw [hc] at hq; simp at hq; subst hq
                  refine ⟨pe', by simp [hc], ?_⟩
                  rw [hpe, (switchTo_spec pep (hs.1.prev _ _ hc) m').1 m]
                  exact Or.inl hm
                · exact ⟨pe, by simp [hqp, hq], hm⟩
              cases en.get m' with
              | none => exact this
              | some e => exact this
          cases hcur : pep.current with
          | none => exact key
          | some q' =>
            simp only
            split
            · split
              · exact ⟨pe, hq, hm⟩
              · exact ⟨pe, hq, hm⟩
            · exact key
      obtain ⟨pe', h1, h2⟩ := this
      have := refCount_pos_of h1 h2
      omega
  obtain ⟨e1, he1, hv1⟩ := h1
  unfold plain
  cases hr : s.entry p st o with
  | mk r s' =>
    rw [hr] at he1
    simp only at he1
    cases r with
    | error e => exact ⟨e1, d, he1, hv1, rfl, fun _ h => h⟩
    | ok q =>
      obtain ⟨m', e'⟩ := q
      have hst := entry_stored hr
      simp only
      cases hv' : e'.value with
      | none =>
        simp only
        have hne : m ≠ m' := by
          rintro rfl; rw [he1] at hst; simp at hst; subst hst; rw [hv1] at hv'; simp at hv'
        cases parse e'.file with
        | error e => exact ⟨e1, d, he1, hv1, rfl, fun _ h => h⟩
        | ok pr => exact ⟨e1, d, by simp [setValue, hne, he1], hv1, rfl, fun _ h => h⟩
      | some data =>
        simp only
        cases hde : data.elf with
        | some pr => exact ⟨e1, d, he1, hv1, rfl, fun _ h => h⟩
        | none =>
          simp only
          cases hdw : data.dwarf with
          | none => exact ⟨e1, d, he1, hv1, rfl, fun _ h => h⟩
          | some q =>
            obtain ⟨pr, dd⟩ := q
            simp only
            by_cases hm : m = m'
            · subst hm
              rw [he1] at hst; simp at hst; subst hst
              rw [hv1] at hv'; simp at hv'; subst hv'
              refine ⟨{ e1 with value := some { d with elf := some pr } }, { d with elf := some pr }, ?_, rfl, rfl, ?_⟩
              · simp [setValue, he1, hdw]
              · intro x hx; rw [hde] at hx; simp at hx
            · exact ⟨e1, d, by simp [setValue, hm, he1], hv1, rfl, fun _ h => h⟩

theorem runNested_keeps (parse : F → Except Err Pr) (ns : List (Nested P M F))
    {s : ElfCache P M F Pr D} (hs : Inv s) (m : M) (e : Entry F (ElfData Pr D))
    (d : ElfData Pr D) (he : s.entries.get m = some e) (hv : e.value = some d) :
    ∃ e' d', (runNested parse ns s).2.entries.get m = some e' ∧ e'.value = some d' ∧
      d'.dwarf = d.dwarf ∧ (∀ x, d.elf = some x → d'.elf = some x) := by
  induction ns generalizing s e d with
  | nil => exact ⟨e, d, he, hv, rfl, fun _ h => h⟩
  | cons n t ih =>
    obtain ⟨e1, d1, h1, h2, h3, h4⟩ := plain_keeps hs n.path n.stat n.opened parse m e d he hv
    obtain ⟨e2, d2, h5, h6, h7, h8⟩ := ih (plain_inv hs n.path n.stat n.opened parse) e1 d1 h1 h2
    exact ⟨e2, d2, h5, h6, h7.trans h3, fun x hx => h8 x (h4 x hx)⟩

theorem dwarf_inv {s : ElfCache P M F Pr D} (hs : Inv s) (p : P) (st : Except Err M)
    (o : Except Err F) (parse : F → Except Err Pr) (ns : List (Nested P M F))
    (build : Pr → List (Except Err Pr) → Except Err D) : Inv (dwarf s p st o parse ns build).2 := by
  have h1 : Inv (s.entry p st o).2 := fileStep_inv hs (.entry p st o) (by simp)
  unfold dwarf
  cases hr : s.entry p st o with
  | mk r s' =>
    rw [hr] at h1
    simp only at h1
    have h2 := runNested_inv parse ns h1
    cases r with
    | error e => exact h1
    | ok q =>
      obtain ⟨m, e⟩ := q
      have hst := entry_stored hr
      simp only
      cases hv : e.value with
      | none =>
        simp only
        cases parse e.file with
        | error e => exact h1
        | ok pr =>
          simp only
          cases build pr (runNested parse ns s').1 with
          | error e => exact h2
          | ok d =>
            simp only
            cases (runNested parse ns s').2.entries.get m with
            | none => exact h2
            | some e' =>
              simp only
              cases e'.value with
              | none => exact setValue_inv h2 m _ ⟨Or.inr rfl, by simp⟩
              | some data' =>
                simp only
                cases data'.dwarf with
                | none => exact h2
                | some r => exact h2
      | some data =>
        simp only
        cases hdw : data.dwarf with
        | some r => exact h1
        | none =>
          simp only
          cases hde : data.elf with
          | none => exact h1
          | some pr =>
            simp only
            cases build pr (runNested parse ns s').1 with
            | error e => exact h2
            | ok d =>
              obtain ⟨e', d', hk1, hk2, hk3, hk4⟩ := runNested_keeps parse ns h1 m e data hst hv
              simp only [hk1, hk2]
              rw [hk3, hdw]
              refine setValue_inv h2 m _ ⟨Or.inr rfl, ?_⟩
              intro a b r ha hb
              simp only at ha hb
              rw [hk4 pr hde] at ha
              simp at ha hb
              rw [← ha, ← hb.1]

theorem cacheElf_inv {s : ElfCache P M F Pr D} (hs : Inv s) (p : P) (st : Except Err M)
    (o : Except Err F) (parse : F → Except Err Pr) (fill : Pr → Except Err Unit) :
    Inv (cacheElf s p st o parse fill).2 := by
  have h1 : Inv (s.setPinState p false).2 := fileStep_inv hs (.unpin p) (by simp)
  have h2 := plain_inv h1 p st o parse
  have h3 : Inv ((plain (s.setPinState p false).2 p st o parse).2.setPinState p true).2 :=
    fileStep_inv h2 (.pin p) (by simp)
  unfold cacheElf
  simp only
  cases (plain (s.setPinState p false).2 p st o parse).1 with
  | error e => exact h3
  | ok r => exact h3

theorem step_inv {s : ElfCache P M F Pr D} (hs : Inv s) (op : Op P M F Pr D) : Inv (step s op) := by
  cases op with
  | plain p st o parse => exact plain_inv hs p st o parse
  | dwarf p st o parse n b => exact dwarf_inv hs p st o parse n b
  | cache p st o parse fill => exact cacheElf_inv hs p st o parse fill
  | evict p => exact fileStep_inv hs (.evict p) (by simp)

theorem inv_new (ar : Bool) : Inv (FileCache.new ar : ElfCache P M F Pr D) :=
  ⟨wf_new ar, by intro m e d h; simp [FileCache.new, InsertMap.get, InsertMap.find] at h⟩

theorem run_inv (ar : Bool) (ops : List (Op P M F Pr D)) :
    Inv (run (FileCache.new ar : ElfCache P M F Pr D) ops) := by
  have : ∀ (s : ElfCache P M F Pr D), Inv s → Inv (run s ops) := by
    induction ops with
    | nil => exact fun s h => h
    | cons op t ih => exact fun s h => ih _ (step_inv h op)
  exact this _ (inv_new ar)

/-- **C53** (views share one parser).  After any history, a file's stored record always has
the plain or the debug-info view, and if it has both they share one parser. -/
theorem C53_views_share_parser (ar : Bool) (ops : List (Op P M F Pr D)) (m : M)
    (e : Entry F (ElfData Pr D)) (d : ElfData Pr D)
    (he : (run (FileCache.new ar) ops).entries.get m = some e) (hd : e.value = some d) :
    (d.elf.isSome ∨ d.dwarf.isSome) ∧
    ∀ p p' r, d.elf = some p → d.dwarf = some (p', r) → p = p' :=
  (run_inv ar ops).2 m e d he hd

/-- **C53** (no panic, plain view).  Asking for the plain view fails only with the error of
`stat`, `open` or parsing. -/
theorem C53_plain_never_panics (ar : Bool) (ops : List (Op P M F Pr D)) (p : P)
    (st : Except Err M) (o : Except Err F) (parse : F → Except Err Pr) (err : Err)
    (h : (plain (run (FileCache.new ar : ElfCache P M F Pr D) ops) p st o parse).1 = .error err) :
    st = .error err ∨ o = .error err ∨ ∃ f, parse f = .error err := by
  have hs := run_inv ar ops (P := P) (M := M) (F := F) (Pr := Pr) (D := D)
  generalize run (FileCache.new ar : ElfCache P M F Pr D) ops = s at hs h
  have h1 : Inv (s.entry p st o).2 := fileStep_inv hs (.entry p st o) (by simp)
  unfold plain at h
  cases hr : s.entry p st o with
  | mk r s' =>
    rw [hr] at h h1
    simp only at h1
    cases r with
    | error e =>
      simp at h; subst h
      -- the lookup itself failed
      by_cases hk : ∃ b m, Current s p b m ∧ (b = true ∨ s.autoReload = false)
      · obtain ⟨b, m, hc, hb⟩ := hk
        obtain ⟨e', _, h2⟩ := entry_keep hs.1 p st o b m hc hb
        rw [hr] at h2; simp at h2
      · have hnp : ∀ m, ¬ Current s p true m := fun m hc => hk ⟨true, m, hc, Or.inl rfl⟩
        have har : s.autoReload = true ∨ s.cache.get p = none := by
          cases hc : s.cache.get p with
          | none => exact Or.inr rfl
          | some pe =>
            left
            obtain ⟨⟨b, m⟩, hbm⟩ := Option.isSome_iff_exists.1 (hs.1.cur p pe hc)
            by_contra hne
            exact hk ⟨b, m, ⟨pe, hc, hbm⟩, Or.inr (by simpa using hne)⟩
        rcases ((entry_reload p st o hnp har).1 e (by rw [hr])).2 with h | ⟨m, _, _, h⟩
        · exact Or.inl h
        · exact Or.inr (Or.inl h)
    | ok q =>
      obtain ⟨m, e⟩ := q
      have hst := entry_stored hr
      simp only at h
      cases hv : e.value with
      | none =>
        simp only [hv] at h
        cases hp : parse e.file with
        | error e' => simp [hp] at h; subst h; exact Or.inr (Or.inr ⟨_, hp⟩)
        | ok pr => simp [hp] at h
      | some data =>
        have hd := h1.2 m e data hst hv
        simp only [hv] at h
        cases hde : data.elf with
        | some pr => simp [hde] at h
        | none =>
          cases hdw : data.dwarf with
          | none =>
            rcases hd.1 with h' | h'
            · simp [hde] at h'
            · simp [hdw] at h'
          | some q => simp [hde, hdw] at h

/-- **C53** (parsed once).  Once a file has a plain view, asking for it again, with the file
unchanged or pinned, returns the same parser without parsing. -/
theorem C53_parsed_once (ar : Bool) (ops : List (Op P M F Pr D)) (p : P)
    (st : Except Err M) (o : Except Err F) (parse parse' : F → Except Err Pr) (pr : Pr) (m : M)
    (e : Entry F (ElfData Pr D)) (s' : ElfCache P M F Pr D)
    (h : (run (FileCache.new ar : ElfCache P M F Pr D) ops).entry p st o = (.ok (m, e), s'))
    (d : ElfData Pr D) (hd : e.value = some d) (hpr : d.elf = some pr ∨ ∃ r, d.dwarf = some (pr, r)) :
    (plain (run (FileCache.new ar : ElfCache P M F Pr D) ops) p st o parse).1 = .ok pr ∧
    plain (run (FileCache.new ar : ElfCache P M F Pr D) ops) p st o parse' =
      plain (run (FileCache.new ar : ElfCache P M F Pr D) ops) p st o parse := by
  have hs := run_inv ar ops (P := P) (M := M) (F := F) (Pr := Pr) (D := D)
  generalize run (FileCache.new ar : ElfCache P M F Pr D) ops = s at hs h
  have h1 : Inv (s.entry p st o).2 := fileStep_inv hs (.entry p st o) (by simp)
  rw [h] at h1
  have hok := h1.2 m e d (entry_stored h) hd
  unfold plain
  rw [h]
  simp only [hd]
  cases hde : d.elf with
  | some pr' =>
    simp only [and_true]
    rcases hpr with hpr | ⟨r, hr⟩
    · rw [hde] at hpr; simp at hpr; rw [hpr]
    · rw [hok.2 pr' pr r hde hr]
  | none =>
    rcases hpr with hpr | ⟨r, hr⟩
    · rw [hde] at hpr; simp at hpr
    · simp only [hr, and_self]

/-- The nested lookups avoid the identity `m`. -/
def Avoids (s : ElfCache P M F Pr D) (ns : List (Nested P M F)) (m : M) : Prop :=
  ∀ n ∈ ns, n.stat ≠ .ok m ∧ ¬ Refers s n.path m

theorem plain_avoids {s : ElfCache P M F Pr D} (hs : Inv s) (p : P) (st : Except Err M)
    (o : Except Err F) (parse : F → Except Err Pr) (m : M) (hst : st ≠ .ok m)
    (hr : ¬ Refers s p m) (e : Entry F (ElfData Pr D)) (he : s.entries.get m = some e) :
    (∃ e', (plain s p st o parse).2.entries.get m = some e' ∧ e'.value = e.value) ∧
    (∀ q, Refers (plain s p st o parse).2 q m → Refers s q m) := by
  have hid : ∀ m' e' s', s.entry p st o = (.ok (m', e'), s') → m' ≠ m := by
    intro m' e' s' h hm
    subst hm
    by_cases hk : ∃ b m, Current s p b m ∧ (b = true ∨ s.autoReload = false)
    · obtain ⟨b, m2, hc, hb⟩ := hk
      obtain ⟨e2, h1, h2⟩ := entry_keep hs.1 p st o b m2 hc hb
      rw [h2] at h
      simp at h
      obtain ⟨pe, hpe1, hpe2⟩ := hc
      exact hr ⟨pe, hpe1, Or.inl ⟨b, by rw [hpe2, h.1.1]⟩⟩
    · have hnp : ∀ m, ¬ Current s p true m := fun m hc => hk ⟨true, m, hc, Or.inl rfl⟩
      have har : s.autoReload = true ∨ s.cache.get p = none := by
        cases hc : s.cache.get p with
        | none => exact Or.inr rfl
        | some pe =>
          left
          obtain ⟨⟨b, m⟩, hbm⟩ := Option.isSome_iff_exists.1 (hs.1.cur p pe hc)
          by_contra hne
          exact hk ⟨b, m, ⟨pe, hc, hbm⟩, Or.inr (by simpa using hne)⟩
      have := (entry_reload p st o hnp har).2 m' e' (by rw [h])
      exact hst this.1
  -- the lookup itself
  have hentry : (∃ e', (s.entry p st o).2.entries.get m = some e' ∧ e'.value = e.value) ∧
      (∀ q, Refers (s.entry p st o).2 q m → Refers s q m) := by
    have key : ∀ (pe : PathEntry M) en pe' m', s.getOrInsert pe st o = .ok (en, pe', m') →
        en.get m = some e := by
      intro pe en pe' m' hgi
      obtain ⟨hst', _, _, e0, he0, hget⟩ := getOrInsert_ok hgi
      rw [hget]
      have : m ≠ m' := fun h => hst (h ▸ hst')
      simp [this, he]
    unfold FileCache.entry
    cases hc : s.cache.get p with
    | none =>
      simp only
      cases hgi : s.getOrInsert PathEntry.default st o with
      | error x => exact ⟨⟨e, he, rfl⟩, fun _ h => h⟩
      | ok r =>
        obtain ⟨en, pe', m'⟩ := r
        obtain ⟨hst', hpe, _⟩ := getOrInsert_ok hgi
        have hne : m ≠ m' := fun h => hst (h ▸ hst')
        have hk := key _ _ _ _ hgi
        have href : ∀ q, Refers ({ s with cache := (s.cache.getOrInsert p pe').2, entries := en } : ElfCache P M F Pr D) q m → Refers s q m := by
          intro q hq
          obtain ⟨pq, h1, h2⟩ := refers_iff.1 hq
          simp only [InsertMap.get_getOrInsert, hc] at h1
          split at h1
          · rename_i hqp
            simp at h1; subst h1
            rw [hpe, (switchTo_spec _ (by simp [PathEntry.default]) m').1 m] at h2
            rcases h2 with h2 | h2
            · simp [PathEntry.default, PathEntry.metas] at h2
            · exact absurd h2 hne
          · exact refers_iff.2 ⟨pq, h1, h2⟩
        simp only
        cases en.get m' with
        | none => exact ⟨⟨e, hk, rfl⟩, href⟩
        | some x => exact ⟨⟨e, hk, rfl⟩, href⟩
    | some pep =>
      simp only
      have key2 : (∃ e', (s.reload p pep st o).2.entries.get m = some e' ∧ e'.value = e.value) ∧
          (∀ q, Refers (s.reload p pep st o).2 q m → Refers s q m) := by
        unfold FileCache.reload
        cases hgi : s.getOrInsert pep st o with
        | error x => exact ⟨⟨e, he, rfl⟩, fun _ h => h⟩
        | ok r =>
          obtain ⟨en, pe', m'⟩ := r
          obtain ⟨hst', hpe, _⟩ := getOrInsert_ok hgi
          have hne : m ≠ m' := fun h => hst (h ▸ hst')
          have hk := key _ _ _ _ hgi
          have href : ∀ q, Refers ({ s with cache := s.cache.update p (fun _ => pe'), entries := en } : ElfCache P M F Pr D) q m → Refers s q m := by
            intro q hq
            obtain ⟨pq, h1, h2⟩ := refers_iff.1 hq
            simp only [InsertMap.get_update] at h1
            split at h1
            · rename_i hqp; subst hqp
              rw [hc] at h1; simp at h1; subst h1
              rw [hpe, (switchTo_spec _ (hs.1.prev _ _ hc) m').1 m] at h2
              rcases h2 with h2 | h2
              · exact refers_iff.2 ⟨pep, hc, h2⟩
              · exact absurd h2 hne
            · exact refers_iff.2 ⟨pq, h1, h2⟩
          simp only
          cases en.get m' with
          | none => exact ⟨⟨e, hk, rfl⟩, href⟩
          | some x => exact ⟨⟨e, hk, rfl⟩, href⟩
      cases hcur : pep.current with
      | none => exact key2
      | some q' =>
        simp only
        split
        · split
          · exact ⟨⟨e, he, rfl⟩, fun _ h => h⟩
          · exact ⟨⟨e, he, rfl⟩, fun _ h => h⟩
        · exact key2
  unfold plain
  cases hr' : s.entry p st o with
  | mk r s' =>
    rw [hr'] at hentry
    obtain ⟨⟨e1, he1, hv1⟩, href⟩ := hentry
    cases r with
    | error x => exact ⟨⟨e1, he1, hv1⟩, href⟩
    | ok q =>
      obtain ⟨m', e'⟩ := q
      have hne := hid m' e' s' hr'
      simp only
      cases e'.value with
      | none =>
        simp only
        cases parse e'.file with
        | error x => exact ⟨⟨e1, he1, hv1⟩, href⟩
        | ok pr => exact ⟨⟨e1, by simp [setValue, Ne.symm hne]; exact he1, hv1⟩, href⟩
      | some data =>
        simp only
        cases data.elf with
        | some pr => exact ⟨⟨e1, he1, hv1⟩, href⟩
        | none =>
          simp only
          cases data.dwarf with
          | none => exact ⟨⟨e1, he1, hv1⟩, href⟩
          | some q =>
            obtain ⟨pr, d⟩ := q
            exact ⟨⟨e1, by simp [setValue, Ne.symm hne]; exact he1, hv1⟩, href⟩

theorem runNested_avoids (parse : F → Except Err Pr) (ns : List (Nested P M F))
    {s : ElfCache P M F Pr D} (hs : Inv s) (m : M) (hav : Avoids s ns m)
    (e : Entry F (ElfData Pr D)) (he : s.entries.get m = some e) :
    ∃ e', (runNested parse ns s).2.entries.get m = some e' ∧ e'.value = e.value := by
  induction ns generalizing s e with
  | nil => exact ⟨e, he, rfl⟩
  | cons n t ih =>
    obtain ⟨h1, h2⟩ := hav n (by simp)
    obtain ⟨⟨e1, he1, hv1⟩, href⟩ := plain_avoids hs n.path n.stat n.opened parse m h1 h2 e he
    obtain ⟨e2, he2, hv2⟩ := ih (plain_inv hs n.path n.stat n.opened parse) (by
      intro n' hn'
      have := hav n' (by simp [hn'])
      exact ⟨this.1, fun hr => this.2 (href _ hr)⟩) e1 he1
    exact ⟨e2, he2, hv2.trans hv1⟩

/-- **C53** (no panic, debug-info view; partial).  If the debug link destination and the
package file are not the file itself (under another name), asking for the view with debug
information fails only with the error of `stat`, `open`, parsing or building.  Missing for
the full claim: the case excluded by the hypothesis, in which the code does panic, see
`C53_self_reference_panics`. -/
theorem C53_dwarf_never_panics_partial (ar : Bool) (ops : List (Op P M F Pr D)) (p : P)
    (st : Except Err M) (o : Except Err F) (parse : F → Except Err Pr) (ns : List (Nested P M F))
    (build : Pr → List (Except Err Pr) → Except Err D) (err : Err)
    (hav : ∀ m e s', (run (FileCache.new ar : ElfCache P M F Pr D) ops).entry p st o = (.ok (m, e), s') →
      Avoids s' ns m)
    (h : (dwarf (run (FileCache.new ar : ElfCache P M F Pr D) ops) p st o parse ns build).1 = .error err) :
    st = .error err ∨ o = .error err ∨ (∃ f, parse f = .error err) ∨
      ∃ pr rs, build pr rs = .error err := by
  have hs := run_inv ar ops (P := P) (M := M) (F := F) (Pr := Pr) (D := D)
  generalize run (FileCache.new ar : ElfCache P M F Pr D) ops = s at hs h hav
  have h1 : Inv (s.entry p st o).2 := fileStep_inv hs (.entry p st o) (by simp)
  unfold dwarf at h
  cases hr : s.entry p st o with
  | mk r s' =>
    rw [hr] at h h1
    simp only at h1
    cases r with
    | error e =>
      simp at h; subst h
      by_cases hk : ∃ b m, Current s p b m ∧ (b = true ∨ s.autoReload = false)
      · obtain ⟨b, m, hc, hb⟩ := hk
        obtain ⟨e', _, h2⟩ := entry_keep hs.1 p st o b m hc hb
        rw [hr] at h2; simp at h2
      · have hnp : ∀ m, ¬ Current s p true m := fun m hc => hk ⟨true, m, hc, Or.inl rfl⟩
        have har : s.autoReload = true ∨ s.cache.get p = none := by
          cases hc : s.cache.get p with
          | none => exact Or.inr rfl
          | some pe =>
            left
            obtain ⟨⟨b, m⟩, hbm⟩ := Option.isSome_iff_exists.1 (hs.1.cur p pe hc)
            by_contra hne
            exact hk ⟨b, m, ⟨pe, hc, hbm⟩, Or.inr (by simpa using hne)⟩
        rcases ((entry_reload p st o hnp har).1 e (by rw [hr])).2 with h | ⟨m, _, _, h⟩
        · exact Or.inl h
        · exact Or.inr (Or.inl h)
    | ok q =>
      obtain ⟨m, e⟩ := q
      have hst := entry_stored hr
      simp only at h
      cases hv : e.value with
      | none =>
        simp only [hv] at h
        cases hp : parse e.file with
        | error e' => simp [hp] at h; subst h; exact Or.inr (Or.inr (Or.inl ⟨_, hp⟩))
        | ok pr =>
          simp only [hp] at h
          cases hb : build pr (runNested parse ns s').1 with
          | error e' => simp [hb] at h; subst h; exact Or.inr (Or.inr (Or.inr ⟨_, _, hb⟩))
          | ok d =>
            obtain ⟨e2, he2, hv2⟩ := runNested_avoids parse ns h1 m (hav m e s' hr) e hst
            rw [hv] at hv2
            simp [hb, he2, hv2] at h
      | some data =>
        have hd := h1.2 m e data hst hv
        simp only [hv] at h
        cases hdw : data.dwarf with
        | some r => simp [hdw] at h
        | none =>
          cases hde : data.elf with
          | none =>
            rcases hd.1 with h' | h'
            · simp [hde] at h'
            · simp [hdw] at h'
          | some pr =>
            simp only [hdw, hde] at h
            cases hb : build pr (runNested parse ns s').1 with
            | error e' => simp [hb] at h; subst h; exact Or.inr (Or.inr (Or.inr ⟨_, _, hb⟩))
            | ok d =>
              obtain ⟨e', d', hk1, hk2, hk3, hk4⟩ := runNested_keeps parse ns h1 m e data hst hv
              simp [hb, hk1, hk2, hk3, hdw] at h

/-- **C53** (violation).  On an empty cache, asking for the debug-info view of a file whose
package file is another name for the same file (path `p`, nested path `q`, one identity
`m`) panics, although every file operation, parsing and building succeed. -/
theorem C53_self_reference_panics (ar : Bool) (p q : P) (hpq : q ≠ p) (m : M) (f f' : F) (pr : Pr)
    (d : D) :
    (dwarf (FileCache.new ar : ElfCache P M F Pr D) p (.ok m) (.ok f) (fun _ => .ok pr)
      [⟨q, .ok m, .ok f'⟩] (fun _ _ => .ok d)).1 = .error .panic := by
  simp [dwarf, FileCache.entry, FileCache.new, InsertMap.get, InsertMap.find, FileCache.getOrInsert,
    InsertMap.getOrTryInsert, Except.map, FileCache.switchTo, PathEntry.default, InsertMap.update,
    InsertMap.getOrInsert, runNested, plain, setValue, hpq, Ne.symm hpq]

/-- The hypothesis of `C53_dwarf_never_panics_partial` is met by a package file that is a
different file. -/
example : (dwarf (FileCache.new true : ElfCache Nat Nat Nat Nat Nat) 1 (.ok 10) (.ok 100)
    (fun f => .ok f) [⟨2, .ok 11, .ok 101⟩, ⟨3, .error .notFound, .error .notFound⟩]
    (fun pr rs => .ok (pr + rs.length))).1 = .ok (100, 102) := by rfl

/-! ## C15 -/

theorem update_self {K : Type u} {V : Type v} [DecidableEq K] {m : InsertMap K V} (hk : m.KeysNodup)
    {k : K} {v : V} (h : m.get k = some v) (g : V → V) (hg : g v = v) : m.update k g = m := by
  unfold InsertMap.update
  obtain ⟨l⟩ := m
  simp only [InsertMap.mk.injEq]
  conv_rhs => rw [← List.map_id l]
  apply List.map_congr_left
  intro p hp
  by_cases hpk : p.1 = k
  · obtain ⟨a, b⟩ := p
    simp only at hpk
    subst hpk
    have := InsertMap.find_of_mem (l := l) hk hp
    have h' : InsertMap.find l a = some v := h
    rw [this] at h'
    simp at h'
    subst h'
    simp [hg]
  · simp [hpk]

theorem update_update {K : Type u} {V : Type v} [DecidableEq K] (m : InsertMap K V) (k : K)
    (g g' : V → V) : (m.update k g).update k g' = m.update k (g' ∘ g) := by
  unfold InsertMap.update
  simp only [List.map_map]
  congr 1
  apply List.map_congr_left
  intro p _
  simp only [Function.comp]
  by_cases hpk : p.1 = k <;> simp [hpk]

/-- Unpinning and pinning again a pinned path is the identity. -/
theorem repin {s : ElfCache P M F Pr D} (hs : WF s) {p : P} {m : M} (h : Current s p true m) :
    ((s.setPinState p false).2.setPinState p true).2 = s := by
  obtain ⟨pe, hc, hpe⟩ := h
  have h1 : (s.setPinState p false).2 =
      { s with cache := s.cache.update p (fun pe => { pe with current := some (false, m) }) } := by
    unfold FileCache.setPinState; simp only [hc, hpe]
  rw [h1]
  unfold FileCache.setPinState
  simp only [InsertMap.get_update, hc, if_true, Option.map_some]
  rw [update_update, update_self hs.keysP hc]
  simp only [Function.comp, ← hpe]

/-- Pinning twice is pinning once. -/
theorem pin_of_unknown {s : ElfCache P M F Pr D} {p : P} (h : s.cache.get p = none) (b : Bool) :
    (s.setPinState p b).2 = s := by
  unfold FileCache.setPinState; simp [h]

/-- Everything stored in `s` is still stored in `s'`. -/
def Keeps (s s' : ElfCache P M F Pr D) : Prop :=
  ∀ m e, s.entries.get m = some e → ∃ e', s'.entries.get m = some e' ∧ e'.file = e.file ∧
    e'.references = e.references ∧
    ∀ d, e.value = some d → ∃ d', e'.value = some d' ∧ d'.dwarf = d.dwarf ∧
      ∀ x, d.elf = some x → d'.elf = some x

theorem Keeps.refl (s : ElfCache P M F Pr D) : Keeps s s :=
  fun m e h => ⟨e, h, rfl, rfl, fun d hd => ⟨d, hd, rfl, fun _ h => h⟩⟩

/-- What the plain lookup does to the state besides the file lookup. -/
theorem plain_state {s s1 : ElfCache P M F Pr D} {p : P} {st : Except Err M}
    {o : Except Err F} {parse : F → Except Err Pr} (hr : (s.entry p st o).2 = s1) :
    (plain s p st o parse).2.cache = s1.cache ∧
    (plain s p st o parse).2.autoReload = s1.autoReload ∧ Keeps s1 (plain s p st o parse).2 ∧
    ∀ e, (plain s p st o parse).1 = .error e → (plain s p st o parse).2 = s1 := by
  subst hr
  unfold plain
  cases hr : s.entry p st o with
  | mk r s' =>
    have triv : s'.cache = s'.cache ∧ s'.autoReload = s'.autoReload ∧ Keeps s' s' ∧
        ∀ (e : Err) (r : Except Err Pr), r = .error e → s' = s' :=
      ⟨rfl, rfl, Keeps.refl s', fun _ _ _ => rfl⟩
    cases r with
    | error e => exact ⟨rfl, rfl, Keeps.refl s', fun _ _ => rfl⟩
    | ok q =>
      obtain ⟨m, e⟩ := q
      have hst := entry_stored hr
      simp only
      cases hv : e.value with
      | none =>
        simp only
        cases parse e.file with
        | error err => exact ⟨rfl, rfl, Keeps.refl s', fun _ _ => rfl⟩
        | ok pr =>
          refine ⟨rfl, rfl, ?_, by intro e h; simp at h⟩
          intro x ex hx
          by_cases hxm : x = m
          · subst hxm
            rw [hst] at hx; simp at hx; subst hx
            refine ⟨{ e with value := some ⟨some pr, none⟩ }, ?_, rfl, rfl, ?_⟩
            · simp only [setValue, InsertMap.get_update, if_true]; rw [hst]; rfl
            · intro d hd; rw [hv] at hd; simp at hd
          · exact ⟨ex, by simp only [setValue, InsertMap.get_update, hxm, if_false]; exact hx, rfl, rfl,
              fun d hd => ⟨d, hd, rfl, fun _ h => h⟩⟩
      | some data =>
        simp only
        cases hde : data.elf with
        | some pr => exact ⟨rfl, rfl, Keeps.refl s', fun _ _ => rfl⟩
        | none =>
          simp only
          cases hdw : data.dwarf with
          | none => exact ⟨rfl, rfl, Keeps.refl s', fun _ _ => rfl⟩
          | some q =>
            obtain ⟨pr, dd⟩ := q
            refine ⟨rfl, rfl, ?_, by intro e h; simp at h⟩
            intro x ex hx
            by_cases hxm : x = m
            · subst hxm
              rw [hst] at hx; simp at hx; subst hx
              refine ⟨{ e with value := some ⟨some pr, some (pr, dd)⟩ }, ?_, rfl, rfl, ?_⟩
              · simp only [setValue, InsertMap.get_update, if_true]; rw [hst]; rfl
              · intro d hd; rw [hv] at hd; simp at hd; subst hd
                exact ⟨_, rfl, hdw.symm, by intro x hx; rw [hde] at hx; simp at hx⟩
            · exact ⟨ex, by simp only [setValue, InsertMap.get_update, hxm, if_false]; exact hx, rfl, rfl,
                fun d hd => ⟨d, hd, rfl, fun _ h => h⟩⟩

/-- Looking up a path whose current identity is unchanged keeps the cache, except that the
path is unpinned afterwards. -/
theorem entry_same_identity {s : ElfCache P M F Pr D} (hs : WF s) (har : s.autoReload = true)
    (p : P) (m : M) (hcur : Current s p false m) (o : Except Err F) :
    (s.entry p (.ok m) o).2 = s := by
  obtain ⟨pe, hc, hpe⟩ := hcur
  have hmem : m ∈ pe.metas := mem_metas.2 (Or.inl ⟨false, hpe⟩)
  cases hg : s.entries.get m with
  | none =>
    have := hs.absent m hg
    have := refCount_pos_of hc hmem
    omega
  | some e =>
    have hgi : s.getOrInsert pe (.ok m) o = .ok (s.entries, pe, m) := by
      unfold FileCache.getOrInsert InsertMap.getOrTryInsert
      simp only
      rw [show InsertMap.find s.entries.pairs m = some e from hg]
      obtain ⟨cur, prev⟩ := pe
      simp only at hpe
      subst hpe
      simp [FileCache.switchTo]
    unfold FileCache.entry FileCache.reload
    simp only [hc, hpe, har, Bool.not_true, Bool.or_self, Bool.false_eq_true, if_false, hgi, hg]
    rw [update_self hs.keysP hc _ rfl]
    cases s
    simp_all

/-- **C15** (partial: the path is pinned by an earlier successful request).  If a request to
cache an ELF file fails, and the file cannot be found or opened any more, or is still the
same file, then all path entries are exactly as before (in particular the path stays pinned
at the same file), and everything stored for any file is still stored.  Missing for the full
claim: paths known but not pinned (`C15_failed_cache_pins`), and a file that was replaced by
an unusable one (`C15_failed_cache_replaces`), where the code does not behave as documented. -/
theorem C15_failed_cache_partial (ar : Bool) (ops : List (Op P M F Pr D)) (p : P)
    (st : Except Err M) (o : Except Err F) (parse : F → Except Err Pr)
    (fill : Pr → Except Err Unit) (s : ElfCache P M F Pr D)
    (hs : s = run (FileCache.new ar) ops) (m : M) (hp : Current s p true m)
    (hfs : (∃ e, st = .error e) ∨ (∃ m' e, st = .ok m' ∧ s.entries.get m' = none ∧ o = .error e) ∨
      st = .ok m) :
    (cacheElf s p st o parse fill).2.cache = s.cache ∧ Keeps s (cacheElf s p st o parse fill).2 := by
  have hinv := run_inv ar ops (P := P) (M := M) (F := F) (Pr := Pr) (D := D)
  rw [← hs] at hinv
  have hinv1 : Inv (s.setPinState p false).2 := fileStep_inv hinv (.unpin p) (by simp)
  have hent : (s.setPinState p false).2.entries = s.entries := by
    unfold FileCache.setPinState; (repeat' split) <;> rfl
  have hcur : Current (s.setPinState p false).2 p false m := by
    obtain ⟨pe, h1, h2⟩ := hp
    refine ⟨{ pe with current := some (false, m) }, ?_, rfl⟩
    unfold FileCache.setPinState
    simp [h1, h2]
  -- the lookup does not change the unpinned cache
  have hlook : ((s.setPinState p false).2.entry p st o).2 = (s.setPinState p false).2 := by
    cases har : (s.setPinState p false).2.autoReload with
    | false =>
      obtain ⟨e, _, h2⟩ := entry_keep hinv1.1 p st o false m hcur (Or.inr har)
      rw [h2]
    | true =>
      have hnp : ∀ m, ¬ Current (s.setPinState p false).2 p true m := by
        rintro m' ⟨pe', h1, h2⟩
        obtain ⟨pe, h3, h4⟩ := hcur
        rw [h1] at h3; simp at h3; subst h3; rw [h2] at h4; simp at h4
      have hre := entry_reload p st o hnp (Or.inl har)
      rcases hfs with hfs | hfs | hfs
      · obtain ⟨e, rfl⟩ := hfs
        cases hr : ((s.setPinState p false).2.entry p (.error e) o).1 with
        | error e' => exact (hre.1 e' hr).1
        | ok q => have := (hre.2 q.1 q.2 hr).1; simp at this
      · obtain ⟨m', e, rfl, hn, rfl⟩ := hfs
        cases hr : ((s.setPinState p false).2.entry p (.ok m') (.error e)).1 with
        | error e' => exact (hre.1 e' hr).1
        | ok q =>
          have h1 := hre.2 q.1 q.2 hr
          have hm := h1.1
          simp at hm
          rw [hent, ← hm, hn] at h1
          simp at h1
      · subst hfs
        exact entry_same_identity hinv1.1 har p m hcur o
  obtain ⟨h1, h2, h3, h4⟩ := plain_state (parse := parse) hlook
  have hrep := repin hinv.1 hp
  have hfin : (cacheElf s p st o parse fill).2 =
      ((plain (s.setPinState p false).2 p st o parse).2.setPinState p true).2 := by
    unfold cacheElf
    simp only
    cases (plain (s.setPinState p false).2 p st o parse).1 <;> rfl
  have hcache : ∀ a b : ElfCache P M F Pr D, a.cache = b.cache →
      (a.setPinState p true).2.cache = (b.setPinState p true).2.cache := by
    intro a b hab
    unfold FileCache.setPinState
    rw [hab]
    (repeat' split)
    all_goals first | exact hab | rfl | simp_all
  have hent2 : ∀ a : ElfCache P M F Pr D, (a.setPinState p true).2.entries = a.entries := by
    intro a
    unfold FileCache.setPinState; (repeat' split) <;> rfl
  refine ⟨?_, ?_⟩
  · rw [hfin, hcache _ _ h1, hrep]
  · intro x e hx
    rw [hfin, hent2]
    exact h3 x e (by rw [hent]; exact hx)

/-- **C15** (unknown path).  If a request to cache a file that was never looked up fails
because it cannot be found or opened, the cache is exactly as before. -/
theorem C15_failed_cache_unknown_path (ar : Bool) (ops : List (Op P M F Pr D)) (p : P)
    (st : Except Err M) (o : Except Err F) (parse : F → Except Err Pr)
    (fill : Pr → Except Err Unit) (s : ElfCache P M F Pr D)
    (_hs : s = run (FileCache.new ar) ops) (hp : s.cache.get p = none)
    (hfs : (∃ e, st = .error e) ∨ (∃ m' e, st = .ok m' ∧ s.entries.get m' = none ∧ o = .error e)) :
    (∃ e, (cacheElf s p st o parse fill).1 = .error e) ∧ (cacheElf s p st o parse fill).2 = s := by
  have hnp : ∀ m, ¬ Current s p true m := by
    rintro m ⟨pe, h1, _⟩; rw [hp] at h1; simp at h1
  have hre := entry_reload p st o hnp (Or.inr hp)
  have herr : ∃ e, (s.entry p st o).1 = .error e := by
    cases hr : (s.entry p st o).1 with
    | error e => exact ⟨e, rfl⟩
    | ok q =>
      have h1 := hre.2 q.1 q.2 hr
      rcases hfs with ⟨e, rfl⟩ | ⟨m', e, rfl, hn, rfl⟩
      · simp at h1
      · have hm := h1.1
        simp at hm
        rw [← hm, hn] at h1
        simp at h1
  obtain ⟨e, he⟩ := herr
  have hsame := (hre.1 e he).1
  have hpl : plain s p st o parse = (.error e, s) := by
    unfold plain
    cases hr : s.entry p st o with
    | mk r s2 =>
      rw [hr] at he hsame
      simp only at he hsame
      subst he; subst hsame
      rfl
  unfold cacheElf
  rw [pin_of_unknown hp]
  simp only [hpl]
  rw [pin_of_unknown hp]
  exact ⟨⟨e, rfl⟩, rfl⟩

/-- **C15** (violation 1).  A path that was looked up before (hence known, not pinned) in a
reloading cache: a failing request to cache it, because the file is momentarily missing,
pins the old file.  A later lookup then returns the old identity although the file system
reports another one, whereas without the failed request it would return the present one. -/
theorem C15_failed_cache_pins (ops : List (Op P M F Pr D)) (p : P) (e : Err) (o : Except Err F)
    (parse : F → Except Err Pr) (fill : Pr → Except Err Unit) (s : ElfCache P M F Pr D)
    (hs : s = run (FileCache.new true) ops) (har : s.autoReload = true) (m : M)
    (hp : Current s p false m) :
    (cacheElf s p (.error e) o parse fill).1 = .error e ∧
    Current (cacheElf s p (.error e) o parse fill).2 p true m ∧
    ∀ m2 f2, m2 ≠ m →
      (∃ en, ((cacheElf s p (.error e) o parse fill).2.entry p (.ok m2) (.ok f2)).1 = .ok (m, en)) ∧
      (∃ en, (s.entry p (.ok m2) (.ok f2)).1 = .ok (m2, en)) := by
  have hinv := run_inv true ops (P := P) (M := M) (F := F) (Pr := Pr) (D := D)
  rw [← hs] at hinv
  have hinvc := cacheElf_inv hinv p (.error e) o parse fill
  have hnp : ∀ m, ¬ Current s p true m := by
    rintro m' ⟨pe', h1, h2⟩
    obtain ⟨pe, h3, h4⟩ := hp
    rw [h1] at h3; simp at h3; subst h3; rw [h2] at h4; simp at h4
  have hun : (s.setPinState p false).2 = s := by
    obtain ⟨pe, h1, h2⟩ := hp
    unfold FileCache.setPinState
    simp only [h1, h2]
    rw [update_self hinv.1.keysP h1 _ (by rw [← h2])]
  have hre := entry_reload p (.error e) o hnp (Or.inl har)
  have hpl : plain s p (.error e) o parse = (.error e, s) := by
    unfold plain
    cases hr : s.entry p (.error e) o with
    | mk r s2 =>
      cases r with
      | ok q => have := (hre.2 q.1 q.2 (by rw [hr])).1; simp at this
      | error e' =>
        have h1 := hre.1 e' (by rw [hr])
        rw [hr] at h1
        rcases h1.2 with h | ⟨m, h, _⟩
        · simp at h; subst h
          have h2 := h1.1
          simp only at h2
          subst h2
          rfl
        · simp at h
  have hc : cacheElf s p (.error e) o parse fill = (.error e, (s.setPinState p true).2) := by
    unfold cacheElf
    rw [hun]
    simp only [hpl]
  have hcur : Current (s.setPinState p true).2 p true m := by
    obtain ⟨pe, h1, h2⟩ := hp
    refine ⟨{ pe with current := some (true, m) }, ?_, rfl⟩
    unfold FileCache.setPinState
    simp [h1, h2]
  rw [hc] at hinvc ⊢
  refine ⟨rfl, hcur, ?_⟩
  intro m2 f2 hne
  refine ⟨?_, ?_⟩
  · obtain ⟨en, _, h2⟩ := entry_keep hinvc.1 p (.ok m2) (.ok f2) true m hcur (Or.inl rfl)
    exact ⟨en, by rw [h2]⟩
  · have hre2 := entry_reload p (.ok m2) (.ok f2) hnp (Or.inl har)
    cases hr : (s.entry p (.ok m2) (.ok f2)).1 with
    | error e' =>
      have := (hre2.1 e' hr).2
      simp at this
    | ok q =>
      have h1 := (hre2.2 q.1 q.2 hr).1
      simp at h1
      exact ⟨q.2, by rw [h1]⟩

/-- **C15** (violation 2).  A path pinned at `m` whose file was replaced by one (identity
`m2`) that does not parse: the failing request leaves the path pinned at the unusable new
file, so that later lookups return `m2` instead of the previously cached `m`. -/
theorem C15_failed_cache_replaces (ops : List (Op P M F Pr D)) (p : P) (f2 : F) (err : Err)
    (parse : F → Except Err Pr) (fill : Pr → Except Err Unit) (s : ElfCache P M F Pr D)
    (hs : s = run (FileCache.new true) ops) (har : s.autoReload = true) (m m2 : M)
    (_hne : m2 ≠ m) (hp : Current s p true m) (hnew : s.entries.get m2 = none)
    (hparse : parse f2 = .error err) :
    (cacheElf s p (.ok m2) (.ok f2) parse fill).1 = .error err ∧
    Current (cacheElf s p (.ok m2) (.ok f2) parse fill).2 p true m2 ∧
    ∀ st o, ∃ en, ((cacheElf s p (.ok m2) (.ok f2) parse fill).2.entry p st o).1 = .ok (m2, en) := by
  have hinv := run_inv true ops (P := P) (M := M) (F := F) (Pr := Pr) (D := D)
  rw [← hs] at hinv
  have hinvc := cacheElf_inv hinv p (.ok m2) (.ok f2) parse fill
  have hent : (s.setPinState p false).2.entries = s.entries := by
    unfold FileCache.setPinState; (repeat' split) <;> rfl
  have har1 : (s.setPinState p false).2.autoReload = s.autoReload := by
    unfold FileCache.setPinState; (repeat' split) <;> rfl
  have hcur : Current (s.setPinState p false).2 p false m := by
    obtain ⟨pe, h1, h2⟩ := hp
    refine ⟨{ pe with current := some (false, m) }, ?_, rfl⟩
    unfold FileCache.setPinState
    simp [h1, h2]
  have hnp : ∀ m, ¬ Current (s.setPinState p false).2 p true m := by
    rintro m' ⟨pe', h1, h2⟩
    obtain ⟨pe, h3, h4⟩ := hcur
    rw [h1] at h3; simp at h3; subst h3; rw [h2] at h4; simp at h4
  have hre := entry_reload p (.ok m2) (.ok f2) hnp (Or.inl (har1.trans har))
  have hpl : (plain (s.setPinState p false).2 p (.ok m2) (.ok f2) parse).1 = .error err ∧
      Current (plain (s.setPinState p false).2 p (.ok m2) (.ok f2) parse).2 p false m2 := by
    unfold plain
    cases hr : (s.setPinState p false).2.entry p (.ok m2) (.ok f2) with
    | mk r s2 =>
      cases r with
      | error e' =>
        have h1 := (hre.1 e' (by rw [hr])).2
        simp at h1
      | ok q =>
        obtain ⟨m', e'⟩ := q
        have h1 := hre.2 m' e' (by rw [hr])
        have hm := h1.1
        simp at hm; subst hm
        rw [hent, hnew, hr] at h1
        simp at h1
        obtain ⟨h2, h3, h4⟩ := h1
        simp only [h4]
        rw [← h3, hparse]
        exact ⟨rfl, h2⟩
  have hfin : cacheElf s p (.ok m2) (.ok f2) parse fill =
      (.error err, ((plain (s.setPinState p false).2 p (.ok m2) (.ok f2) parse).2.setPinState p true).2) := by
    unfold cacheElf
    simp only [hpl.1]
  have hcur2 : Current (cacheElf s p (.ok m2) (.ok f2) parse fill).2 p true m2 := by
    rw [hfin]
    obtain ⟨pe, h1, h2⟩ := hpl.2
    generalize plain (s.setPinState p false).2 p (.ok m2) (.ok f2) parse = r at h1
    refine ⟨{ pe with current := some (true, m2) }, ?_, rfl⟩
    unfold FileCache.setPinState
    simp [h1, h2]
  refine ⟨by rw [hfin], hcur2, ?_⟩
  intro st o
  obtain ⟨en, _, h2⟩ := entry_keep hinvc.1 p st o true m2 hcur2 (Or.inl rfl)
  exact ⟨en, by rw [h2]⟩

/-- **C15** (process memory maps).  A failing request to cache a process's memory map
changes nothing; a successful one affects that process only; eviction likewise. -/
theorem C15_process {Pid : Type u} {E : Type v} [DecidableEq Pid] (vmas : Pid → Option (List E))
    (pid : Pid) (c : Bool) (parsed : Except Err (List E)) :
    (∀ e, (cacheProcess vmas pid c parsed).1 = .error e → (cacheProcess vmas pid c parsed).2 = vmas) ∧
    (∀ q, q ≠ pid → (cacheProcess vmas pid c parsed).2 q = vmas q) ∧
    (∀ l, c = true → parsed = .ok l → (cacheProcess vmas pid c parsed).2 pid = some l) ∧
    (evictProcess vmas pid pid = none ∧ ∀ q, q ≠ pid → evictProcess vmas pid q = vmas q) := by
  unfold cacheProcess evictProcess
  refine ⟨?_, ?_, ?_, by simp, ?_⟩
  · intro e
    cases c <;> cases parsed <;> simp
  · intro q hq
    cases c <;> cases parsed <;> simp [hq]
  · rintro l rfl rfl
    simp
  · intro q hq; simp [hq]

/-- The two violations happen in a concrete history: file 10 at path 1 looked up, file then
missing; and file 10 at path 1 cached, then replaced by the unparsable file 20. -/
example :
    let s : ElfCache Nat Nat Nat Nat Nat := run (FileCache.new true)
      [.plain 1 (.ok 10) (.ok 100) (fun f => .ok f)]
    Current s 1 false 10 ∧
    (cacheElf s 1 (.error .notFound) (.error .notFound) (fun f => .ok f) (fun _ => .ok ())).1 =
      .error .notFound := ⟨⟨⟨some (false, 10), []⟩, rfl, rfl⟩, rfl⟩

example :
    let s : ElfCache Nat Nat Nat Nat Nat := run (FileCache.new true)
      [.cache 1 (.ok 10) (.ok 100) (fun f => .ok f) (fun _ => .ok ())]
    Current s 1 true 10 ∧ s.entries.get 20 = none ∧
    (cacheElf s 1 (.ok 20) (.ok 200) (fun f => if f = 200 then .error .invalidData else .ok f)
      (fun _ => .ok ())).1 = .error .invalidData := ⟨⟨⟨some (true, 10), []⟩, rfl, rfl⟩, rfl, rfl⟩

end ElfCache
end Blazesym.Cache
