import Verif.Session.ResolveLemmas

/-! # The ELF cache holds what a fresh lookup yields -/

set_option autoImplicit false

namespace Blazesym.Cache
namespace ElfCache

open Blazesym.Spec

variable {P M F Pr D : Type} [DecidableEq P] [DecidableEq M]

/-- What is stored for a version, up to the name it is used under. -/
def PlainVal (parse : P → F → Except Err Pr) (Named : M → P → Prop) (m : M) (f : F)
    (d : ElfData Pr D) : Prop :=
  (d.elf.isSome ∨ d.dwarf.isSome) ∧ (∀ p, d.elf = some p → ∃ q, Named m q ∧ parse q f = .ok p) ∧
    ∀ p r, d.dwarf = some (p, r) → ∃ q, Named m q ∧ parse q f = .ok p

/-- What is stored for a version. -/
def ElfVal (u : Universe P M F Pr D) (m : M) (f : F) (d : ElfData Pr D) : Prop :=
  (d.elf.isSome ∨ d.dwarf.isSome) ∧ (∀ p, d.elf = some p → u.parse (u.name m) f = .ok p) ∧
    ∀ p r, d.dwarf = some (p, r) → u.parse (u.name m) f = .ok p ∧ u.debug m = .ok r

theorem setValue_faithful {contents : M → Except Err F} {Val : M → F → ElfData Pr D → Prop}
    {s : ElfCache P M F Pr D} (hs : Faithful contents Val s) (m : M) (v : ElfData Pr D)
    (h : ∀ e, s.entries.get m = some e → Val m e.file v) : Faithful contents Val (setValue s m v) := by
  refine faithful_of_values hs (setValue_wf hs.wf m v) ?_
  intro x ex hx
  simp only [setValue, InsertMap.get_update] at hx
  split at hx
  · rename_i hxm
    subst hxm
    cases hg : s.entries.get x with
    | none => simp [hg] at hx
    | some e0 =>
      simp only [hg, Option.map_some, Option.some.injEq] at hx
      subst hx
      right
      refine ⟨hs.file x e0 hg, ?_⟩
      intro t ht
      simp only [Option.some.injEq] at ht
      subst ht
      exact h e0 hg
  · exact Or.inl ⟨ex, hx, rfl, rfl⟩

theorem setValue_frame (stat : P → Except Err M) (s : ElfCache P M F Pr D) (m : M) (v : ElfData Pr D) :
    Frame stat s (setValue s m v) := frame_of_cache rfl rfl

theorem setValue_other (s : ElfCache P M F Pr D) (m : M) (v : ElfData Pr D) (x : M) (h : x ≠ m) :
    (setValue s m v).entries.get x = s.entries.get x := by
  simp [setValue, h]

/-- The plain view of the file at a path, whatever names files have been used under. -/
theorem plainOn_named {disk : Disk P M F} {parse : P → F → Except Err Pr} {Named : M → P → Prop}
    {s : ElfCache P M F Pr D} (hs : Faithful disk.contents (PlainVal parse Named) s) (p r : P)
    (hn : ∀ m, effective s disk.stat p = .ok m → Named m r) :
    (∃ q, (∀ m, effective s disk.stat p = .ok m → Named m q) ∧
      (plainOn s disk parse p r).1 =
        ofVersion disk.contents (fun _ f => parse q f) (effective s disk.stat p)) ∧
    Faithful disk.contents (PlainVal parse Named) (plainOn s disk parse p r).2 ∧
    Frame disk.stat s (plainOn s disk parse p r).2 := by
  obtain ⟨h1, h2, h3⟩ := entry_faithful hs p
  unfold plainOn plain ofVersion
  cases he : effective s disk.stat p with
  | error e => rw [h1 e he]; exact ⟨⟨r, by simp, rfl⟩, hs, Frame.refl _ _⟩
  | ok m =>
    have hnm := hn m he
    cases hc : disk.contents m with
    | error e =>
      rw [h2 m e he hc]
      exact ⟨⟨r, by intro m' h; cases h; exact hnm, by simp [hc]⟩, hs, Frame.refl _ _⟩
    | ok f =>
      obtain ⟨e, s', hent, hf, hg, hs', hfr, _⟩ := h3 m f he hc
      rw [hent]
      simp only [hc]
      cases hv : e.value with
      | some data =>
        obtain ⟨hdok, hq1, hq2⟩ := hs'.value m e data hg hv
        rw [hf] at hq1 hq2
        simp only
        cases hde : data.elf with
        | some pr =>
          obtain ⟨q, hq, hqp⟩ := hq1 pr hde
          simp only
          exact ⟨⟨q, by intro m' h; cases h; exact hq, hqp.symm⟩, hs', hfr⟩
        | none =>
          cases hdw : data.dwarf with
          | none => exfalso; rcases hdok with h | h <;> simp [hde, hdw] at h
          | some x =>
            obtain ⟨pr, dd⟩ := x
            obtain ⟨q, hq, hqp⟩ := hq2 pr dd hdw
            simp only
            refine ⟨⟨q, by intro m' h; cases h; exact hq, hqp.symm⟩, ?_, hfr.trans (setValue_frame _ _ _ _)⟩
            refine setValue_faithful hs' m _ ?_
            intro e' he'
            rw [hg] at he'; cases he'
            refine ⟨Or.inl rfl, ?_, ?_⟩
            · intro a ha
              simp only [Option.some.injEq] at ha
              subst ha
              rw [hf]; exact ⟨q, hq, hqp⟩
            · intro a b hb
              rw [hf]
              exact hq2 a b (hdw.trans hb)
      | none =>
        simp only
        rw [hf]
        cases hpr : parse r f with
        | error err => exact ⟨⟨r, by intro m' h; cases h; exact hnm, by simp [hpr]⟩, hs', hfr⟩
        | ok pr =>
          refine ⟨⟨r, by intro m' h; cases h; exact hnm, by simp [hpr]⟩, ?_, hfr.trans (setValue_frame _ _ _ _)⟩
          refine setValue_faithful hs' m _ ?_
          intro e' he'
          rw [hg] at he'; cases he'
          refine ⟨Or.inl rfl, ?_, by simp⟩
          intro a ha
          simp only [Option.some.injEq] at ha
          subst ha
          rw [hf]; exact ⟨r, hnm, hpr⟩

/-- Running a computation on the cache, whatever names files have been used under. -/
theorem runProg_named {disk : Disk P M F} {parse : P → F → Except Err Pr} (g : Prog P Pr D)
    {s : ElfCache P M F Pr D}
    (hs : Faithful disk.contents (PlainVal parse (fun _ _ => True)) s) :
    Faithful disk.contents (PlainVal parse (fun _ _ => True)) (runProg disk parse g s).2 ∧
    Frame disk.stat s (runProg disk parse g s).2 := by
  induction g generalizing s with
  | done r => exact ⟨hs, Frame.refl _ _⟩
  | ask p k ih =>
    obtain ⟨_, h2, h3⟩ := plainOn_named hs p p (fun _ _ => trivial)
    rw [runProg]
    cases hr : plainOn s disk parse p p with
    | mk r s' =>
      rw [hr] at h2 h3
      simp only at h2 h3 ⊢
      obtain ⟨h4, h5⟩ := ih r h2
      exact ⟨h4, h3.trans h5⟩

/-- A lookup with debug information, whatever names files have been used under. -/
theorem dwarfOn_named {disk : Disk P M F} {parse : P → F → Except Err Pr} {build : Pr → Prog P Pr D}
    {s : ElfCache P M F Pr D}
    (hs : Faithful disk.contents (PlainVal parse (fun _ _ => True)) s) (p r : P) :
    Faithful disk.contents (PlainVal parse (fun _ _ => True)) (dwarfOn s disk parse build p r).2 ∧
    Frame disk.stat s (dwarfOn s disk parse build p r).2 := by
  obtain ⟨h1, h2, h3⟩ := entry_faithful hs p
  unfold dwarfOn
  cases he : effective s disk.stat p with
  | error e => rw [h1 e he]; exact ⟨hs, Frame.refl _ _⟩
  | ok m =>
    cases hc : disk.contents m with
    | error e => rw [h2 m e he hc]; exact ⟨hs, Frame.refl _ _⟩
    | ok f =>
      obtain ⟨e, s', hent, hf, hg, hs', hfr, _⟩ := h3 m f he hc
      rw [hent]
      simp only
      have hrun := fun pr => runProg_named (build pr) hs'
      cases hv : e.value with
      | some data =>
        obtain ⟨hdok, hq1, hq2⟩ := hs'.value m e data hg hv
        rw [hf] at hq1 hq2
        simp only
        cases hdw : data.dwarf with
        | some x => exact ⟨hs', hfr⟩
        | none =>
          cases hde : data.elf with
          | none => exact ⟨hs', hfr⟩
          | some pr =>
            obtain ⟨q, _, hqp⟩ := hq1 pr hde
            obtain ⟨h4, h5⟩ := hrun pr
            simp only
            cases hr : runProg disk parse (build pr) s' with
            | mk res s2 =>
              rw [hr] at h4 h5
              simp only at h4 h5
              cases res with
              | error err => exact ⟨h4, hfr.trans h5⟩
              | ok d =>
                simp only
                cases hg2 : s2.entries.get m with
                | none => exact ⟨h4, hfr.trans h5⟩
                | some e2 =>
                  simp only
                  cases hv2 : e2.value with
                  | none => exact ⟨h4, hfr.trans h5⟩
                  | some data2 =>
                    simp only
                    cases hd2 : data2.dwarf with
                    | some x => exact ⟨h4, hfr.trans h5⟩
                    | none =>
                      simp only
                      refine ⟨?_, (hfr.trans h5).trans (setValue_frame _ _ _ _)⟩
                      refine setValue_faithful h4 m _ ?_
                      intro e' he'
                      rw [hg2] at he'; cases he'
                      obtain ⟨_, hb1, _⟩ := h4.value m e2 data2 hg2 hv2
                      have hfile : e2.file = f := by
                        have := h4.file m e2 hg2
                        rw [hc] at this
                        exact (Except.ok.inj this).symm
                      refine ⟨Or.inr rfl, hb1, ?_⟩
                      intro a b hb
                      simp only [Option.some.injEq, Prod.mk.injEq] at hb
                      obtain ⟨rfl, rfl⟩ := hb
                      rw [hfile]; exact ⟨q, trivial, hqp⟩
      | none =>
        simp only
        rw [hf]
        cases hpr : parse r f with
        | error err => exact ⟨hs', hfr⟩
        | ok pr =>
          obtain ⟨h4, h5⟩ := hrun pr
          simp only
          cases hr : runProg disk parse (build pr) s' with
          | mk res s2 =>
            rw [hr] at h4 h5
            simp only at h4 h5
            cases res with
            | error err => exact ⟨h4, hfr.trans h5⟩
            | ok d =>
              simp only
              cases hg2 : s2.entries.get m with
              | none => exact ⟨h4, hfr.trans h5⟩
              | some e2 =>
                simp only
                cases hv2 : e2.value with
                | some data2 =>
                  simp only
                  cases hd2 : data2.dwarf with
                  | some x => exact ⟨h4, hfr.trans h5⟩
                  | none => exact ⟨h4, hfr.trans h5⟩
                | none =>
                  simp only
                  refine ⟨?_, (hfr.trans h5).trans (setValue_frame _ _ _ _)⟩
                  refine setValue_faithful h4 m _ ?_
                  intro e' he'
                  rw [hg2] at he'; cases he'
                  have hfile : e2.file = f := by
                    have := h4.file m e2 hg2
                    rw [hc] at this
                    exact (Except.ok.inj this).symm
                  refine ⟨Or.inr rfl, by simp, ?_⟩
                  intro a b hb
                  simp only [Option.some.injEq, Prod.mk.injEq] at hb
                  obtain ⟨rfl, rfl⟩ := hb
                  rw [hfile]; exact ⟨r, trivial, hpr⟩

/-- The plain view of the file at a path that is used under its name. -/
theorem plainOn_faithful {u : Universe P M F Pr D} {stat : P → Except Err M}
    {s : ElfCache P M F Pr D} (hs : Faithful u.contents (ElfVal u) s) (p r : P)
    (hn : ∀ m, effective s stat p = .ok m → u.name m = r) :
    (plainOn s ⟨stat, u.contents⟩ u.parse p r).1 = u.lookup (effective s stat) p ∧
    Faithful u.contents (ElfVal u) (plainOn s ⟨stat, u.contents⟩ u.parse p r).2 ∧
    Frame stat s (plainOn s ⟨stat, u.contents⟩ u.parse p r).2 ∧
    ∀ x, effective s stat p ≠ .ok x →
      (plainOn s ⟨stat, u.contents⟩ u.parse p r).2.entries.get x = s.entries.get x := by
  obtain ⟨h1, h2, h3⟩ := entry_faithful (disk := ⟨stat, u.contents⟩) hs p
  simp only at h1 h2 h3
  unfold plainOn plain Universe.lookup ofVersion
  simp only
  cases he : effective s stat p with
  | error e => rw [h1 e he]; exact ⟨rfl, hs, Frame.refl _ _, fun _ _ => rfl⟩
  | ok m =>
    have hnm := hn m he
    cases hc : u.contents m with
    | error e => rw [h2 m e he hc]; exact ⟨by simp [hc], hs, Frame.refl _ _, fun _ _ => rfl⟩
    | ok f =>
      obtain ⟨e, s', hent, hf, hg, hs', hfr, hoth⟩ := h3 m f he hc
      rw [hent]
      simp only [hc]
      have hoth' : ∀ x, Except.ok (ε := Err) m ≠ .ok x → s'.entries.get x = s.entries.get x :=
        fun x hx => hoth x (fun h => hx (by rw [h]))
      cases hv : e.value with
      | some data =>
        obtain ⟨hdok, hq1, hq2⟩ := hs'.value m e data hg hv
        rw [hf] at hq1 hq2
        simp only
        cases hde : data.elf with
        | some pr => exact ⟨(hq1 pr hde).symm, hs', hfr, hoth'⟩
        | none =>
          cases hdw : data.dwarf with
          | none => exfalso; rcases hdok with h | h <;> simp [hde, hdw] at h
          | some x =>
            obtain ⟨pr, dd⟩ := x
            simp only
            refine ⟨(hq2 pr dd hdw).1.symm, ?_, hfr.trans (setValue_frame _ _ _ _), ?_⟩
            · refine setValue_faithful hs' m _ ?_
              intro e' he'
              rw [hg] at he'; cases he'
              refine ⟨Or.inl rfl, ?_, ?_⟩
              · intro a ha
                simp only [Option.some.injEq] at ha
                subst ha
                rw [hf]; exact (hq2 pr dd hdw).1
              · intro a b hb
                rw [hf]
                exact hq2 a b (hdw.trans hb)
            · intro x hx
              rw [setValue_other _ _ _ _ (fun h => hx (by rw [h]))]
              exact hoth' x hx
      | none =>
        simp only
        rw [hf, hnm]
        cases hpr : u.parse r f with
        | error err => exact ⟨rfl, hs', hfr, hoth'⟩
        | ok pr =>
          refine ⟨rfl, ?_, hfr.trans (setValue_frame _ _ _ _), ?_⟩
          · refine setValue_faithful hs' m _ ?_
            intro e' he'
            rw [hg] at he'; cases he'
            refine ⟨Or.inl rfl, ?_, by simp⟩
            intro a ha
            simp only [Option.some.injEq] at ha
            subst ha
            rw [hf, hnm]; exact hpr
          · intro x hx
            rw [setValue_other _ _ _ _ (fun h => hx (by rw [h]))]
            exact hoth' x hx

/-- Running a computation on the cache. -/
theorem runProg_faithful {u : Universe P M F Pr D} {stat : P → Except Err M} (g : Prog P Pr D)
    {s : ElfCache P M F Pr D} (hs : Faithful u.contents (ElfVal u) s) (m : M)
    (ha : ∀ q ∈ g.asked (u.lookup (effective s stat)), ∀ m', effective s stat q = .ok m' →
      m' ≠ m ∧ u.name m' = q) :
    (runProg ⟨stat, u.contents⟩ u.parse g s).1 = g.eval (u.lookup (effective s stat)) ∧
    Faithful u.contents (ElfVal u) (runProg ⟨stat, u.contents⟩ u.parse g s).2 ∧
    Frame stat s (runProg ⟨stat, u.contents⟩ u.parse g s).2 ∧
    (runProg ⟨stat, u.contents⟩ u.parse g s).2.entries.get m = s.entries.get m := by
  induction g generalizing s with
  | done r => exact ⟨rfl, hs, Frame.refl _ _, rfl⟩
  | ask p k ih =>
    rw [Prog.asked] at ha
    obtain ⟨h1, h2, h3, h4⟩ := plainOn_faithful hs p p
      (fun m' hm' => (ha p (List.mem_cons_self ..) m' hm').2)
    rw [Prog.eval, runProg]
    cases hr : plainOn s ⟨stat, u.contents⟩ u.parse p p with
    | mk r s' =>
      rw [hr] at h1 h2 h3 h4
      simp only at h1 h2 h3 h4 ⊢
      subst h1
      have heff : effective s' stat = effective s stat := funext h3.effective
      obtain ⟨h5, h6, h7, h8⟩ := ih (u.lookup (effective s stat) p) h2 (by
        rw [heff]
        intro q hq m' hm'
        exact ha q (List.mem_cons_of_mem _ hq) m' hm')
      refine ⟨?_, h6, h3.trans h7, ?_⟩
      · rw [h5, heff]
      · rw [h8]
        exact h4 m (fun h => (ha p (List.mem_cons_self ..) m h).1 rfl)

/-- The view with debug information of the file at a path that is used under its name. -/
theorem dwarfOn_faithful {u : Universe P M F Pr D} {stat : P → Except Err M}
    {build : Pr → Prog P Pr D} {s : ElfCache P M F Pr D} (hs : Faithful u.contents (ElfVal u) s) (p r : P)
    (hn : ∀ m, effective s stat p = .ok m → u.name m = r ∧ u.Settled build (effective s stat) m) :
    (dwarfOn s ⟨stat, u.contents⟩ u.parse build p r).1 =
      ofVersion u.contents u.withDebug (effective s stat p) ∧
    Faithful u.contents (ElfVal u) (dwarfOn s ⟨stat, u.contents⟩ u.parse build p r).2 ∧
    Frame stat s (dwarfOn s ⟨stat, u.contents⟩ u.parse build p r).2 := by
  obtain ⟨h1, h2, h3⟩ := entry_faithful (disk := ⟨stat, u.contents⟩) hs p
  simp only at h1 h2 h3
  unfold dwarfOn ofVersion
  simp only
  cases he : effective s stat p with
  | error e => rw [h1 e he]; exact ⟨rfl, hs, Frame.refl _ _⟩
  | ok m =>
    obtain ⟨hnm, hset⟩ := hn m he
    cases hc : u.contents m with
    | error e => rw [h2 m e he hc]; exact ⟨by simp [hc], hs, Frame.refl _ _⟩
    | ok f =>
      obtain ⟨e, s', hent, hf, hg, hs', hfr, hoth⟩ := h3 m f he hc
      have heff : effective s' stat = effective s stat := funext hfr.effective
      rw [hent]
      simp only [hc]
      have hset' := hset f
      -- building the debug information
      have hrun : ∀ pr, u.parse (u.name m) f = .ok pr →
          ∃ s2, runProg ⟨stat, u.contents⟩ u.parse (build pr) s' = (u.debug m, s2) ∧
            Faithful u.contents (ElfVal u) s2 ∧ Frame stat s s2 ∧ s2.entries.get m = some e := by
        intro pr hpr
        obtain ⟨hd, ha⟩ := hset' pr hc hpr
        obtain ⟨h5, h6, h7, h8⟩ := runProg_faithful (stat := stat) (build pr) hs' m (by rw [heff]; exact ha)
        rw [heff, hd] at h5
        exact ⟨_, Prod.ext h5 rfl, h6, hfr.trans h7, h8.trans hg⟩
      unfold Universe.withDebug
      cases hv : e.value with
      | some data =>
        obtain ⟨hdok, hq1, hq2⟩ := hs'.value m e data hg hv
        rw [hf] at hq1 hq2
        simp only
        cases hdw : data.dwarf with
        | some x =>
          obtain ⟨pr, dd⟩ := x
          obtain ⟨h5, h6⟩ := hq2 pr dd hdw
          simp only [h5, h6]
          exact ⟨trivial, hs', hfr⟩
        | none =>
          cases hde : data.elf with
          | none => exfalso; rcases hdok with h | h <;> simp [hde, hdw] at h
          | some pr =>
            have hpr := hq1 pr hde
            obtain ⟨s2, hr, hs2, hfr2, hg2⟩ := hrun pr hpr
            simp only [hpr, hr]
            cases hd : u.debug m with
            | error err => exact ⟨rfl, hs2, hfr2⟩
            | ok d =>
              simp only [hg2, hv, hdw]
              refine ⟨trivial, ?_, hfr2.trans (setValue_frame _ _ _ _)⟩
              refine setValue_faithful hs2 m _ ?_
              intro e' he'
              rw [hg2] at he'; cases he'
              refine ⟨Or.inr rfl, ?_, ?_⟩
              · intro a ha
                rw [hf]; exact hq1 a ha
              · intro a b hb
                simp only [Option.some.injEq, Prod.mk.injEq] at hb
                obtain ⟨rfl, rfl⟩ := hb
                rw [hf]; exact ⟨hpr, hd⟩
      | none =>
        simp only
        rw [hf, ← hnm]
        cases hpr : u.parse (u.name m) f with
        | error err => exact ⟨rfl, hs', hfr⟩
        | ok pr =>
          obtain ⟨s2, hr, hs2, hfr2, hg2⟩ := hrun pr hpr
          simp only [hr]
          cases hd : u.debug m with
          | error err => exact ⟨rfl, hs2, hfr2⟩
          | ok d =>
            simp only [hg2, hv]
            refine ⟨trivial, ?_, hfr2.trans (setValue_frame _ _ _ _)⟩
            refine setValue_faithful hs2 m _ ?_
            intro e' he'
            rw [hg2] at he'; cases he'
            refine ⟨Or.inr rfl, by simp, ?_⟩
            intro a b hb
            simp only [Option.some.injEq, Prod.mk.injEq] at hb
            obtain ⟨rfl, rfl⟩ := hb
            rw [hf]; exact ⟨hpr, hd⟩

end ElfCache
end Blazesym.Cache
