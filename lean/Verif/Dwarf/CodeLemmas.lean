import Verif.Dwarf.Function
import Verif.Dwarf.CodeSpec

/-! Lemmas about the code of entries. -/

set_option autoImplicit false

namespace Blazesym.Dwarf
open Blazesym.Spec.Dwarf

theorem lastOf_cons {α : Type} (f : Attr → Option α) (a : Attr) (rest : List Attr) :
    lastOf f (a :: rest) = (lastOf f rest).or (f a) := by
  unfold lastOf
  rw [List.filterMap_cons]
  cases f a with
  | none => simp
  | some b =>
    simp only [List.getLast?_cons]
    cases (List.filterMap f rest).getLast? <;> rfl

/-- All range attributes of an entry. -/
def updates : List Attr → RangeAttrs → Except Err RangeAttrs
  | [], ra => .ok ra
  | a :: rest, ra => do
    let ra ← ra.update a
    updates rest ra

theorem update_ok {ra ra' : RangeAttrs} {a : Attr} (h : ra.update a = .ok ra') :
    ra'.lowPc = (lowPc? a).or ra.lowPc ∧ ra'.highPc = (highPc? a).or ra.highPc ∧
    ra'.size = (length? a).or ra.size ∧ ra'.ranges = (rangeList? a).getD ra.ranges := by
  obtain ⟨n, v⟩ := a
  unfold RangeAttrs.update at h
  unfold lowPc? highPc? length? rangeList?
  cases n <;> cases v <;>
    first
    | (simp only [Except.ok.injEq] at h; subst h; exact ⟨rfl, rfl, rfl, rfl⟩)
    | (rename_i w; cases w <;>
        first
        | (simp only [Except.ok.injEq] at h; subst h; exact ⟨rfl, rfl, rfl, rfl⟩)
        | exact absurd h (by simp))

theorem update_isOk (ra : RangeAttrs) (a : Attr)
    (h1 : (a.name = .lowPc ∨ a.name = .highPc) → ∀ e, a.value ≠ .addrIndex (.error e))
    (h2 : a.name = .ranges → ∀ e, a.value ≠ .rangeList (.error e)) : ∃ ra', ra.update a = .ok ra' := by
  obtain ⟨n, v⟩ := a
  unfold RangeAttrs.update
  cases n <;> cases v <;>
    first
    | exact ⟨_, rfl⟩
    | (rename_i w; cases w <;>
        first
        | exact ⟨_, rfl⟩
        | exact absurd rfl (h1 (by simp) _)
        | exact absurd rfl (h2 rfl _))

theorem updates_ok : ∀ (attrs : List Attr) (ra ra' : RangeAttrs), updates attrs ra = .ok ra' →
    ra'.lowPc = (lastOf lowPc? attrs).or ra.lowPc ∧ ra'.highPc = (lastOf highPc? attrs).or ra.highPc ∧
    ra'.size = (lastOf length? attrs).or ra.size ∧
    ra'.ranges = (lastOf rangeList? attrs).getD ra.ranges := by
  intro attrs
  induction attrs with
  | nil => intro ra ra' h; simp only [updates, Except.ok.injEq] at h; subst h; exact ⟨rfl, rfl, rfl, rfl⟩
  | cons a rest ih =>
    intro ra ra' h
    rw [updates] at h
    obtain ⟨ra1, h1, h2⟩ := bind_ok h
    obtain ⟨u1, u2, u3, u4⟩ := update_ok h1
    obtain ⟨i1, i2, i3, i4⟩ := ih _ _ h2
    simp only [lastOf_cons, i1, i2, i3, i4, u1, u2, u3, u4, Option.or_assoc, true_and]
    cases lastOf rangeList? rest <;> simp

theorem updates_isOk : ∀ (attrs : List Attr) (ra : RangeAttrs),
    (∀ a ∈ attrs, (a.name = .lowPc ∨ a.name = .highPc) → ∀ e, a.value ≠ .addrIndex (.error e)) →
    (∀ a ∈ attrs, a.name = .ranges → ∀ e, a.value ≠ .rangeList (.error e)) →
    ∃ ra', updates attrs ra = .ok ra' := by
  intro attrs
  induction attrs with
  | nil => intro ra _ _; exact ⟨ra, rfl⟩
  | cons a rest ih =>
    intro ra h1 h2
    obtain ⟨ra1, e1⟩ := update_isOk ra a (h1 a List.mem_cons_self) (h2 a List.mem_cons_self)
    obtain ⟨ra2, e2⟩ := ih ra1 (fun b hb => h1 b (List.mem_cons_of_mem _ hb))
      (fun b hb => h2 b (List.mem_cons_of_mem _ hb))
    exact ⟨ra2, by rw [updates, e1]; exact e2⟩

/-- The attributes after reading all of them. -/
theorem updates_empty {attrs : List Attr} {ra : RangeAttrs} (h : updates attrs {} = .ok ra) :
    ra.lowPc = lastOf lowPc? attrs ∧ ra.highPc = lastOf highPc? attrs ∧ ra.size = lastOf length? attrs ∧
    ra.ranges = rangesOf attrs := by
  obtain ⟨h1, h2, h3, h4⟩ := updates_ok _ _ _ h
  refine ⟨by simpa using h1, by simpa using h2, by simpa using h3, ?_⟩
  rw [h4]
  unfold rangesOf
  cases lastOf rangeList? attrs with
  | none => rfl
  | some o => cases o <;> rfl

theorem forEachRange_ok {attrs : List Attr} {ra : RangeAttrs} (h : updates attrs {} = .ok ra)
    {rs : List Range} (hr : ra.forEachRange = .ok rs) : rs = codeOf attrs := by
  obtain ⟨h1, h2, h3, h4⟩ := updates_empty h
  unfold RangeAttrs.forEachRange at hr
  unfold codeOf
  rw [h4] at hr
  cases hl : rangesOf attrs with
  | some l =>
    rw [hl] at hr
    simp only [finish] at hr
    split at hr
    · cases hr
    · simp only [Except.ok.injEq] at hr; rw [← hr]
  | none =>
    rw [hl, h1, h2, h3] at hr
    simp only at hr
    unfold spanOf
    cases hlow : lastOf lowPc? attrs with
    | none =>
      rw [hlow] at hr; simp only [Except.ok.injEq] at hr; rw [← hr]; rfl
    | some start =>
      rw [hlow] at hr
      cases hhigh : lastOf highPc? attrs with
      | some stop =>
        rw [hhigh] at hr
        simp only [Except.ok.injEq] at hr
        rw [← hr]; rfl
      | none =>
        rw [hhigh] at hr
        cases hsz : lastOf length? attrs with
        | none => rw [hsz] at hr; simp only [Except.ok.injEq] at hr; rw [← hr]; rfl
        | some n =>
          rw [hsz] at hr
          simp only [addU64] at hr
          split at hr
          · cases hr
          · rename_i hc
            split at hc
            · simp only [Except.ok.injEq] at hc hr
              rw [← hr, ← hc]; rfl
            · cases hc

theorem forEachRange_isOk {attrs : List Attr} {ra : RangeAttrs} (h : updates attrs {} = .ok ra)
    (hc : CodeOk attrs) : ra.forEachRange = .ok (codeOf attrs) := by
  have : ∃ rs, ra.forEachRange = .ok rs := by
    obtain ⟨h1, h2, h3, h4⟩ := updates_empty h
    unfold RangeAttrs.forEachRange
    rw [h4]
    cases hl : rangesOf attrs with
    | some l => simp only [finish, hc.items l hl]; exact ⟨_, rfl⟩
    | none =>
      rw [h1, h2, h3]
      simp only
      cases hlow : lastOf lowPc? attrs with
      | none => exact ⟨_, rfl⟩
      | some start =>
        cases hhigh : lastOf highPc? attrs with
        | some stop => exact ⟨_, rfl⟩
        | none =>
          cases hsz : lastOf length? attrs with
          | none => exact ⟨_, rfl⟩
          | some n =>
            have := hc.bound ⟨start, start + n⟩ (by unfold spanOf; rw [hlow, hhigh, hsz]; rfl) hhigh
            have hadd : addU64 start n = .ok (start + n) := if_pos (by simpa [u64Size] using this)
            simp only [hadd]
            exact ⟨_, rfl⟩
  obtain ⟨rs, hrs⟩ := this
  rw [hrs, forEachRange_ok h hrs]

theorem bounds_ok {attrs : List Attr} {ra : RangeAttrs} (h : updates attrs {} = .ok ra)
    {b : Option Range} (hb : ra.bounds = .ok b) : b = spanOf attrs := by
  obtain ⟨h1, h2, h3, h4⟩ := updates_empty h
  unfold RangeAttrs.bounds at hb
  rw [h1, h2, h3] at hb
  unfold spanOf
  cases hlow : lastOf lowPc? attrs with
  | none => rw [hlow] at hb; simp only [Except.ok.injEq] at hb; rw [← hb]
  | some start =>
    rw [hlow] at hb
    cases hhigh : lastOf highPc? attrs with
    | some stop => rw [hhigh] at hb; simp only [Except.ok.injEq] at hb; rw [← hb]
    | none =>
      rw [hhigh] at hb
      cases hsz : lastOf length? attrs with
      | none => rw [hsz] at hb; simp only [Except.ok.injEq] at hb; rw [← hb]; rfl
      | some n =>
        rw [hsz] at hb
        simp only [addU64] at hb
        split at hb
        · cases hb
        · rename_i hc
          split at hc
          · simp only [Except.ok.injEq] at hc hb
            rw [← hb, ← hc]; rfl
          · cases hc

theorem bounds_isOk {attrs : List Attr} {ra : RangeAttrs} (h : updates attrs {} = .ok ra)
    (hc : CodeOk attrs) : ra.bounds = .ok (spanOf attrs) := by
  have : ∃ b, ra.bounds = .ok b := by
    obtain ⟨h1, h2, h3, h4⟩ := updates_empty h
    unfold RangeAttrs.bounds
    rw [h1, h2, h3]
    cases hlow : lastOf lowPc? attrs with
    | none => exact ⟨_, rfl⟩
    | some start =>
      cases hhigh : lastOf highPc? attrs with
      | some stop => exact ⟨_, rfl⟩
      | none =>
        cases hsz : lastOf length? attrs with
        | none => exact ⟨_, rfl⟩
        | some n =>
          have := hc.bound ⟨start, start + n⟩ (by unfold spanOf; rw [hlow, hhigh, hsz]; rfl) hhigh
          have hadd : addU64 start n = .ok (start + n) := if_pos (by simpa [u64Size] using this)
          simp only [hadd]
          exact ⟨_, rfl⟩
  obtain ⟨b, hb⟩ := this
  rw [hb, bounds_ok h hb]

end Blazesym.Dwarf
