import Verif.Dwarf.ResolverSpec
import Verif.Dwarf.Resolver
import Verif.Dwarf.UnitsLemmas
import Verif.Dwarf.FunctionProps

/-! The language of the units of a file. -/

set_option autoImplicit false

namespace Blazesym.Dwarf
open Blazesym.Spec.Dwarf
open Blazesym.Symbolize (SrcLang)

theorem srcLang_some (v : Nat) : srcLang (some v) = languageName (.language v) := by
  unfold srcLang languageName
  split <;> rename_i h
  · cases h; rfl
  · cases h; rfl
  · cases h; rfl
  · cases h; rfl
  · cases h; rfl
  · cases h; rfl
  · cases h; rfl
  · rename_i h1 h2 h3 h4 h5 h6
    have e (n : Nat) (hn : some v = some n → False) : v ≠ n := fun h => hn (congrArg some h)
    show SrcLang.unknown = if v = 28 then SrcLang.rust
      else if v ∈ [4, 25, 26, 33, 42, 43] then SrcLang.cpp else SrcLang.unknown
    rw [if_neg (e _ h1), if_neg]
    simp only [List.mem_cons, List.not_mem_nil, or_false, not_or]
    exact ⟨e _ h2, e _ h3, e _ h4, e _ h5, e _ h6, e _ h⟩

theorem languageName_other (v : AttrValue) (h : ∀ n, v ≠ .language n) : languageName v = .unknown := by
  cases v <;> first | rfl | exact absurd rfl (h _)

/-- The language found by scanning the attributes of an entry. -/
def FromAttrs (attrs : List Attr) (l : Option Nat) : Prop :=
  (∃ a ∈ attrs, a.name = .language ∧ srcLang l = languageName a.value) ∨
    ((∀ a ∈ attrs, a.name ≠ .language) ∧ srcLang l = .unknown)

theorem langScan_from (fail : Option Err) (l : Option Nat) : ∀ (attrs : List Attr),
    langScan fail attrs = .ok l → FromAttrs attrs l := by
  intro attrs
  induction attrs with
  | nil =>
    intro h
    cases fail with
    | some e => simp [langScan, finish] at h
    | none =>
      simp only [langScan, finish, Except.ok.injEq] at h
      subst h
      exact .inr ⟨by simp, rfl⟩
  | cons a t ih =>
    intro h
    rw [langScan] at h
    by_cases hn : a.name = .language
    · rw [if_pos hn] at h
      refine .inl ⟨a, List.mem_cons_self, hn, ?_⟩
      cases hv : a.value <;> rw [hv] at h <;> rw [← Except.ok.inj h] <;>
        first | exact srcLang_some _ | rfl
    · rw [if_neg hn] at h
      rcases ih h with ⟨b, h1, h2⟩ | ⟨h1, h2⟩
      · exact .inl ⟨b, List.mem_cons_of_mem _ h1, h2⟩
      · refine .inr ⟨?_, h2⟩
        intro b hb
        rcases List.mem_cons.mp hb with hb | hb
        · rw [hb]; exact hn
        · exact h1 b hb

theorem rootAttrs_from (fail : Option Err) : ∀ (attrs : List Attr) (ra ra' : RangeAttrs) (l l' : Option Nat),
    rootAttrs fail attrs ra l = .ok (ra', l') →
      (∃ a ∈ attrs, a.name = .language ∧ srcLang l' = languageName a.value) ∨
        (l' = l ∧ ∀ a ∈ attrs, a.name = .language → languageName a.value = .unknown) := by
  intro attrs
  induction attrs with
  | nil =>
    intro ra ra' l l' h
    cases fail with
    | some e => simp [rootAttrs, finish] at h
    | none =>
      simp only [rootAttrs, finish, Except.ok.injEq, Prod.mk.injEq] at h
      exact .inr ⟨h.2.symm, by simp⟩
  | cons a t ih =>
    intro ra ra' l l' h
    rw [rootAttrs] at h
    obtain ⟨ra1, _, h⟩ := bind_ok h
    split at h
    · rename_i v hn hv
      rcases ih _ _ _ _ h with ⟨b, h1, h2⟩ | ⟨h1, _⟩
      · exact .inl ⟨b, List.mem_cons_of_mem _ h1, h2⟩
      · exact .inl ⟨a, List.mem_cons_self, hn, by rw [h1, hv]; exact srcLang_some v⟩
    · rename_i hno
      rcases ih _ _ _ _ h with ⟨b, h1, h2⟩ | ⟨h1, h2⟩
      · exact .inl ⟨b, List.mem_cons_of_mem _ h1, h2⟩
      · refine .inr ⟨h1, ?_⟩
        intro b hb hbn
        rcases List.mem_cons.mp hb with hb | hb
        · subst hb
          exact languageName_other _ (fun n hv => hno n hbn hv)
        · exact h2 b hb hbn

theorem rootAttrs_fromAttrs {fail : Option Err} {attrs : List Attr} {ra ra' : RangeAttrs} {l : Option Nat}
    (h : rootAttrs fail attrs ra none = .ok (ra', l)) : FromAttrs attrs l := by
  rcases rootAttrs_from fail attrs ra ra' none l h with h1 | ⟨rfl, h2⟩
  · exact .inl h1
  · by_cases hex : ∃ a ∈ attrs, a.name = .language
    · obtain ⟨a, ha, hn⟩ := hex
      exact .inl ⟨a, ha, hn, (h2 a ha hn).symm⟩
    · exact .inr ⟨fun a ha hn => hex ⟨a, ha, hn⟩, rfl⟩

/-- What a unit knows about its language is what its root entry says. -/
def LangOk (u : Unit) : Prop := ∀ l, u.language = .ok l → WrittenIn u.header (srcLang l)

theorem deferred_langOk {u : Unit} (hd : u.deferred = true) : LangOk u := by
  intro l h
  unfold Unit.language at h
  obtain ⟨main, hm, h⟩ := bind_ok h
  rw [hd, if_pos rfl] at h
  obtain ⟨st, hst, h⟩ := bind_ok h
  refine ⟨main, hm, ?_⟩
  split at h
  · cases h
  · cases h
  · have := Except.ok.inj h
    subst this
    refine .inr ⟨?_, rfl⟩
    rintro e ⟨off, rest, he⟩
    rw [hst] at he
    simp at he
  · exact .inl ⟨_, ⟨_, _, hst⟩, langScan_from _ _ _ h⟩

theorem parseUnit_langOk {σ : Sorter} {h : Header} {rs : List Range} {u : Unit}
    (hp : parseUnit σ h = .ok (some (rs, u))) : LangOk u := by
  unfold parseUnit at hp
  cases hu : h.unit with
  | error e => rw [hu] at hp; simp at hp
  | ok main =>
    rw [hu] at hp
    obtain ⟨st, hst, hp⟩ := bind_ok hp
    split at hp
    · cases hp
    · cases hp
    · cases hp
    · obtain ⟨⟨ra, lang⟩, h1, hp⟩ := bind_ok hp
      obtain ⟨ranges, _, hp⟩ := bind_ok hp
      simp only [pure, Except.pure, Except.ok.injEq, Option.some.injEq, Prod.mk.injEq] at hp
      intro l hl
      rw [← hp.2] at hl ⊢
      unfold Unit.language at hl
      simp only [hu, bind, Except.bind] at hl
      have := Except.ok.inj hl
      subst this
      exact ⟨main, hu, .inl ⟨_, ⟨_, _, hst⟩, rootAttrs_fromAttrs h1⟩⟩

theorem parseHeader_langOk {σ : Sorter} {ar : List ArangeSet} {h : Header} {rs : List Range} {u : Unit}
    (hp : parseHeader σ ar h = .ok (some (rs, u))) : LangOk u := by
  unfold parseHeader at hp
  split at hp
  · cases hp
  · split at hp
    · cases hp
    · simp only [Except.ok.injEq, Option.some.injEq, Prod.mk.injEq] at hp
      rw [← hp.2]
      exact deferred_langOk rfl
    · obtain ⟨ranges, _, hp⟩ := bind_ok hp
      split at hp
      · exact parseUnit_langOk hp
      · simp only [pure, Except.pure, Except.ok.injEq, Option.some.injEq, Prod.mk.injEq] at hp
        rw [← hp.2]
        exact deferred_langOk rfl

/-- The language of every unit of a file is the one its root entry states. -/
theorem unit_written {σ : Sorter} {s : Sections} {u : Units} (hu : parseUnits σ s = .ok u) {unit : Unit}
    (hm : unit ∈ u.units) {l : Option Nat} (hl : unit.language = .ok l) :
    WrittenIn unit.header (srcLang l) := by
  obtain ⟨xs, h1, _, _, _, h2, _⟩ := parseUnits_ok hu
  rw [h2, h1, List.mem_map] at hm
  obtain ⟨⟨rs, un⟩, h3, rfl⟩ := hm
  rw [List.mem_filterMap] at h3
  obtain ⟨hd, _, h4⟩ := h3
  cases hp : parseHeader σ (sortedSets σ s) hd with
  | error e => rw [hp] at h4; cases h4
  | ok o =>
    rw [hp] at h4
    simp only at h4
    subst h4
    exact parseHeader_langOk hp _ hl

theorem ofRanges_mem (u : Units) : ∀ (l : List UnitRange) (xs : List Unit), u.ofRanges l = .ok xs →
    ∀ x ∈ xs, x ∈ u.units := by
  intro l
  induction l with
  | nil => intro xs h; rw [← Except.ok.inj h]; simp
  | cons a t ih =>
    intro xs h
    rw [Units.ofRanges] at h
    split at h
    · cases h
    · rename_i unit hx
      obtain ⟨more, h1, h⟩ := bind_ok h
      have := Except.ok.inj h
      subst this
      intro x hxm
      rcases List.mem_cons.mp hxm with hxm | hxm
      · rw [hxm]; exact List.mem_of_getElem? hx
      · exact ih more h1 x hxm

/-- The unit of a function that was found is one of the units of the file. -/
theorem found_mem {σ : Sorter} {s : Sections} {u : Units} (hu : parseUnits σ s = .ok u) {addr : Nat}
    (ha : addr + 1 < 2 ^ 64) {f : Function} {unit : Unit}
    (h : u.findFunction σ addr = .ok (some (f, unit))) : unit ∈ u.units := by
  obtain ⟨found, h1, h2, _⟩ := C62_file σ s u hu addr ha _ h
  have hm := (h2 f unit rfl).1
  unfold Units.findUnits at h1
  obtain ⟨hi, _, h1⟩ := bind_ok h1
  obtain ⟨ranges, _, h1⟩ := bind_ok h1
  exact ofRanges_mem u ranges found h1 unit hm

end Blazesym.Dwarf
