import Verif.Dwarf.Units
import Verif.Dwarf.FunctionSpec
import Verif.Dwarf.NamesLemmas
import Verif.Dwarf.Interval

/-! Lemmas about functions. -/

set_option autoImplicit false

namespace Blazesym.Dwarf
open Blazesym.Util Blazesym.Spec.Dwarf

theorem search_found {α : Type} {l : List α} {cmp : α → Ordering} {i : Nat}
    (h : binarySearchBy l cmp = .inl i) : ∃ a, l[i]? = some a ∧ cmp a = .eq := by
  cases l with
  | nil => simp [binarySearchBy] at h
  | cons a t =>
    unfold binarySearchBy at h
    simp only at h
    split at h
    · rename_i heq
      cases h
      unfold cmpAt at heq
      split at heq
      · rename_i e he; exact ⟨e, he, heq⟩
      · cases heq
    · cases h
    · cases h

/-- The addresses of functions numbered from `n` on. -/
def addressed : Nat → List (Function × List Range) → List FunctionAddress
  | _, [] => []
  | n, x :: rest => x.2.map (fun r => ⟨r, n⟩) ++ addressed (n + 1) rest

theorem mem_addressed : ∀ (l : List (Function × List Range)) (n : Nat) (a : FunctionAddress),
    a ∈ addressed n l ↔ ∃ i f rs, l[i]? = some (f, rs) ∧ a.function = n + i ∧ a.range ∈ rs := by
  intro l
  induction l with
  | nil => intro n a; simp [addressed]
  | cons x t ih =>
    intro n a
    rw [addressed, List.mem_append, ih (n + 1) a, List.mem_map]
    constructor
    · rintro (⟨r, h1, h2⟩ | ⟨i, f, rs, h1, h2, h3⟩)
      · exact ⟨0, x.1, x.2, rfl, by rw [← h2]; rfl, by rw [← h2]; exact h1⟩
      · exact ⟨i + 1, f, rs, by simpa using h1, by omega, h3⟩
    · rintro ⟨i, f, rs, h1, h2, h3⟩
      cases i with
      | zero =>
        simp only [List.getElem?_cons_zero, Option.some.injEq] at h1
        left
        refine ⟨a.range, by rw [h1]; exact h3, ?_⟩
        cases a
        simp only [Nat.add_zero] at h2
        simp only [h2]
      | succ i => exact .inr ⟨i, f, rs, by simpa using h1, by omega, h3⟩

/-- A function and its ranges are what its entry says. -/
def Parsed (units : List Unit) (unit : DieUnit) (x : Nat × Entry) (y : Function × List Range) : Prop :=
  Describes units unit x y.1 ∧ y.2 = codeOf x.2.attrs

theorem functionsLoop_ok (units : List Unit) (hs : UnitsSorted units) (unit : DieUnit) :
    ∀ (stream : Stream) (fs : List Function) (as : List FunctionAddress)
      (res : List Function × List FunctionAddress),
    functionsLoop units unit stream fs as = .ok res →
    ∃ l : List (Function × List Range), List.Forall₂ (Parsed units unit) (functionsIn stream) l ∧
      res = (fs ++ l.map Prod.fst, as ++ addressed fs.length l) := by
  intro stream
  induction stream with
  | nil =>
    intro fs as res h
    simp only [functionsLoop, Except.ok.injEq] at h
    exact ⟨[], List.Forall₂.nil, by rw [← h]; simp [addressed]⟩
  | cons x t ih =>
    intro fs as res h
    obtain ⟨off, raw⟩ := x
    cases raw with
    | null =>
      rw [functionsLoop] at h
      obtain ⟨l, h1, h2⟩ := ih _ _ _ h
      exact ⟨l, h1, h2⟩
    | bad e => rw [functionsLoop] at h; cases h
    | entry e =>
      rw [functionsLoop] at h
      by_cases htag : e.tag = .subprogram
      · rw [if_pos htag] at h
        obtain ⟨⟨name, ra⟩, h1, h⟩ := bind_ok h
        obtain ⟨rs, h2, h⟩ := bind_ok h
        obtain ⟨hf, hn, hu⟩ := (functionAttrs_ok _ _ _ _ _ _ _ _).mp h1
        have hcode := forEachRange_ok hu h2
        have hsub : (((off, Raw.entry e) :: t).filterMap subprogram?) = (off, e) :: t.filterMap subprogram? := by
          rw [List.filterMap_cons]; simp [subprogram?, htag]
        cases hrs : rs with
        | nil =>
          rw [hrs] at h
          simp only [List.isEmpty_nil, if_true, List.map_nil, List.append_nil] at h
          obtain ⟨l, k1, k2⟩ := ih _ _ _ h
          refine ⟨l, ?_, k2⟩
          unfold functionsIn at k1 ⊢
          rw [hsub, List.filter_cons, if_neg (by rw [← hcode, hrs]; simp)]
          exact k1
        | cons r rs' =>
          rw [hrs] at h
          simp only [List.isEmpty_cons, Bool.false_eq_true, if_false] at h
          rw [← hrs] at h
          obtain ⟨b, h3, h⟩ := bind_ok h
          have hb := bounds_ok hu h3
          obtain ⟨l, k1, k2⟩ := ih _ _ _ h
          refine ⟨(⟨off, name, b⟩, rs) :: l, ?_, ?_⟩
          · unfold functionsIn at k1 ⊢
            rw [hsub, List.filter_cons, if_pos (by rw [← hcode, hrs]; simp)]
            exact List.Forall₂.cons ⟨⟨rfl, nameUpdates_none units hs unit _ _ hn, hb⟩, hcode⟩ k1
          · rw [k2]
            simp [addressed, List.append_assoc]
      · rw [if_neg htag] at h
        obtain ⟨_, _, h⟩ := bind_ok h
        obtain ⟨l, h1, h2⟩ := ih _ _ _ h
        refine ⟨l, ?_, h2⟩
        have hsub : (((off, Raw.entry e) :: t).filterMap subprogram?) = t.filterMap subprogram? := by
          rw [List.filterMap_cons]; simp [subprogram?, htag]
        unfold functionsIn at h1 ⊢
        rw [hsub]; exact h1

theorem functionsLoop_isOk (units : List Unit) (hs : UnitsSorted units) (unit : DieUnit) :
    ∀ (stream : Stream) (fs : List Function) (as : List FunctionAddress), StreamOk units unit stream →
    ∃ res, functionsLoop units unit stream fs as = .ok res := by
  intro stream
  induction stream with
  | nil => intro fs as _; exact ⟨_, rfl⟩
  | cons x t ih =>
    intro fs as h
    have ht : StreamOk units unit t :=
      ⟨fun y hy => h.raw y (List.mem_cons_of_mem _ hy), fun o e he => h.entry o e (List.mem_cons_of_mem _ he),
        fun o e he => h.code o e (List.mem_cons_of_mem _ he), fun o e he => h.name o e (List.mem_cons_of_mem _ he)⟩
    obtain ⟨off, raw⟩ := x
    cases raw with
    | null => rw [functionsLoop]; exact ih _ _ ht
    | bad e => exact absurd rfl (h.raw (off, .bad e) List.mem_cons_self e)
    | entry e =>
      rw [functionsLoop]
      have hf := h.entry off e List.mem_cons_self
      by_cases htag : e.tag = .subprogram
      · rw [if_pos htag]
        have hc := h.code off e List.mem_cons_self htag
        obtain ⟨ra, hra⟩ := updates_isOk e.attrs {} hc.address hc.list
        obtain ⟨name, hn⟩ := nameUpdates_isOk units hs unit e.attrs none (h.name off e List.mem_cons_self htag)
        have h1 := (functionAttrs_ok units unit e.fail e.attrs none {} name ra).mpr ⟨hf, hn, hra⟩
        simp only [h1, bind, Except.bind, forEachRange_isOk hra hc, bounds_isOk hra hc]
        split
        · exact ih _ _ ht
        · exact ih _ _ ht
      · rw [if_neg htag, hf]
        simp only [finish, bind, Except.bind]
        exact ih _ _ ht

theorem rangeCmp_eq (probe : Nat) (r : Range) : rangeCmp probe r = spanCmp probe r.start r.stop := rfl

/-- What the functions of a unit consist of. -/
theorem parseFunctions_ok {σ : Sorter} {units : List Unit} (hs : UnitsSorted units) {unit : DieUnit}
    {f : Functions} (h : parseFunctions σ units unit = .ok f) :
    ∃ stream l, unit.entries none = .ok stream ∧
      List.Forall₂ (Parsed units unit) (functionsIn stream) l ∧ f.functions = l.map Prod.fst ∧
      f.addresses.Perm (addressed 0 l) ∧
      f.addresses.Pairwise (fun a b => a.range.start ≤ b.range.start) := by
  unfold parseFunctions at h
  obtain ⟨stream, h1, h⟩ := bind_ok h
  obtain ⟨res, h2, h⟩ := bind_ok h
  obtain ⟨l, h3, h4⟩ := functionsLoop_ok units hs unit _ _ _ _ h2
  simp only [pure, Except.pure, Except.ok.injEq] at h
  subst h
  refine ⟨stream, l, h1, h3, by rw [h4]; simp, ?_, ?_⟩
  · have : res.2 = addressed 0 l := by rw [h4]; simp
    simp only
    rw [this]; exact σ.perm _ _
  · have := σ.sorted (fun a b : FunctionAddress => decide (a.range.start ≤ b.range.start))
      (fun a b c h1 h2 => by simp only [decide_eq_true_eq] at *; omega)
      (fun a b => by simp only [Bool.or_eq_true, decide_eq_true_eq]; omega) res.2
    exact this.imp (fun h => by simpa using h)

theorem forall₂_get {α β : Type} {R : α → β → Prop} {l : List α} {l' : List β} (h : List.Forall₂ R l l')
    {i : Nat} {b : β} (hb : l'[i]? = some b) : ∃ a, l[i]? = some a ∧ R a b := by
  induction h generalizing i with
  | nil => simp at hb
  | cons hab _ ih =>
    cases i with
    | zero => simp only [List.getElem?_cons_zero, Option.some.injEq] at hb; subst hb; exact ⟨_, rfl, hab⟩
    | succ i => exact ih (by simpa using hb)

theorem forall₂_get' {α β : Type} {R : α → β → Prop} {l : List α} {l' : List β} (h : List.Forall₂ R l l')
    {i : Nat} {a : α} (ha : l[i]? = some a) : ∃ b, l'[i]? = some b ∧ R a b := by
  induction h generalizing i with
  | nil => simp at ha
  | cons hab _ ih =>
    cases i with
    | zero => simp only [List.getElem?_cons_zero, Option.some.injEq] at ha; subst ha; exact ⟨_, rfl, hab⟩
    | succ i => exact ih (by simpa using ha)

theorem mem_codeOf_lt {attrs : List Attr} {r : Range} (h : r ∈ codeOf attrs) : r.start < r.stop := by
  unfold codeOf at h
  rw [List.mem_filter] at h
  simpa using h.2

end Blazesym.Dwarf
