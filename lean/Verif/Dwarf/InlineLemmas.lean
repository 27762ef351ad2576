import Verif.Dwarf.InlineSpec
import Verif.Dwarf.FunctionLemmas

/-! Lemmas about inlined functions. -/

set_option autoImplicit false

namespace Blazesym.Dwarf
open Blazesym.Util Blazesym.Spec.Dwarf

/-! ### Parsing along the tree -/

/-- Skipping entries. -/
def skipTree : Dies → Except Err _root_.Unit
  | .nil => .ok ()
  | .node _ _ e children siblings => do
    finish e.fail ()
    skipTree children
    skipTree siblings

/-- An inlined function and its ranges. -/
def parseOne (units : List Unit) (unit : DieUnit) (e : Entry) (depth : Nat) (acc : InlinedFunctions) :
    Except Err InlinedFunctions := do
  let (fn, ra) ← inlinedAttrs units unit e.fail e.attrs ⟨none, none, 0, 0⟩ {}
  let ranges ← ra.forEachRange
  return { functions := acc.functions ++ [fn],
           addresses := acc.addresses ++ ranges.map (fun r => ⟨r, depth, acc.functions.length⟩) }

/-- Parsing inlined functions by recursion over the tree. -/
def parseTree (units : List Unit) (unit : DieUnit) : Dies → Nat → InlinedFunctions → Except Err InlinedFunctions
  | .nil, _, acc => .ok acc
  | .node _ _ e children siblings, depth, acc =>
    match e.tag with
    | .subprogram => do
      finish e.fail ()
      skipTree children
      parseTree units unit siblings depth acc
    | .inlinedSubroutine => do
      let acc ← parseOne units unit e depth acc
      let acc ← parseTree units unit children (depth + 1) acc
      parseTree units unit siblings depth acc
    | .other => do
      finish e.fail ()
      let acc ← parseTree units unit children depth acc
      parseTree units unit siblings depth acc

theorem childrenLoop_pop (units : List Unit) (unit : DieUnit) (s : Stream) (D : Int) (f : Frame)
    (F : List Frame) (acc : InlinedFunctions) (h : D ≤ f.depth) :
    childrenLoop units unit s D (f :: F) acc = childrenLoop units unit s D F acc := by
  rw [childrenLoop, childrenLoop, List.dropWhile_cons]
  simp only [h, decide_true, if_true]

theorem childrenLoop_null (units : List Unit) (unit : DieUnit) (o : Nat) (s : Stream) (D : Int) (f : Frame)
    (F : List Frame) (acc : InlinedFunctions) (h : f.depth < D) :
    childrenLoop units unit ((o, .null) :: s) D (f :: F) acc = childrenLoop units unit s (D - 1) (f :: F) acc := by
  rw [childrenLoop, List.dropWhile_cons]
  simp only [show ¬ D ≤ f.depth by omega, decide_false, Bool.false_eq_true, if_false, Raw.depth]

theorem bind_assoc' {α β γ : Type} (x : Except Err α) (f : α → Except Err β) (g : β → Except Err γ) :
    ((x >>= f) >>= g) = (x >>= fun a => f a >>= g) := by
  cases x <;> rfl

theorem childrenLoop_skip (units : List Unit) (unit : DieUnit) : ∀ (t : Dies), t.WellFormed →
    ∀ (rest : Stream) (D d : Int) (F : List Frame) (acc : InlinedFunctions), d < D →
    childrenLoop units unit (t.flat ++ rest) D (⟨d, none⟩ :: F) acc =
      (skipTree t >>= fun _ => childrenLoop units unit rest D (⟨d, none⟩ :: F) acc) := by
  intro t
  induction t with
  | nil => intro _ rest D d F acc _; rfl
  | node off stop e c s ihc ihs =>
    intro hw rest D d F acc hd
    obtain ⟨hw1, hwc, hws⟩ := hw
    rw [Dies.flat, List.cons_append, childrenLoop, List.dropWhile_cons]
    simp only [show ¬ D ≤ d by omega, decide_false, Bool.false_eq_true, if_false]
    rw [skipTree]
    cases hf : e.fail with
    | some err => simp [finish, bind, Except.bind]
    | none =>
      simp only [finish]
      show childrenLoop units unit _ (Raw.depth D (.entry e)) (⟨d, none⟩ :: F) acc = _
      have hb : ((Except.ok () : Except Err _root_.Unit) >>= fun _ => (skipTree c >>= fun _ => skipTree s))
          = (skipTree c >>= fun _ => skipTree s) := rfl
      rw [hb, bind_assoc']
      cases hc : e.hasChildren with
      | true =>
        simp only [Raw.depth, hc, if_true, List.append_assoc, List.cons_append, List.nil_append]
        rw [ihc hwc _ (D + 1) d F acc (by omega)]
        congr 1
        funext _
        rw [childrenLoop_null _ _ _ _ _ _ _ _ (by simp only; omega), Int.add_sub_cancel]
        exact ihs hws rest D d F acc hd
      | false =>
        simp only [Raw.depth, hc, Bool.false_eq_true, if_false, List.nil_append]
        rw [hw1 hc]
        exact ihs hws rest D d F acc hd

theorem childrenLoop_tree (units : List Unit) (unit : DieUnit) : ∀ (t : Dies), t.WellFormed →
    ∀ (rest : Stream) (D d : Int) (n : Nat) (F : List Frame) (acc : InlinedFunctions), d < D →
    childrenLoop units unit (t.flat ++ rest) D (⟨d, some n⟩ :: F) acc =
      (parseTree units unit t n acc >>= fun acc => childrenLoop units unit rest D (⟨d, some n⟩ :: F) acc) := by
  intro t
  induction t with
  | nil => intro _ rest D d n F acc _; rfl
  | node off stop e c s ihc ihs =>
    intro hw rest D d n F acc hd
    obtain ⟨hw1, hwc, hws⟩ := hw
    rw [Dies.flat, List.cons_append, childrenLoop, List.dropWhile_cons]
    simp only [show ¬ D ≤ d by omega, decide_false, Bool.false_eq_true, if_false]
    rw [parseTree]
    cases ht : e.tag with
    | subprogram =>
      simp only
      cases hf : e.fail with
      | some err => simp [finish, bind, Except.bind]
      | none =>
        simp only [finish]
        show childrenLoop units unit _ (Raw.depth D (.entry e)) (⟨D, none⟩ :: ⟨d, some n⟩ :: F) acc = _
        have hb : ((Except.ok () : Except Err _root_.Unit) >>= fun _ =>
            (skipTree c >>= fun _ => parseTree units unit s n acc))
            = (skipTree c >>= fun _ => parseTree units unit s n acc) := rfl
        rw [hb, bind_assoc']
        cases hc : e.hasChildren with
        | true =>
          simp only [Raw.depth, hc, if_true, List.append_assoc, List.cons_append, List.nil_append]
          rw [childrenLoop_skip units unit c hwc _ (D + 1) D _ acc (by omega)]
          congr 1
          funext _
          rw [childrenLoop_null _ _ _ _ _ _ _ _ (by simp only; omega), Int.add_sub_cancel,
            childrenLoop_pop _ _ _ _ _ _ _ (by simp)]
          exact ihs hws rest D d n F acc hd
        | false =>
          simp only [Raw.depth, hc, Bool.false_eq_true, if_false, List.nil_append]
          rw [hw1 hc, childrenLoop_pop _ _ _ _ _ _ _ (by simp)]
          exact ihs hws rest D d n F acc hd
    | inlinedSubroutine =>
      simp only
      unfold parseOne
      simp only [bind_assoc']
      congr 1
      funext ⟨fn, ra⟩
      congr 1
      funext ranges
      simp only [pure, Except.pure]
      obtain ⟨acc1, ha⟩ : ∃ a : InlinedFunctions, a = ⟨acc.functions ++ [fn],
        acc.addresses ++ ranges.map (fun r => ⟨r, n, acc.functions.length⟩)⟩ := ⟨_, rfl⟩
      rw [← ha]
      show _ = ((Except.ok acc1 : Except Err InlinedFunctions) >>= fun acc => _)
      have hb : ∀ g : InlinedFunctions → Except Err InlinedFunctions,
          ((Except.ok acc1 : Except Err InlinedFunctions) >>= g) = g acc1 := fun _ => rfl
      rw [hb]
      cases hc : e.hasChildren with
      | true =>
        simp only [Raw.depth, hc, if_true, List.append_assoc, List.cons_append, List.nil_append]
        rw [ihc hwc _ (D + 1) D (n + 1) _ acc1 (by omega)]
        congr 1
        funext acc2
        rw [childrenLoop_null _ _ _ _ _ _ _ _ (by simp only; omega), Int.add_sub_cancel,
          childrenLoop_pop _ _ _ _ _ _ _ (by simp)]
        exact ihs hws rest D d n F acc2 hd
      | false =>
        simp only [Raw.depth, hc, Bool.false_eq_true, if_false, List.nil_append]
        rw [hw1 hc, childrenLoop_pop _ _ _ _ _ _ _ (by simp)]
        exact ihs hws rest D d n F acc1 hd
    | other =>
      simp only
      cases hf : e.fail with
      | some err => simp [finish, bind, Except.bind]
      | none =>
        simp only [finish]
        show childrenLoop units unit _ (Raw.depth D (.entry e)) (⟨d, some n⟩ :: F) acc = _
        have hb : ((Except.ok () : Except Err _root_.Unit) >>= fun _ =>
            (parseTree units unit c n acc >>= fun acc => parseTree units unit s n acc))
            = (parseTree units unit c n acc >>= fun acc => parseTree units unit s n acc) := rfl
        rw [hb, bind_assoc']
        cases hc : e.hasChildren with
        | true =>
          simp only [Raw.depth, hc, if_true, List.append_assoc, List.cons_append, List.nil_append]
          rw [ihc hwc _ (D + 1) d n _ acc (by omega)]
          congr 1
          funext acc2
          rw [childrenLoop_null _ _ _ _ _ _ _ _ (by simp only; omega), Int.add_sub_cancel]
          exact ihs hws rest D d n F acc2 hd
        | false =>
          simp only [Raw.depth, hc, Bool.false_eq_true, if_false, List.nil_append]
          rw [hw1 hc]
          exact ihs hws rest D d n F acc hd

/-! ### The attributes of an inlined function -/

theorem callUpdate_name (version : Nat) (fn : Inlined) (a : Attr) : (callUpdate version fn a).name = fn.name := by
  obtain ⟨an, av⟩ := a
  cases an <;> cases av <;> first | rfl | (simp only [callUpdate]; split <;> rfl)

theorem callUpdate_calls (version : Nat) (fn : Inlined) (a : Attr) :
    (callUpdate version fn a).callFile = (callFile? version a).or fn.callFile ∧
    (callUpdate version fn a).callLine = ((callLine? a).map (· % 2 ^ 32)).getD fn.callLine ∧
    (callUpdate version fn a).callColumn = ((callColumn? a).map (· % 2 ^ 32)).getD fn.callColumn := by
  obtain ⟨an, av⟩ := a
  cases an <;> cases av <;>
    first
    | exact ⟨rfl, rfl, rfl⟩
    | (rename_i i
       simp only [callUpdate, callFile?, callLine?, callColumn?]
       by_cases h : i = 0 ∧ version < 5
       · rw [if_neg (by omega), if_pos h]; exact ⟨rfl, rfl, rfl⟩
       · rw [if_pos (by omega), if_neg h]; exact ⟨rfl, rfl, rfl⟩)

theorem inlinedAttrs_ok (units : List Unit) (unit : DieUnit) (fail : Option Err) : ∀ (attrs : List Attr)
    (fn : Inlined) (ra : RangeAttrs) (fn' : Inlined) (ra' : RangeAttrs),
    inlinedAttrs units unit fail attrs fn ra = .ok (fn', ra') →
    fail = none ∧ nameUpdates units unit attrs fn.name = .ok fn'.name ∧ updates attrs ra = .ok ra' ∧
    fn'.callFile = (lastOf (callFile? unit.version) attrs).or fn.callFile ∧
    fn'.callLine = ((lastOf callLine? attrs).map (· % 2 ^ 32)).getD fn.callLine ∧
    fn'.callColumn = ((lastOf callColumn? attrs).map (· % 2 ^ 32)).getD fn.callColumn := by
  intro attrs
  induction attrs with
  | nil =>
    intro fn ra fn' ra' h
    cases fail with
    | some e => simp [inlinedAttrs, finish] at h
    | none =>
      simp only [inlinedAttrs, finish, Except.ok.injEq, Prod.mk.injEq] at h
      rw [← h.1, ← h.2]
      exact ⟨rfl, rfl, rfl, rfl, rfl, rfl⟩
  | cons a t ih =>
    intro fn ra fn' ra' h
    rw [inlinedAttrs] at h
    obtain ⟨name, h1, h⟩ := bind_ok h
    obtain ⟨ra1, h2, h⟩ := bind_ok h
    obtain ⟨i1, i2, i3, i4, i5, i6⟩ := ih _ _ _ _ h
    obtain ⟨c1, c2, c3⟩ := callUpdate_calls unit.version { fn with name } a
    rw [callUpdate_name] at i2
    refine ⟨i1, ?_, ?_, ?_, ?_, ?_⟩
    · rw [nameUpdates, h1]; exact i2
    · rw [updates, h2]; exact i3
    · rw [i4, c1, lastOf_cons, Option.or_assoc]
    · rw [i5, c2, lastOf_cons]
      cases lastOf callLine? t <;> simp
    · rw [i6, c3, lastOf_cons]
      cases lastOf callColumn? t <;> simp

theorem inlinedAttrs_isOk (units : List Unit) (unit : DieUnit) : ∀ (attrs : List Attr)
    (fn : Inlined) (ra : RangeAttrs) (o : Option Bytes) (ra' : RangeAttrs),
    nameUpdates units unit attrs fn.name = .ok o → updates attrs ra = .ok ra' →
    ∃ fn', inlinedAttrs units unit none attrs fn ra = .ok (fn', ra') := by
  intro attrs
  induction attrs with
  | nil =>
    intro fn ra o ra' _ h
    simp only [updates, Except.ok.injEq] at h
    subst h; exact ⟨fn, rfl⟩
  | cons a t ih =>
    intro fn ra o ra' h1 h2
    rw [nameUpdates] at h1
    rw [updates] at h2
    obtain ⟨n1, h3, h4⟩ := bind_ok h1
    obtain ⟨ra1, h5, h6⟩ := bind_ok h2
    rw [inlinedAttrs, h3]
    simp only [bind, Except.bind, h5]
    exact ih _ _ o ra' (by rw [callUpdate_name]; exact h4) h6

/-- An inlined function and its ranges are what its entry says. -/
def ParsedInlined (units : List Unit) (unit : DieUnit) (x : Nat × Entry) (y : Inlined × Nat × List Range) : Prop :=
  InlinedIs units unit x.2 y.1 ∧ y.2.1 = x.1 ∧ y.2.2 = codeOf x.2.attrs

theorem parseOne_ok (units : List Unit) (hs : UnitsSorted units) (unit : DieUnit) (e : Entry) (depth : Nat)
    (acc acc' : InlinedFunctions) (h : parseOne units unit e depth acc = .ok acc') :
    ∃ fn rs, ParsedInlined units unit (depth, e) (fn, depth, rs) ∧
      acc' = ⟨acc.functions ++ [fn], acc.addresses ++ rs.map (fun r => ⟨r, depth, acc.functions.length⟩)⟩ := by
  unfold parseOne at h
  obtain ⟨⟨fn, ra⟩, h1, h⟩ := bind_ok h
  obtain ⟨rs, h2, h⟩ := bind_ok h
  simp only [pure, Except.pure, Except.ok.injEq] at h
  obtain ⟨_, i2, i3, i4, i5, i6⟩ := inlinedAttrs_ok _ _ _ _ _ _ _ _ h1
  refine ⟨fn, rs, ⟨⟨nameUpdates_none units hs unit _ _ i2, by simpa using i4, ?_, ?_⟩, rfl,
    forEachRange_ok i3 h2⟩, h.symm⟩
  · rw [i5]; cases lastOf callLine? e.attrs <;> rfl
  · rw [i6]; cases lastOf callColumn? e.attrs <;> rfl

theorem parseOne_isOk (units : List Unit) (hs : UnitsSorted units) (unit : DieUnit) (e : Entry) (depth : Nat)
    (acc : InlinedFunctions) (hf : e.fail = none) (hc : CodeOk e.attrs)
    (hr : ∀ a ∈ e.attrs, ∀ v, origin? a = some v → RefsOk units 16 unit v) :
    ∃ acc', parseOne units unit e depth acc = .ok acc' := by
  obtain ⟨ra, hra⟩ := updates_isOk e.attrs {} hc.address hc.list
  obtain ⟨name, hn⟩ := nameUpdates_isOk units hs unit e.attrs none hr
  obtain ⟨fn, h1⟩ := inlinedAttrs_isOk units unit e.attrs ⟨none, none, 0, 0⟩ {} name ra hn hra
  unfold parseOne
  rw [hf, h1]
  simp only [bind, Except.bind, forEachRange_isOk hra hc]
  exact ⟨_, rfl⟩

/-- The addresses of inlined functions numbered from `n` on. -/
def addressedInlined : Nat → List (Inlined × Nat × List Range) → List InlinedAddress
  | _, [] => []
  | n, x :: rest => x.2.2.map (fun r => ⟨r, x.2.1, n⟩) ++ addressedInlined (n + 1) rest

theorem addressedInlined_append : ∀ (l l' : List (Inlined × Nat × List Range)) (n : Nat),
    addressedInlined n (l ++ l') = addressedInlined n l ++ addressedInlined (n + l.length) l' := by
  intro l
  induction l with
  | nil => intro l' n; simp [addressedInlined]
  | cons x t ih =>
    intro l' n
    simp only [List.cons_append, addressedInlined, ih, List.append_assoc, List.length_cons]
    rw [show n + 1 + t.length = n + (t.length + 1) by omega]

theorem mem_addressedInlined : ∀ (l : List (Inlined × Nat × List Range)) (n : Nat) (a : InlinedAddress),
    a ∈ addressedInlined n l ↔
      ∃ i fn rs, l[i]? = some (fn, a.callDepth, rs) ∧ a.function = n + i ∧ a.range ∈ rs := by
  intro l
  induction l with
  | nil => intro n a; simp [addressedInlined]
  | cons x t ih =>
    intro n a
    rw [addressedInlined, List.mem_append, ih (n + 1) a, List.mem_map]
    constructor
    · rintro (⟨r, h1, h2⟩ | ⟨i, f, rs, h1, h2, h3⟩)
      · exact ⟨0, x.1, x.2.2, by rw [← h2]; rfl, by rw [← h2]; rfl, by rw [← h2]; exact h1⟩
      · exact ⟨i + 1, f, rs, by simpa using h1, by omega, h3⟩
    · rintro ⟨i, f, rs, h1, h2, h3⟩
      cases i with
      | zero =>
        simp only [List.getElem?_cons_zero, Option.some.injEq] at h1
        left
        refine ⟨a.range, by rw [h1]; exact h3, ?_⟩
        cases a
        simp only [Nat.add_zero] at h2
        simp only [h2, h1]
      | succ i => exact .inr ⟨i, f, rs, by simpa using h1, by omega, h3⟩

theorem forall₂_append {α β : Type} {R : α → β → Prop} {l1 l2 : List α} {m1 m2 : List β}
    (h1 : List.Forall₂ R l1 m1) (h2 : List.Forall₂ R l2 m2) : List.Forall₂ R (l1 ++ l2) (m1 ++ m2) := by
  induction h1 with
  | nil => exact h2
  | cons hab _ ih => exact List.Forall₂.cons hab ih

/-- Parsing collects the inlined functions. -/
theorem parseTree_ok (units : List Unit) (hs : UnitsSorted units) (unit : DieUnit) : ∀ (t : Dies) (n : Nat)
    (acc acc' : InlinedFunctions), parseTree units unit t n acc = .ok acc' →
    ∃ l, List.Forall₂ (ParsedInlined units unit) (t.inlined n) l ∧
      acc' = ⟨acc.functions ++ l.map Prod.fst, acc.addresses ++ addressedInlined acc.functions.length l⟩ := by
  intro t
  induction t with
  | nil =>
    intro n acc acc' h
    simp only [parseTree, Except.ok.injEq] at h
    exact ⟨[], List.Forall₂.nil, by rw [← h]; simp [addressedInlined]⟩
  | node off stop e c s ihc ihs =>
    intro n acc acc' h
    rw [parseTree] at h
    cases ht : e.tag with
    | subprogram =>
      rw [ht] at h
      obtain ⟨_, _, h⟩ := bind_ok h
      obtain ⟨_, _, h⟩ := bind_ok h
      obtain ⟨l, h1, h2⟩ := ihs _ _ _ h
      exact ⟨l, by simpa [Dies.inlined, ht] using h1, h2⟩
    | inlinedSubroutine =>
      rw [ht] at h
      obtain ⟨acc1, h0, h⟩ := bind_ok h
      obtain ⟨acc2, h1, h⟩ := bind_ok h
      obtain ⟨fn, rs, p1, p2⟩ := parseOne_ok units hs unit e n acc acc1 h0
      obtain ⟨lc, c1, c2⟩ := ihc _ _ _ h1
      obtain ⟨ls, s1, s2⟩ := ihs _ _ _ h
      refine ⟨(fn, n, rs) :: (lc ++ ls), ?_, ?_⟩
      · simp only [Dies.inlined, ht, List.cons_append]
        exact List.Forall₂.cons p1 (forall₂_append c1 s1)
      · rw [s2, c2, p2]
        simp only [addressedInlined, addressedInlined_append, List.map_cons, List.map_append, List.append_assoc,
          List.length_append, List.length_cons, List.length_nil, List.cons_append, List.nil_append,
          List.length_map]
        congr 4
        congr 1
        omega
    | other =>
      rw [ht] at h
      obtain ⟨_, _, h⟩ := bind_ok h
      obtain ⟨acc1, h1, h⟩ := bind_ok h
      obtain ⟨lc, c1, c2⟩ := ihc _ _ _ h1
      obtain ⟨ls, s1, s2⟩ := ihs _ _ _ h
      refine ⟨lc ++ ls, ?_, ?_⟩
      · simp only [Dies.inlined, ht]
        exact forall₂_append c1 s1
      · rw [s2, c2]
        simp only [addressedInlined_append, List.map_append, List.append_assoc, List.length_append, List.length_map]

theorem skipTree_isOk (units : List Unit) (unit : DieUnit) (t : Dies) (h : t.Ok units unit) :
    skipTree t = .ok () := by
  induction t with
  | nil => rfl
  | node off stop e c s ihc ihs =>
    obtain ⟨h1, h2, h3, _⟩ := h
    rw [skipTree, h1, ihc h2, ihs h3]
    rfl

theorem parseTree_isOk (units : List Unit) (hs : UnitsSorted units) (unit : DieUnit) : ∀ (t : Dies) (n : Nat)
    (acc : InlinedFunctions), t.Ok units unit → ∃ acc', parseTree units unit t n acc = .ok acc' := by
  intro t
  induction t with
  | nil => intro n acc _; exact ⟨acc, rfl⟩
  | node off stop e c s ihc ihs =>
    intro n acc h
    obtain ⟨h1, h2, h3, h4⟩ := h
    rw [parseTree]
    cases ht : e.tag with
    | subprogram =>
      simp only [h1, finish, skipTree_isOk units unit c h2, bind, Except.bind]
      exact ihs n acc h3
    | inlinedSubroutine =>
      obtain ⟨hc, hr⟩ := h4 ht
      obtain ⟨acc1, e1⟩ := parseOne_isOk units hs unit e n acc h1 hc hr
      obtain ⟨acc2, e2⟩ := ihc (n + 1) acc1 h2
      simp only [e1, e2, bind, Except.bind]
      exact ihs n acc2 h3
    | other =>
      obtain ⟨acc1, e1⟩ := ihc n acc h2
      simp only [h1, finish, e1, bind, Except.bind]
      exact ihs n acc1 h3

/-! ### Searching -/

theorem inlinedCmp_eq {k probe : Nat} {a : InlinedAddress} : inlinedCmp k probe a = .eq ↔
    a.callDepth = k ∧ a.range.start ≤ probe ∧ probe < a.range.stop := by
  unfold inlinedCmp
  repeat' split
  all_goals simp only [reduceCtorEq, false_iff, true_iff]
  all_goals omega

theorem inlinedCmp_gt {k probe : Nat} {a : InlinedAddress} : inlinedCmp k probe a = .gt ↔
    k < a.callDepth ∨ (a.callDepth = k ∧ probe < a.range.start) := by
  unfold inlinedCmp
  repeat' split
  all_goals simp only [reduceCtorEq, false_iff, true_iff]
  all_goals omega

theorem inlinedCmp_lt {k probe : Nat} {a : InlinedAddress} : inlinedCmp k probe a = .lt ↔
    a.callDepth < k ∨ (a.callDepth = k ∧ a.range.start ≤ probe ∧ a.range.stop ≤ probe) := by
  unfold inlinedCmp
  repeat' split
  all_goals simp only [reduceCtorEq, false_iff, true_iff]
  all_goals omega

/-- The order of the addresses. -/
def DepthOrder (a b : InlinedAddress) : Prop :=
  a.callDepth < b.callDepth ∨ (a.callDepth = b.callDepth ∧ a.range.start ≤ b.range.start)

/-- Addresses of the same depth are not nested. -/
def SameDepthApart (a b : InlinedAddress) : Prop :=
  a.callDepth = b.callDepth → Apart a.range.start a.range.stop b.range.start b.range.stop

theorem findLoop_spec (f : InlinedFunctions) (probe : Nat) : ∀ (m : Nat) (l : List InlinedAddress)
    (found : List Inlined), l.length ≤ m → l.Pairwise DepthOrder → l.Pairwise SameDepthApart →
    (∀ a ∈ l, a.range.start < a.range.stop) → (∀ a ∈ l, ∃ fn, f.functions[a.function]? = some fn) →
    ∃ more, f.findLoop probe l found = .ok (found ++ more) ∧
      (∀ (j : Nat) (fn : Inlined), more[j]? = some fn → ∃ a ∈ l, a.callDepth = found.length + j ∧
        a.range.start ≤ probe ∧ probe < a.range.stop ∧ f.functions[a.function]? = some fn) ∧
      (∀ a ∈ l, a.callDepth = found.length + more.length → ¬ (a.range.start ≤ probe ∧ probe < a.range.stop)) := by
  intro m
  induction m with
  | zero =>
    intro l found hm _ _ _ _
    have : l = [] := List.eq_nil_of_length_eq_zero (by omega)
    subst this
    refine ⟨[], ?_, by simp, by simp⟩
    rw [InlinedFunctions.findLoop]
    simp [binarySearchBy]
  | succ m ih =>
    intro l found hm hord hap hne hfn
    have hcs : CmpSorted l (inlinedCmp found.length probe) := by
      have hboth : l.Pairwise (fun a b => DepthOrder a b ∧ SameDepthApart a b ∧
          a.range.start < a.range.stop ∧ b.range.start < b.range.stop) := by
        have h1 := List.pairwise_and_iff.mpr ⟨hord, hap⟩
        refine List.Pairwise.imp_of_mem ?_ h1
        intro a b ha hb hab
        exact ⟨hab.1, hab.2, hne a ha, hne b hb⟩
      refine hboth.imp ?_
      intro a b ⟨h1, h2, h3, h4⟩
      simp only [inlinedCmp_gt, inlinedCmp_lt]
      unfold DepthOrder at h1
      unfold SameDepthApart Apart at h2
      omega
    have hc := binarySearchBy_contract l _ hcs
    rw [InlinedFunctions.findLoop]
    cases hb : binarySearchBy l (inlinedCmp found.length probe) with
    | inr i =>
      rw [hb] at hc
      obtain ⟨_, h1, h2⟩ := hc
      refine ⟨[], by simp, by simp, ?_⟩
      intro a ha hd hcon
      obtain ⟨j, hj⟩ := List.mem_iff_getElem?.mp ha
      simp only [List.length_nil, Nat.add_zero] at hd
      rcases Nat.lt_or_ge j i with h | h
      · have := inlinedCmp_lt.mp (h1 j a h hj); omega
      · have := inlinedCmp_gt.mp (h2 j a h hj); omega
    | inl i =>
      rw [hb] at hc
      obtain ⟨a, ha, hq⟩ := hc
      rw [inlinedCmp_eq] at hq
      have ham := List.mem_of_getElem? ha
      obtain ⟨fn, hfa⟩ := hfn a ham
      have hil := (List.getElem?_eq_some_iff.mp ha).1
      have hsub : (l.drop (i + 1)).Sublist l := List.drop_sublist _ _
      obtain ⟨more, i1, i2, i3⟩ := ih (l.drop (i + 1)) (found ++ [fn]) (by simp; omega) (hord.sublist hsub)
        (hap.sublist hsub) (fun x hx => hne x (hsub.subset hx)) (fun x hx => hfn x (hsub.subset hx))
      refine ⟨fn :: more, ?_, ?_, ?_⟩
      · simp only
        split
        · rename_i hnone
          rw [ha] at hnone; cases hnone
        · rename_i a' ha'
          rw [ha] at ha'
          have := Option.some.inj ha'
          subst this
          rw [hfa]
          simp only
          rw [i1]
          simp
      · intro j g hg
        cases j with
        | zero =>
          simp only [List.getElem?_cons_zero, Option.some.injEq] at hg
          subst hg
          exact ⟨a, ham, by simpa using hq.1, hq.2.1, hq.2.2, hfa⟩
        | succ j =>
          obtain ⟨b, hb1, hb2, hb3⟩ := i2 j g (by simpa using hg)
          refine ⟨b, hsub.subset hb1, ?_, hb3⟩
          simp only [List.length_append, List.length_cons, List.length_nil] at hb2
          omega
      · intro b hbm hbd
        have hbd' : b.callDepth = (found ++ [fn]).length + more.length := by
          simp only [List.length_append, List.length_cons, List.length_nil] at hbd ⊢
          omega
        refine i3 b ?_ hbd'
        obtain ⟨j, hj⟩ := List.mem_iff_getElem?.mp hbm
        have hjl := (List.getElem?_eq_some_iff.mp hj)
        have hjl' := (List.getElem?_eq_some_iff.mp ha)
        rcases Nat.lt_or_ge i j with h | h
        · refine List.mem_iff_getElem?.mpr ⟨j - (i + 1), ?_⟩
          rw [List.getElem?_drop, show i + 1 + (j - (i + 1)) = j by omega]
          exact hj
        · exfalso
          simp only [List.length_cons] at hbd
          rcases Nat.lt_or_eq_of_le h with h | h
          · have hp := List.pairwise_iff_getElem.mp hord j i hjl.1 hil h
            rw [hjl.2, hjl'.2] at hp
            unfold DepthOrder at hp
            omega
          · subst h
            rw [ha] at hj
            have := Option.some.inj hj
            subst this
            omega

end Blazesym.Dwarf
