import Verif.Dwarf.InlineLemmas
import Verif.Dwarf.FunctionProps

/-! # C38: inlined functions -/

set_option autoImplicit false

namespace Blazesym.Dwarf
open Blazesym.Util Blazesym.Spec.Dwarf

/-! ### Parsing -/

theorem childrenLoop_done (units : List Unit) (unit : DieUnit) (s : Stream) (n : Nat) (acc : InlinedFunctions) :
    childrenLoop units unit s 0 [⟨0, some n⟩] acc = .ok acc := by
  rw [childrenLoop_pop _ _ _ _ _ _ _ (by simp), childrenLoop]
  rfl

/-- Parsing the inlined functions of a function. -/
theorem parseInlined_eq (σ : Sorter) (units : List Unit) (unit : DieUnit) (offset : Nat) (children : Dies)
    (h : FunctionAt unit offset children) : parseInlined σ units unit offset =
      (parseTree units unit children 0 ⟨[], []⟩ >>= fun acc =>
        .ok { acc with addresses := σ.sort inlinedLe acc.addresses }) := by
  obtain ⟨off, stop, e, rest, h1, h2, h3, h4, h5⟩ := h
  unfold parseInlined
  simp only [h1, bind, Except.bind, h2, if_true, h3, finish]
  cases hc : e.hasChildren with
  | true =>
    simp only [Raw.depth, hc, if_true, List.append_assoc, List.cons_append, List.nil_append]
    rw [childrenLoop_tree units unit children h4 _ (0 + 1) 0 0 [] _ (by omega)]
    cases parseTree units unit children 0 ⟨[], []⟩ with
    | error e => rfl
    | ok acc =>
      simp only [bind, Except.bind]
      rw [childrenLoop_null _ _ _ _ _ _ _ _ (by simp), Int.add_sub_cancel, childrenLoop_done]
      rfl
  | false =>
    simp only [Raw.depth, hc, Bool.false_eq_true, if_false, List.nil_append]
    rw [h5 hc, childrenLoop_done]
    rfl

theorem inlinedLe_total (a b : InlinedAddress) : (inlinedLe a b || inlinedLe b a) = true := by
  unfold inlinedLe
  simp only [Bool.or_eq_true, decide_eq_true_eq]
  omega

theorem inlinedLe_trans (a b c : InlinedAddress) : inlinedLe a b = true → inlinedLe b c = true →
    inlinedLe a c = true := by
  unfold inlinedLe
  simp only [decide_eq_true_eq]
  omega

/-- What has been parsed for a function. -/
theorem parseInlined_ok (σ : Sorter) (units : List Unit) (hs : UnitsSorted units) (unit : DieUnit)
    (offset : Nat) (children : Dies) (h : FunctionAt unit offset children) (f : InlinedFunctions)
    (hf : parseInlined σ units unit offset = .ok f) :
    ∃ l, List.Forall₂ (ParsedInlined units unit) (children.inlined 0) l ∧ f.functions = l.map Prod.fst ∧
      f.addresses.Perm (addressedInlined 0 l) ∧ f.addresses.Pairwise DepthOrder := by
  rw [parseInlined_eq σ units unit offset children h] at hf
  obtain ⟨acc, h1, h2⟩ := bind_ok hf
  obtain ⟨l, h3, h4⟩ := parseTree_ok units hs unit children 0 _ _ h1
  have := Except.ok.inj h2
  subst this
  subst h4
  refine ⟨l, h3, by simp, ?_, ?_⟩
  · simpa using σ.perm inlinedLe _
  · refine (σ.sorted inlinedLe inlinedLe_trans inlinedLe_total _).imp ?_
    intro a b hab
    simpa [inlinedLe, DepthOrder] using hab

/-- **C38** (acceptance): the inlined functions of a function are available if its entries can be
decoded. -/
theorem C38_accepted (σ : Sorter) (units : List Unit) (hs : UnitsSorted units) (unit : DieUnit)
    (offset : Nat) (children : Dies) (h : FunctionAt unit offset children) (hok : children.Ok units unit) :
    ∃ f, parseInlined σ units unit offset = .ok f := by
  rw [parseInlined_eq σ units unit offset children h]
  obtain ⟨acc, h1⟩ := parseTree_isOk units hs unit children 0 ⟨[], []⟩ hok
  rw [h1]
  exact ⟨_, rfl⟩

/-- **C38** (the functions known): exactly the inlined functions of the tree, in the order of the
entries. -/
theorem C38_functions (σ : Sorter) (units : List Unit) (hs : UnitsSorted units) (unit : DieUnit)
    (offset : Nat) (children : Dies) (h : FunctionAt unit offset children) (f : InlinedFunctions)
    (hf : parseInlined σ units unit offset = .ok f) :
    List.Forall₂ (InlinedIs units unit) children.allInlined f.functions := by
  obtain ⟨l, h1, h2, h3⟩ := parseInlined_ok σ units hs unit offset children h f hf
  rw [h2, Dies.allInlined]
  clear h2 h3
  generalize children.inlined 0 = xs at h1
  induction h1 with
  | nil => exact List.Forall₂.nil
  | cons hab _ ih => exact List.Forall₂.cons hab.1 ih

/-! ### Searching -/

/-- **C38** (each depth): if functions inlined at the same depth are not nested, the search
answers with, for every depth in turn, a function inlined at this depth that has the address in its code,
and ends with the first depth at which there is none. -/
theorem C38_depths (σ : Sorter) (units : List Unit) (hs : UnitsSorted units) (unit : DieUnit)
    (offset : Nat) (children : Dies) (h : FunctionAt unit offset children) (hap : children.InOrder)
    (f : InlinedFunctions) (hf : parseInlined σ units unit offset = .ok f) (addr : Nat) :
    ∃ found, f.find addr = .ok found ∧
      (∀ (j : Nat) (fn : Inlined), found[j]? = some fn →
        ∃ e, (j, e) ∈ children.inlined 0 ∧ Covers e addr ∧ InlinedIs units unit e fn) ∧
      (∀ e, (found.length, e) ∈ children.inlined 0 → ¬ Covers e addr) := by
  obtain ⟨l, h1, h2, h3, h4⟩ := parseInlined_ok σ units hs unit offset children h f hf
  have hmem : ∀ a ∈ f.addresses, ∃ e fn, (a.callDepth, e) ∈ children.inlined 0 ∧
      a.range ∈ codeOf e.attrs ∧ f.functions[a.function]? = some fn ∧ InlinedIs units unit e fn := by
    intro a ha
    obtain ⟨i, fn, rs, k1, k2, k3⟩ := (mem_addressedInlined l 0 a).mp (h3.mem_iff.mp ha)
    obtain ⟨⟨d, e⟩, k4, k5, k6, k7⟩ := forall₂_get h1 k1
    simp only at k5 k6 k7
    refine ⟨e, fn, ?_, by rw [← k7]; exact k3, ?_, k5⟩
    · rw [k6]; exact List.mem_of_getElem? k4
    · rw [h2, List.getElem?_map, k2, Nat.zero_add, k1]; rfl
  have hpair : f.addresses.Pairwise SameDepthApart := by
    refine List.pairwise_of_forall_mem_list ?_
    intro a ha b hb hd
    obtain ⟨e, _, m1, m2, _⟩ := hmem a ha
    obtain ⟨e', _, m3, m4, _⟩ := hmem b hb
    rw [← hd] at m3
    rcases hap _ e e' m1 m3 _ m2 _ m4 with h | h | h
    · exact .inl ⟨by rw [h], by rw [h]⟩
    · exact .inr (.inl h)
    · exact .inr (.inr h)
  obtain ⟨found, f1, f2, f3⟩ := findLoop_spec f addr f.addresses.length f.addresses [] (Nat.le_refl _) h4 hpair
    (fun a ha => by obtain ⟨e, _, _, m2, _⟩ := hmem a ha; exact mem_codeOf_lt m2)
    (fun a ha => by obtain ⟨e, fn, _, _, m3, _⟩ := hmem a ha; exact ⟨fn, m3⟩)
  refine ⟨found, by simpa [InlinedFunctions.find] using f1, ?_, ?_⟩
  · intro j fn hj
    obtain ⟨a, ha, d1, d2, d3, d4⟩ := f2 j fn hj
    obtain ⟨e, fn', m1, m2, m3, m4⟩ := hmem a ha
    rw [m3] at d4
    have := Option.some.inj d4
    subst this
    simp only [List.length_nil, Nat.zero_add] at d1
    rw [d1] at m1
    exact ⟨e, m1, ⟨a.range, m2, d2, d3⟩, m4⟩
  · intro e he ⟨r, hr, hr1, hr2⟩
    obtain ⟨j, hj⟩ := List.mem_iff_getElem?.mp he
    obtain ⟨⟨g, d, rs⟩, k1, k2, k3, k4⟩ := forall₂_get' h1 hj
    simp only at k3 k4
    have : (⟨r, found.length, j⟩ : InlinedAddress) ∈ f.addresses := by
      rw [h3.mem_iff, mem_addressedInlined]
      exact ⟨j, g, rs, by rw [k1, k3], by simp, by rw [k4]; exact hr⟩
    exact f3 _ this (by simp) ⟨hr1, hr2⟩

/-! ### Well nested functions -/

theorem covers_any (e : Entry) (addr : Nat) :
    (codeOf e.attrs).any (fun r => decide (r.start ≤ addr ∧ addr < r.stop)) = true ↔ Covers e addr := by
  simp only [List.any_eq_true, decide_eq_true_eq]
  rfl

theorem inlined_depth : ∀ (t : Dies) (n d : Nat) (e : Entry), (d, e) ∈ t.inlined n → n ≤ d := by
  intro t
  induction t with
  | nil => intro n d e h; cases h
  | node off stop e0 c s ihc ihs =>
    intro n d e h
    rw [Dies.inlined, List.mem_append] at h
    rcases h with h | h
    · cases ht : e0.tag with
      | subprogram => rw [ht] at h; cases h
      | inlinedSubroutine =>
        rw [ht] at h
        rcases List.mem_cons.mp h with h | h
        · simp only [Prod.mk.injEq] at h; omega
        · have := ihc _ _ _ h; omega
      | other => rw [ht] at h; exact ihc _ _ _ h
    · exact ihs _ _ _ h

theorem inlined_shift : ∀ (t : Dies) (n d : Nat) (e : Entry), (d, e) ∈ t.inlined n → e ∈ t.allInlined := by
  have key : ∀ (t : Dies) (n m : Nat), (t.inlined n).map Prod.snd = (t.inlined m).map Prod.snd := by
    intro t
    induction t with
    | nil => intro n m; rfl
    | node off stop e0 c s ihc ihs =>
      intro n m
      rw [Dies.inlined, Dies.inlined, List.map_append, List.map_append, ihs n m]
      cases e0.tag with
      | subprogram => rfl
      | inlinedSubroutine => simp only [List.map_cons, ihc (n + 1) (m + 1)]
      | other => simp only [ihc n m]
  intro t n d e h
  rw [Dies.allInlined, key t 0 n]
  exact List.mem_map.mpr ⟨_, h, rfl⟩

/-- In well nested functions, an address is in exactly the inlined functions of its chain. -/
theorem chain_iff (addr : Nat) : ∀ (t : Dies), t.Nested → ∀ (n j : Nat) (e : Entry),
    ((n + j, e) ∈ t.inlined n ∧ Covers e addr) ↔ (t.chain addr)[j]? = some e := by
  intro t
  induction t with
  | nil => intro _ n j e; simp [Dies.inlined, Dies.chain]
  | node off stop e0 c s ihc ihs =>
    intro hn n j e
    rw [Dies.Nested] at hn
    obtain ⟨hns, hn⟩ := hn
    rw [Dies.inlined, Dies.chain]
    cases ht : e0.tag with
    | subprogram => simpa using ihs hns n j e
    | inlinedSubroutine =>
      rw [ht] at hn
      obtain ⟨hnc, hown, hsub, hdis⟩ := hn
      simp only
      by_cases hcov : Covers e0 addr
      · rw [if_pos ((covers_any e0 addr).mpr hcov)]
        have hnos : ¬ ((n + j, e) ∈ s.inlined n ∧ Covers e addr) := by
          rintro ⟨h1, h2⟩
          exact hdis e (inlined_shift s _ _ _ h1) addr hcov h2
        cases j with
        | zero =>
          simp only [List.getElem?_cons_zero, Option.some.injEq, Nat.add_zero]
          constructor
          · rintro ⟨h1, h2⟩
            rcases List.mem_append.mp h1 with h1 | h1
            · rcases List.mem_cons.mp h1 with h1 | h1
              · simp only [Prod.mk.injEq, true_and] at h1; exact h1.symm
              · have := inlined_depth _ _ _ _ h1; omega
            · exact absurd ⟨h1, h2⟩ hnos
          · intro h
            subst h
            exact ⟨by simp, hcov⟩
        | succ j =>
          rw [List.getElem?_cons_succ, ← ihc hnc (n + 1) j e]
          constructor
          · rintro ⟨h1, h2⟩
            rcases List.mem_append.mp h1 with h1 | h1
            · rcases List.mem_cons.mp h1 with h1 | h1
              · simp only [Prod.mk.injEq] at h1; omega
              · exact ⟨by rw [show n + 1 + j = n + (j + 1) by omega]; exact h1, h2⟩
            · exact absurd ⟨h1, h2⟩ hnos
          · rintro ⟨h1, h2⟩
            refine ⟨?_, h2⟩
            rw [show n + 1 + j = n + (j + 1) by omega] at h1
            exact List.mem_append_left _ (List.mem_cons_of_mem _ h1)
      · rw [if_neg (fun h => hcov ((covers_any e0 addr).mp h)), ← ihs hns n j e]
        constructor
        · rintro ⟨h1, h2⟩
          rcases List.mem_append.mp h1 with h1 | h1
          · rcases List.mem_cons.mp h1 with h1 | h1
            · simp only [Prod.mk.injEq] at h1
              rw [h1.2] at h2
              exact absurd h2 hcov
            · exact absurd (hsub e (inlined_shift c _ _ _ h1) addr h2) hcov
          · exact ⟨h1, h2⟩
        · rintro ⟨h1, h2⟩
          exact ⟨List.mem_append_right _ h1, h2⟩
    | other =>
      rw [ht] at hn
      obtain ⟨hnc, hdis⟩ := hn
      simp only
      by_cases hemp : c.chain addr = []
      · rw [if_pos hemp, ← ihs hns n j e]
        constructor
        · rintro ⟨h1, h2⟩
          rcases List.mem_append.mp h1 with h1 | h1
          · obtain ⟨k, hk⟩ := Nat.exists_eq_add_of_le (inlined_depth _ _ _ _ h1)
            rw [hk] at h1
            have := (ihc hnc n k e).mp ⟨h1, h2⟩
            rw [hemp] at this
            cases this
          · exact ⟨h1, h2⟩
        · rintro ⟨h1, h2⟩
          exact ⟨List.mem_append_right _ h1, h2⟩
      · rw [if_neg hemp, ← ihc hnc n j e]
        constructor
        · rintro ⟨h1, h2⟩
          rcases List.mem_append.mp h1 with h1 | h1
          · exact ⟨h1, h2⟩
          · exfalso
            obtain ⟨x, xs, hx⟩ := List.exists_cons_of_ne_nil hemp
            have h3 : (c.chain addr)[0]? = some x := by rw [hx]; rfl
            obtain ⟨h4, h5⟩ := (ihc hnc n 0 x).mpr h3
            exact hdis x (inlined_shift c _ _ _ h4) e (inlined_shift s _ _ _ h1) addr h5 h2
        · rintro ⟨h1, h2⟩
          exact ⟨List.mem_append_left _ h1, h2⟩

theorem disjoint_apart {e e' : Entry} (h : DisjointCode e e') : ∀ r ∈ codeOf e.attrs,
    ∀ r' ∈ codeOf e'.attrs, SameOrDisjoint r r' := by
  intro r hr r' hr'
  have h1 := mem_codeOf_lt hr
  have h2 := mem_codeOf_lt hr'
  by_cases hov : r.stop ≤ r'.start
  · exact .inr (.inl hov)
  · by_cases hov' : r'.stop ≤ r.start
    · exact .inr (.inr hov')
    · exfalso
      exact h (max r.start r'.start) ⟨r, hr, by omega, by omega⟩ ⟨r', hr', by omega, by omega⟩

theorem inOrder_of_disjoint {r r' : Range} (hr : r.start < r.stop) (hr' : r'.start < r'.stop)
    (h : SameOrDisjoint r r') : InOrder r r' := by
  rcases h with h | h | h
  · exact .inl h
  · exact .inr (.inl (by omega))
  · exact .inr (.inr (by omega))

theorem sameOrDisjoint_symm {r r' : Range} (h : SameOrDisjoint r r') : SameOrDisjoint r' r := by
  rcases h with h | h | h
  · exact .inl h.symm
  · exact .inr (.inr h)
  · exact .inr (.inl h)

theorem nested_apart' : ∀ (t : Dies), t.Nested → ∀ (n d : Nat) (e e' : Entry), (d, e) ∈ t.inlined n →
    (d, e') ∈ t.inlined n → ∀ r ∈ codeOf e.attrs, ∀ r' ∈ codeOf e'.attrs, SameOrDisjoint r r' := by
  intro t
  induction t with
  | nil => intro _ n d e e' h; cases h
  | node off stop e0 c s ihc ihs =>
    intro hn n d e e' he he'
    rw [Dies.Nested] at hn
    obtain ⟨hns, hn⟩ := hn
    rw [Dies.inlined, List.mem_append] at he he'
    cases ht : e0.tag with
    | subprogram =>
      rw [ht] at he he'
      simp only [List.not_mem_nil, false_or] at he he'
      exact ihs hns n d e e' he he'
    | inlinedSubroutine =>
      rw [ht] at he he' hn
      obtain ⟨hnc, hown, hsub, hdis⟩ := hn
      have hdis' : ∀ x, (∃ d, (d, x) ∈ (n, e0) :: c.inlined (n + 1)) → ∀ y, (∃ d, (d, y) ∈ s.inlined n) →
          DisjointCode x y := by
        rintro x ⟨dx, hx⟩ y ⟨dy, hy⟩ a ha
        rcases List.mem_cons.mp hx with hx | hx
        · simp only [Prod.mk.injEq] at hx
          rw [hx.2] at ha
          exact hdis y (inlined_shift s _ _ _ hy) a ha
        · exact hdis y (inlined_shift s _ _ _ hy) a (hsub x (inlined_shift c _ _ _ hx) a ha)
      rcases he with he | he <;> rcases he' with he' | he'
      · rcases List.mem_cons.mp he with h | h <;> rcases List.mem_cons.mp he' with h' | h'
        · simp only [Prod.mk.injEq] at h h'
          rw [h.2, h'.2]; exact hown
        · simp only [Prod.mk.injEq] at h
          have := inlined_depth _ _ _ _ h'
          omega
        · simp only [Prod.mk.injEq] at h'
          have := inlined_depth _ _ _ _ h
          omega
        · exact ihc hnc (n + 1) d e e' h h'
      · exact disjoint_apart (hdis' e ⟨_, he⟩ e' ⟨_, he'⟩)
      · intro r hr r' hr'
        exact sameOrDisjoint_symm (disjoint_apart (hdis' e' ⟨_, he'⟩ e ⟨_, he⟩) r' hr' r hr)
      · exact ihs hns n d e e' he he'
    | other =>
      rw [ht] at he he' hn
      obtain ⟨hnc, hdis⟩ := hn
      rcases he with he | he <;> rcases he' with he' | he'
      · exact ihc hnc n d e e' he he'
      · exact disjoint_apart (hdis e (inlined_shift c _ _ _ he) e' (inlined_shift s _ _ _ he'))
      · intro r hr r' hr'
        exact sameOrDisjoint_symm (disjoint_apart
          (hdis e' (inlined_shift c _ _ _ he') e (inlined_shift s _ _ _ he)) r' hr' r hr)
      · exact ihs hns n d e e' he he'

/-- Well nested functions are not nested in others of the same depth. -/
theorem nested_apart (t : Dies) (h : t.Nested) : t.InOrder :=
  fun d e e' he he' r hr r' hr' =>
    inOrder_of_disjoint (mem_codeOf_lt hr) (mem_codeOf_lt hr') (nested_apart' t h 0 d e e' he he' r hr r' hr')

/-- **C38** (the chain of calls): if functions are well nested, the inlined functions reported for an
address are exactly those the address is in, from the outermost to the innermost, with the name and the
place of the call their entries say. -/
theorem C38_chain (σ : Sorter) (units : List Unit) (hs : UnitsSorted units) (unit : DieUnit)
    (offset : Nat) (children : Dies) (h : FunctionAt unit offset children) (hn : children.Nested)
    (f : InlinedFunctions) (hf : parseInlined σ units unit offset = .ok f) (addr : Nat) :
    ∃ found, f.find addr = .ok found ∧ List.Forall₂ (InlinedIs units unit) (children.chain addr) found := by
  obtain ⟨found, h1, h2, h3⟩ := C38_depths σ units hs unit offset children h (nested_apart _ hn) f hf addr
  refine ⟨found, h1, ?_⟩
  have key : ∀ (j : Nat) (fn : Inlined), found[j]? = some fn →
      ∃ e, (children.chain addr)[j]? = some e ∧ InlinedIs units unit e fn := by
    intro j fn hj
    obtain ⟨e, k1, k2, k3⟩ := h2 j fn hj
    exact ⟨e, (chain_iff addr children hn 0 j e).mp ⟨by rw [Nat.zero_add]; exact k1, k2⟩, k3⟩
  have hlen : (children.chain addr).length ≤ found.length := by
    rcases Nat.lt_or_ge found.length (children.chain addr).length with hlt | hge
    · exfalso
      have hg := List.getElem?_eq_getElem hlt
      obtain ⟨k1, k2⟩ := (chain_iff addr children hn 0 found.length _).mpr hg
      rw [Nat.zero_add] at k1
      exact h3 _ k1 k2
    · exact hge
  clear h1 h2 h3
  generalize children.chain addr = xs at key hlen
  induction found generalizing xs with
  | nil =>
    have : xs = [] := List.eq_nil_of_length_eq_zero (by simpa using hlen)
    subst this
    exact List.Forall₂.nil
  | cons fn t ih =>
    obtain ⟨e, k1, k2⟩ := key 0 fn rfl
    cases xs with
    | nil => cases k1
    | cons x xs =>
      simp only [List.getElem?_cons_zero, Option.some.injEq] at k1
      subst k1
      refine List.Forall₂.cons k2 (ih xs ?_ (by simpa using hlen))
      intro j g hg
      simpa using key (j + 1) g (by simpa using hg)

/-- The innermost function's address is in all functions of the chain. -/
theorem chain_covers (addr : Nat) (t : Dies) (hn : t.Nested) : ∀ e ∈ t.chain addr, Covers e addr := by
  intro e he
  obtain ⟨j, hj⟩ := List.mem_iff_getElem?.mp he
  exact ((chain_iff addr t hn 0 j e).mpr hj).2

/-- **C38** (no address outside): for an address in no inlined function, none is reported. -/
theorem C38_outside (σ : Sorter) (units : List Unit) (hs : UnitsSorted units) (unit : DieUnit)
    (offset : Nat) (children : Dies) (h : FunctionAt unit offset children) (hap : children.InOrder)
    (f : InlinedFunctions) (hf : parseInlined σ units unit offset = .ok f) (addr : Nat)
    (hno : ∀ e ∈ children.allInlined, ¬ Covers e addr) : f.find addr = .ok [] := by
  obtain ⟨found, h1, h2, _⟩ := C38_depths σ units hs unit offset children h hap f hf addr
  cases found with
  | nil => exact h1
  | cons fn t =>
    obtain ⟨e, k1, k2, _⟩ := h2 0 fn rfl
    exact absurd k2 (hno e (inlined_shift _ _ _ _ k1))

/-- **C38** (broken data): where a function's entry cannot be read, because the data of the unit ends before it or it
cannot be decoded, there is an error and no crash. -/
theorem C38_bad_entry (σ : Sorter) (units : List Unit) (unit : DieUnit) (offset : Nat) :
    (unit.entries (some offset) = .ok [] → parseInlined σ units unit offset = .error .invalidDwarf) ∧
    (∀ (o : Nat) (e : Err) (rest : Stream), unit.entries (some offset) = .ok ((o, .bad e) :: rest) →
      parseInlined σ units unit offset = .error e) ∧
    (∀ (e : Err), unit.entries (some offset) = .error e → parseInlined σ units unit offset = .error e) ∧
    (∀ (o : Nat) (entry : Entry) (e : Err) (rest : Stream), unit.entries (some offset) = .ok ((o, .entry entry) :: rest) →
      entry.tag = .subprogram → entry.fail = some e → parseInlined σ units unit offset = .error e) := by
  unfold parseInlined
  refine ⟨fun h => ?_, fun o e rest h => ?_, fun e h => ?_, fun o entry e rest h ht hf => ?_⟩
  · rw [h]; rfl
  · rw [h]; rfl
  · rw [h]; rfl
  · rw [h]
    simp only [bind, Except.bind, ht, if_true, hf, finish]

/-- A unit cut off before the function. -/
example (σ : Sorter) : ∃ (unit : DieUnit), unit.entries (some 200) = .ok []
    ∧ parseInlined σ [] unit 200 = .error .invalidDwarf :=
  ⟨⟨4, fun _ => .ok []⟩, rfl, (C38_bad_entry σ [] _ 200).1 rfl⟩

/-! ### Example: a function with two inlined calls, one of which contains another one -/

def exInl (name : Nat) (lo size line : Nat) (hasChildren : Bool) : Entry :=
  ⟨.inlinedSubroutine, hasChildren, [⟨.name, .string [UInt8.ofNat name]⟩, ⟨.lowPc, .addr lo⟩, ⟨.highPc, .udata size⟩,
    ⟨.callFile, .fileIndex 1⟩, ⟨.callLine, .udata line⟩], none⟩

def exTree : Dies :=
  .node 30 90 (exInl 97 0x1000 0x20 7 true)
    (.node 50 80 ⟨.other, true, [], none⟩ (.node 60 70 (exInl 98 0x1008 0x8 9 false) .nil .nil) .nil)
    (.node 100 110 (exInl 99 0x1020 0x10 11 false) .nil .nil)

def exInlineUnit : DieUnit where
  version := 4
  entries := fun o => .ok (((20, .entry ⟨.subprogram, true, [⟨.lowPc, .addr 0x1000⟩, ⟨.highPc, .udata 0x40⟩], none⟩) ::
    (exTree.flat ++ [(120, .null)])).filter (fun x => decide (o.getD 0 ≤ x.1)))

example : FunctionAt exInlineUnit 20 exTree :=
  ⟨20, 120, ⟨.subprogram, true, [⟨.lowPc, .addr 0x1000⟩, ⟨.highPc, .udata 0x40⟩], none⟩, [], by rfl, rfl, rfl,
    by simp [exTree, Dies.WellFormed, exInl], by intro h; cases h⟩

theorem exInl_code (name lo size line : Nat) (c : Bool) (h : 0 < size) :
    codeOf (exInl name lo size line c).attrs = [⟨lo, lo + size⟩] := by
  have h1 : rangesOf (exInl name lo size line c).attrs = none := rfl
  have h2 : spanOf (exInl name lo size line c).attrs = some ⟨lo, lo + size⟩ := rfl
  simp only [codeOf, h1, h2, Option.toList]
  simp [h]

theorem exTree_nested : exTree.Nested := by
  have h1 := exInl_code 97 0x1000 0x20 7 true (by omega)
  have h2 := exInl_code 98 0x1008 0x8 9 false (by omega)
  have h3 := exInl_code 99 0x1020 0x10 11 false (by omega)
  have t1 : (exInl 97 0x1000 0x20 7 true).tag = .inlinedSubroutine := rfl
  have t2 : (exInl 98 0x1008 0x8 9 false).tag = .inlinedSubroutine := rfl
  have t3 : (exInl 99 0x1020 0x10 11 false).tag = .inlinedSubroutine := rfl
  have cov : ∀ (e : Entry) (r : Range), codeOf e.attrs = [r] → ∀ a, Covers e a ↔ r.start ≤ a ∧ a < r.stop := by
    intro e r h a
    simp [Covers, h]
  simp only [exTree, Dies.Nested, Dies.allInlined, Dies.inlined, t1, t2, t3, h1, h2, h3, DisjointCode,
    List.append_nil, List.map_cons, List.map_nil, List.mem_singleton, forall_eq, List.not_mem_nil,
    cov _ _ h1, cov _ _ h2, cov _ _ h3, SameOrDisjoint, true_and, and_true, true_or, false_imp_iff, implies_true]
  refine ⟨?_, ?_⟩ <;> intros <;> omega

/-- The chain of the address in the innermost function. -/
example : exTree.chain 0x100a = [exInl 97 0x1000 0x20 7 true, exInl 98 0x1008 0x8 9 false] := by
  have h1 := exInl_code 97 0x1000 0x20 7 true (by omega)
  have h2 := exInl_code 98 0x1008 0x8 9 false (by omega)
  have t1 : (exInl 97 0x1000 0x20 7 true).tag = .inlinedSubroutine := rfl
  have t2 : (exInl 98 0x1008 0x8 9 false).tag = .inlinedSubroutine := rfl
  simp [exTree, Dies.chain, t1, t2, h1, h2]

end Blazesym.Dwarf
