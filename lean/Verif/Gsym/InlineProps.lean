import Verif.Gsym.InlineRobust

/-! # C20: GSYM inline information -/

set_option autoImplicit false

namespace Blazesym.Gsym
open Blazesym.Util Blazesym.Spec Blazesym.Spec.Gsym

/-- **C20**: for every tree of inlined functions and every address, exactly the named
functions that contain the address together with all functions around them are reported, a
function before the functions inlined into it; a line number that is no 32 bit number is
reported as the greatest one.  All other functions are skipped, whatever they contain, and so
is everything after the tree. -/
theorem C20_inlined (addr : Nat) (root : Inlined) (children : Forest)
    (hf : (Forest.cons root children .nil).InRange) (base a : Nat) (tail : Bytes)
    (stack : List InlineFrame)
    (hv : ∀ p ∈ (Forest.cons root children .nil).placed base [], p.Reached addr → p.Valid) :
    parseInlineStack ⟨a, (Forest.cons root children .nil).bytes ++ tail⟩ base addr stack =
      .ok (stack ++ (((Forest.cons root children .nil).at base addr).filter
        fun p => decide (p.fn.name ≠ 0)).map
        fun p => ⟨p.fn.name, p.fn.callFile, min p.fn.callLine (2 ^ 32 - 1)⟩) := by
  rw [(parseInlineStack_eq addr root children hf base a tail stack).1
    ((readable_iff addr _ base [] (by simp)).mpr hv), frames_eq addr _ base [] (by simp)]
  have e1 : (fun p : Placed => decide (p.fn.name > 0)) = fun p => decide (p.fn.name ≠ 0) := by
    funext p
    rw [decide_eq_decide]; omega
  have e2 : (fun p : Placed => frameOf p.fn) =
      fun p => ⟨p.fn.name, p.fn.callFile, min p.fn.callLine (2 ^ 32 - 1)⟩ := by
    funext p
    unfold frameOf u32Size
    congr 1
    split_ifs <;> omega
  rw [e1, e2]
  rfl

/-- **C20**: a range that leaves the address space or a file index that is no 32 bit number,
in a function all of whose surrounding functions contain the address, is invalid data. -/
theorem C20_invalid (addr : Nat) (root : Inlined) (children : Forest)
    (hf : (Forest.cons root children .nil).InRange) (base a : Nat) (tail : Bytes)
    (stack : List InlineFrame) (p : Placed)
    (hp : p ∈ (Forest.cons root children .nil).placed base []) (hr : p.Reached addr)
    (hv : ¬ p.Valid) :
    parseInlineStack ⟨a, (Forest.cons root children .nil).bytes ++ tail⟩ base addr stack =
      .error .invalidData :=
  (parseInlineStack_eq addr root children hf base a tail stack).2
    fun h => hv ((readable_iff addr _ base [] (by simp)).mp h p hp hr)

/-- **C20**: if functions inlined into the same function do not share the address, then the
reported functions are nested: each is inlined, directly or not, into the one before it. -/
theorem C20_nested (addr : Nat) (f : Forest) (base : Nat) (hd : f.Disjoint addr base) :
    (f.at base addr).Pairwise fun x y => (x.code :: x.around) <:+ y.around := by
  have key : ∀ (f : Forest) (base : Nat) (around : List (List (Nat × Nat))),
      f.Disjoint addr base →
      ((f.placed base around).filter fun p => decide (p.Holds addr)).Pairwise
        (fun x y => (x.code :: x.around) <:+ y.around) := by
    have hsuf : ∀ (f : Forest) (base : Nat) (around : List (List (Nat × Nat))),
        ∀ p ∈ f.placed base around, around <:+ p.around := by
      intro f
      induction f with
      | nil => intro b ar p hp; simp [Forest.placed] at hp
      | cons i ch rest ih1 ih2 =>
        intro b ar p hp
        simp only [Forest.placed, List.mem_cons, List.mem_append] at hp
        rcases hp with rfl | hp | hp
        · exact List.suffix_refl _
        · exact (List.suffix_cons _ _).trans (ih1 _ _ p hp)
        · exact ih2 _ _ p hp
    -- nothing in a forest holds the address unless a top level function covers it
    have htop : ∀ (f : Forest) (base : Nat) (around : List (List (Nat × Nat))),
        (∀ p ∈ f.placed base [], p.around = [] → ¬ Covers addr p.code) →
        ∀ p ∈ f.placed base around, ¬ p.Holds addr := by
      intro f
      induction f with
      | nil => intro b ar _ p hp; simp [Forest.placed] at hp
      | cons i ch rest ih1 ih2 =>
        intro b ar h p hp hh
        simp only [Forest.placed, List.mem_cons, List.mem_append] at h hp
        have hi := h ⟨i, i.code b, []⟩ (Or.inl rfl) rfl
        rcases hp with rfl | hp | hp
        · exact hi hh.1
        · exact hi (hh.2 _ ((hsuf ch _ _ p hp).subset (by simp)))
        · exact ih2 b ar (fun p hp => h p (Or.inr (Or.inr hp))) p hp hh
    intro f
    induction f with
    | nil => intros; simp [Forest.placed]
    | cons i ch rest ih1 ih2 =>
      intro b ar hd
      obtain ⟨h1, h2, h3⟩ := hd
      simp only [Forest.placed, List.filter_cons, List.filter_append]
      by_cases hc : Covers addr (i.code b)
      · have hrest : (rest.placed b ar).filter (fun p => decide (p.Holds addr)) = [] :=
          List.filter_eq_nil_iff.mpr fun p hp => by
            simpa using htop rest b ar (h1 hc) p hp
        rw [hrest, List.append_nil]
        split_ifs
        · refine List.pairwise_cons.mpr ⟨fun y hy => ?_, ih1 _ _ h2⟩
          exact hsuf ch _ _ y (List.mem_of_mem_filter hy)
        · exact ih1 _ _ h2
      · have hch : (ch.placed (i.base b) (i.code b :: ar)).filter
            (fun p => decide (p.Holds addr)) = [] :=
          List.filter_eq_nil_iff.mpr fun p hp => by
            have := hsuf ch _ _ p hp
            simp only [decide_eq_true_eq]
            exact fun hh => hc (hh.2 _ (this.subset (by simp)))
        rw [if_neg (by simp only [decide_eq_true_eq]; exact fun h => hc h.1), hch, List.nil_append]
        exact ih2 _ _ h3
  exact key f base [] hd

/-- **C20**: whatever the bytes, parsing fails with invalid data only, and panics only if
there are ten continuation bytes of a number in a row. -/
theorem C20_no_panic (data : Cursor) (base addr : Nat) (stack : List InlineFrame) (e : Err)
    (h : parseInlineStack data base addr stack = .error e) :
    e = .invalidData ∨ (e = .panic ∧ ¬ NoRun data.data) := by
  have := (good_parse addr (budget data)).1 base stack data (by unfold budget; omega)
  unfold parseInlineStack at h
  match hx : parseNode addr (budget data) base stack data, this with
  | .error e', hg =>
    rw [hx] at h
    cases h
    exact hg
  | .ok (t, c'), _ =>
    rw [hx] at h
    cases h

/-- **C20**: inline information that is cut off anywhere is invalid data. -/
theorem C20_truncated (addr : Nat) (root : Inlined) (children : Forest)
    (hf : (Forest.cons root children .nil).InRange) (base a : Nat) (stack : List InlineFrame)
    (p q : Bytes) (hp : (Forest.cons root children .nil).bytes = p ++ q) (hq : q ≠ []) :
    parseInlineStack ⟨a, p⟩ base addr stack = .error .invalidData := by
  have hs := (sim_parse addr q (budget ⟨a, p⟩) (2 * (p ++ q).length + 2) base stack a p).1
    (by simp only [List.length_append]; omega) (by simp only [budget]; omega)
  have he := parseNode_eq addr root children hf (2 * (p ++ q).length + 2) base a [] stack
    (by rw [hp]; omega)
  rw [List.append_nil, hp] at he
  unfold parseInlineStack
  have hql : 0 < q.length := List.length_pos_of_ne_nil hq
  match hx : parseNode addr (budget ⟨a, p⟩) base stack ⟨a, p⟩, hs with
  | .ok (v, c), h =>
    exfalso
    rw [show parseNode addr (2 * (p ++ q).length + 2) base stack ⟨a, p ++ q⟩ = _ from h] at he
    by_cases hr : Readable addr base (.cons root children .nil)
    · have := he.1 hr
      simp only [Except.ok.injEq, Prod.mk.injEq, Cursor.mk.injEq] at this
      exact hq (List.append_eq_nil_iff.mp this.2.2).2
    · exact absurd (he.2 hr) (by simp)
  | .error e, h =>
    rcases h with rfl | h
    · rfl
    · rw [h] at he
      by_cases hr : Readable addr base (.cons root children .nil)
      · exact absurd (he.1 hr) (by simp)
      · have := he.2 hr
        rw [Except.error.injEq] at this
        rw [this]
        rfl

/-! ### Example -/

/-- `main` at 0x1000 with two functions inlined, the second with two ranges and a function
inlined into it. -/
def exTree : Forest :=
  .cons ⟨[(0, 0x100)], 1, 10, 0, 0⟩
    (.cons ⟨[(0x10, 8)], 1, 20, 1, 5⟩ (.cons ⟨[(0, 300000)], 0, 25, 1, 6⟩ .nil .nil)
      (.cons ⟨[(0x40, 16), (0x80, 16)], 1, 30, 2, 70⟩ (.cons ⟨[(4, 4)], 0, 40, 3, 2 ^ 40⟩ .nil .nil)
        .nil))
    .nil

theorem exTree_inRange : exTree.InRange := by
  simp [exTree, Forest.InRange, Inlined.InRange]

theorem exTree_at : parseInlineStack ⟨0, exTree.bytes ++ [7]⟩ 0x1000 0x1046 [] =
    .ok [⟨10, 0, 0⟩, ⟨30, 2, 70⟩, ⟨40, 3, 2 ^ 32 - 1⟩] := by
  have h := C20_inlined 0x1046 _ _ exTree_inRange 0x1000 0 [7] [] (by
    simp [Forest.placed, Inlined.code, Inlined.base, Placed.Valid]
    intros; omega)
  exact h.trans (by decide +kernel)

example : exTree.Disjoint 0x1046 0x1000 := by
  simp [exTree, Forest.Disjoint, Forest.placed, Inlined.code, Inlined.base, Covers]

/-- The truncated and the invalid case occur. -/
example : ∃ p q, exTree.bytes = p ++ q ∧ q ≠ [] ∧ p.length = 9 :=
  ⟨exTree.bytes.take 9, exTree.bytes.drop 9, by simp, by decide +kernel, by decide +kernel⟩

example : parseInlineStack
    ⟨0, (Forest.cons ⟨[(1, 2 ^ 64 - 1)], 0, 1, 0, 0⟩ .nil .nil).bytes ++ []⟩ 0x1000 0 [] =
      .error .invalidData :=
  C20_invalid 0 _ _ (by simp [Forest.InRange, Inlined.InRange]) 0x1000 0 [] []
    ⟨⟨[(1, 2 ^ 64 - 1)], 0, 1, 0, 0⟩, _, []⟩ List.mem_cons_self (by simp [Placed.Reached])
    (by simp [Placed.Valid, Inlined.code])

end Blazesym.Gsym
