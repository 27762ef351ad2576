import Verif.Gsym.InlineLemmas

/-! Behaviour of the parser of inline information on arbitrary bytes: it only ever looks at
what it consumes, and it terminates without a panic. -/

set_option autoImplicit false

namespace Blazesym.Gsym
open Blazesym.Util Blazesym.Spec Blazesym.Spec.Gsym

/-- No ten continuation bytes of a LEB128 number in a row. -/
def NoRun (data : Bytes) : Prop :=
  ∀ p bs s, data = p ++ bs ++ s → (∀ x ∈ bs, 128 ≤ x.toNat) → bs.length < 10

theorem NoRun.suffix {p s : Bytes} (h : NoRun (p ++ s)) : NoRun s :=
  fun p' bs s' e hx => h (p ++ p') bs s' (by rw [e]; simp) hx

/-- Split off the continuation bytes. -/
theorem split_cont (data : Bytes) :
    (∀ x ∈ data, 128 ≤ x.toNat) ∨
      ∃ bs b rest, data = bs ++ b :: rest ∧ (∀ x ∈ bs, 128 ≤ x.toNat) ∧ b.toNat < 128 := by
  induction data with
  | nil => simp
  | cons x t ih =>
    by_cases hx : 128 ≤ x.toNat
    · rcases ih with h | ⟨bs, b, rest, rfl, h1, h2⟩
      · exact Or.inl (by simpa [hx] using h)
      · exact Or.inr ⟨x :: bs, b, rest, by simp, by simpa [hx] using h1, h2⟩
    · exact Or.inr ⟨[], x, t, by simp, by simp, by omega⟩

/-- A parser consumes at least `k` bytes, fails with invalid data only, apart from a panic
on an overlong number. -/
def Good {α : Type} (k : Nat) (c : Cursor) (x : Except Err (α × Cursor)) : Prop :=
  match x with
  | .ok (_, c') => ∃ p, c.data = p ++ c'.data ∧ k ≤ p.length
  | .error e => e = .invalidData ∨ (e = .panic ∧ ¬ NoRun c.data)

theorem Good.bind {α β : Type} {k j : Nat} {c : Cursor} {x : Except Err (α × Cursor)}
    {f : α × Cursor → Except Err (β × Cursor)} (h : Good k c x)
    (hf : ∀ v c', c'.data.length + k ≤ c.data.length → Good j c' (f (v, c'))) :
    Good (k + j) c (x >>= f) := by
  match x, h with
  | .error e, h => exact h
  | .ok (v, c'), ⟨p, hp, hk⟩ =>
    rw [eok_bind]
    have := hf v c' (by rw [hp, List.length_append]; omega)
    match hfx : f (v, c'), this with
    | .error e, h =>
      exact h.imp_right fun ⟨h1, h2⟩ => ⟨h1, fun hn => h2 ((hp ▸ hn).suffix)⟩
    | .ok (w, c''), ⟨p', hp', hj⟩ =>
      exact ⟨p ++ p', by rw [hp, hp', List.append_assoc], by rw [List.length_append]; omega⟩

theorem Good.mono {α : Type} {k j : Nat} {c : Cursor} {x : Except Err (α × Cursor)} (h : Good k c x)
    (hj : j ≤ k) : Good j c x := by
  match x, h with
  | .error e, h => exact h
  | .ok (v, c'), ⟨p, hp, hk⟩ => exact ⟨p, hp, by omega⟩

theorem Good.pure {α : Type} (c : Cursor) (v : α) : Good 0 c (.ok (v, c)) := ⟨[], rfl, by simp⟩

theorem Good.bind0 {α β : Type} {j : Nat} {c : Cursor} {x : Except Err (α × Cursor)}
    {f : α × Cursor → Except Err (β × Cursor)} (h : Good 0 c x)
    (hf : ∀ v c', c'.data.length ≤ c.data.length → Good j c' (f (v, c'))) :
    Good j c (x >>= f) :=
  (h.bind hf).mono (by omega)

theorem good_uleb (c : Cursor) : Good 1 c (need readU64Leb128 c) := by
  obtain ⟨a, data⟩ := c
  unfold need
  rcases split_cont data with h | ⟨bs, b, rest, rfl, h1, h2⟩
  · by_cases hl : data.length ≤ 10
    · rw [C12_uleb_truncated data a h hl]; exact Or.inl rfl
    · have hne : data ≠ [] := by intro h; subst h; simp at hl
      have hd : data = data.dropLast ++ data.getLast hne :: [] :=
        (List.dropLast_append_getLast hne).symm
      have := C12_uleb_overlong_panics data.dropLast (data.getLast hne) [] a
        (fun x hx => h x (List.dropLast_subset _ hx)) (by rw [List.length_dropLast]; omega)
      rw [← hd] at this
      split <;> rename_i hx <;> rw [hx] at this <;> cases this
      exact Or.inr ⟨rfl, fun hn => by have := hn [] data [] (by simp) h; omega⟩
  · by_cases hl : bs.length < 10
    · rw [C12_uleb_value bs b rest a h1 h2 hl]
      exact ⟨bs ++ [b], by simp, by simp⟩
    · have := C12_uleb_overlong_panics bs b rest a h1 (by omega)
      split <;> rename_i hx <;> rw [hx] at this <;> cases this
      exact Or.inr ⟨rfl, fun hn => by have := hn [] bs (b :: rest) (by simp) h1; omega⟩

theorem good_uint (n : Nat) (c : Cursor) : Good 0 c (need (readUint n) c) := by
  unfold need
  by_cases h : n ≤ c.data.length
  · rw [readUint_ok h]
    exact ⟨c.data.take n, by simp, by omega⟩
  · rw [readUint_none (by omega)]; exact Or.inl rfl

theorem good_skipRanges (n : Nat) (c : Cursor) : Good 0 c (skipRanges n c) := by
  induction n generalizing c with
  | zero => exact Good.pure c _
  | succ n ih =>
    rw [skipRanges]
    exact ((good_uleb c).mono (by omega)).bind0 fun _ c1 _ =>
      ((good_uleb c1).mono (by omega)).bind0 fun _ c2 _ => ih c2

theorem good_readTail (c : Cursor) : Good 0 c (readTail c) := by
  unfold readTail
  exact (good_uint 1 c).bind0 fun _ c1 _ => (good_uint 4 c1).bind0 fun _ c2 _ =>
    ((good_uleb c2).mono (by omega)).bind0 fun _ c3 _ =>
      ((good_uleb c3).mono (by omega)).bind0 fun _ c4 _ => Good.pure c4 _

theorem good_readRanges (base addr n : Nat) (found : Bool) (first : Option Nat) (c : Cursor) :
    Good 0 c (readRanges base addr n found first c) := by
  induction n generalizing c found first with
  | zero => exact Good.pure c _
  | succ n ih =>
    rw [readRanges]
    refine ((good_uleb c).mono (by omega)).bind0 fun o c1 _ =>
      ((good_uleb c1).mono (by omega)).bind0 fun s c2 _ => ?_
    simp only []
    cases checkedAdd base o with
    | none => exact Or.inl rfl
    | some start =>
      simp only []
      cases checkedAdd start s with
      | none => exact Or.inl rfl
      | some stop => exact ih _ _ c2

theorem good_skip (fuel : Nat) :
    (∀ c : Cursor, 2 * c.data.length + 1 ≤ fuel → Good 1 c (skipNode fuel c)) ∧
    (∀ c : Cursor, 2 * c.data.length + 2 ≤ fuel → Good 0 c (skipNodes fuel c)) := by
  induction fuel with
  | zero => exact ⟨fun c h => absurd h (by omega), fun c h => absurd h (by omega)⟩
  | succ fuel ih =>
    constructor
    · intro c h
      rw [skipNode]
      refine (good_uleb c).bind (j := 0) fun n c1 hl => ?_
      simp only []
      by_cases h0 : n = 0
      · rw [if_pos h0]; exact Good.pure c1 _
      rw [if_neg h0]
      refine (good_skipRanges n c1).bind0 fun _ c2 hl2 => (good_readTail c2).bind0 fun t c3 hl3 => ?_
      obtain ⟨ch, nm, cf, cl⟩ := t
      simp only []
      by_cases hc : ch = true
      · rw [if_pos hc]
        exact (ih.2 c3 (by omega)).bind0 fun _ c4 _ => Good.pure c4 _
      · rw [if_neg hc]; exact Good.pure c3 _
    · intro c h
      rw [skipNodes]
      refine ((ih.1 c (by omega)).bind (j := 0) fun more c1 hl => ?_).mono (by omega)
      simp only []
      by_cases hm : more = true
      · rw [if_pos hm]; exact ih.2 c1 (by omega)
      · rw [if_neg hm]; exact Good.pure c1 _

theorem good_parse (addr : Nat) (fuel : Nat) :
    (∀ (base : Nat) (stack : List InlineFrame) (c : Cursor), 2 * c.data.length + 1 ≤ fuel →
      Good 1 c (parseNode addr fuel base stack c)) ∧
    (∀ (base : Nat) (stack : List InlineFrame) (c : Cursor), 2 * c.data.length + 2 ≤ fuel →
      Good 0 c (parseNodes addr fuel base stack c)) := by
  induction fuel with
  | zero => exact ⟨fun _ _ c h => absurd h (by omega), fun _ _ c h => absurd h (by omega)⟩
  | succ fuel ih =>
    constructor
    · intro base stack c h
      rw [parseNode]
      refine (good_uleb c).bind (j := 0) fun n c1 hl => ?_
      simp only []
      by_cases h0 : n = 0
      · rw [if_pos h0]; exact Good.pure c1 _
      rw [if_neg h0]
      refine (good_readRanges base addr n false none c1).bind0 fun t0 c2 hl2 =>
        (good_readTail c2).bind0 fun t c3 hl3 => ?_
      obtain ⟨found, first⟩ := t0
      obtain ⟨ch, nm, cf, cl⟩ := t
      simp only []
      by_cases hcf : cf ≥ u32Size
      · rw [if_pos hcf]; exact Or.inl rfl
      rw [if_neg hcf]
      by_cases hf : found = true
      · rw [if_pos hf]
        by_cases hc : ch = true
        · rw [if_pos hc]
          exact (ih.2 _ _ c3 (by omega)).bind0 fun _ c4 _ => Good.pure c4 _
        · rw [if_neg hc]; exact Good.pure c3 _
      · rw [if_neg hf]
        by_cases hc : ch = true
        · rw [if_pos hc]
          exact ((good_skip fuel).2 c3 (by omega)).bind0 fun _ c4 _ => Good.pure c4 _
        · rw [if_neg hc]; exact Good.pure c3 _
    · intro base stack c h
      rw [parseNodes]
      refine ((ih.1 base stack c (by omega)).bind (j := 0) fun t c1 hl => ?_).mono (by omega)
      obtain ⟨more, st⟩ := t
      simp only []
      by_cases hm : more = true
      · rw [if_pos hm]; exact ih.2 _ _ c1 (by omega)
      · rw [if_neg hm]; exact Good.pure c1 _

/-! ### Truncation -/

/-- The outcome `x` on some data against the outcome `y` if `q` follows the data: the same,
unless `x` ran out of data. -/
def Sim {α : Type} (q : Bytes) (x y : Except Err (α × Cursor)) : Prop :=
  match x with
  | .ok (v, c) => y = .ok (v, ⟨c.addr, c.data ++ q⟩)
  | .error e => e = .invalidData ∨ y = .error e

theorem Sim.bind {α β : Type} {q : Bytes} {x y : Except Err (α × Cursor)}
    {f g : α × Cursor → Except Err (β × Cursor)} (h : Sim q x y)
    (hf : ∀ v c, x = .ok (v, c) → Sim q (f (v, c)) (g (v, ⟨c.addr, c.data ++ q⟩))) :
    Sim q (x >>= f) (y >>= g) := by
  match x, h with
  | .error e, h =>
    rcases h with h | h
    · exact Or.inl h
    · rw [h]; exact Or.inr rfl
  | .ok (v, c), h =>
    rw [show y = _ from h, eok_bind, eok_bind]
    exact hf v c rfl

theorem Sim.pure {α : Type} (q : Bytes) (v : α) (c : Cursor) :
    Sim q (.ok (v, c)) (.ok (v, ⟨c.addr, c.data ++ q⟩)) := rfl

theorem sim_uleb (q : Bytes) (a : Nat) (data : Bytes) :
    Sim q (need readU64Leb128 ⟨a, data⟩) (need readU64Leb128 ⟨a, data ++ q⟩) := by
  unfold need
  rcases split_cont data with h | ⟨bs, b, rest, rfl, h1, h2⟩
  · by_cases hl : data.length ≤ 10
    · rw [C12_uleb_truncated data a h hl]; exact Or.inl rfl
    · have hne : data ≠ [] := by intro h; subst h; simp at hl
      have hd : ∀ s, data ++ s = data.dropLast ++ data.getLast hne :: s := by
        intro s
        conv_lhs => rw [← List.dropLast_append_getLast hne]
        simp
      have hp := fun s => C12_uleb_overlong_panics data.dropLast (data.getLast hne) s a
        (fun x hx => h x (List.dropLast_subset _ hx)) (by rw [List.length_dropLast]; omega)
      simp only [← hd] at hp
      have e1 := hp []
      rw [List.append_nil] at e1
      have e2 := hp q
      split <;> rename_i hx <;> rw [hx] at e1 <;> cases e1
      split <;> rename_i hy <;> rw [hy] at e2 <;> cases e2
      exact Or.inr rfl
  · by_cases hl : bs.length < 10
    · rw [C12_uleb_value bs b rest a h1 h2 hl, List.append_assoc, List.cons_append,
        C12_uleb_value bs b (rest ++ q) a h1 h2 hl]
      exact rfl
    · have e1 := C12_uleb_overlong_panics bs b rest a h1 (by omega)
      have e2 := C12_uleb_overlong_panics bs b (rest ++ q) a h1 (by omega)
      rw [List.append_assoc, List.cons_append]
      split <;> rename_i hx <;> rw [hx] at e1 <;> cases e1
      split <;> rename_i hy <;> rw [hy] at e2 <;> cases e2
      exact Or.inr rfl

theorem sim_uint (q : Bytes) (n a : Nat) (data : Bytes) :
    Sim q (need (readUint n) ⟨a, data⟩) (need (readUint n) ⟨a, data ++ q⟩) := by
  unfold need
  by_cases h : n ≤ data.length
  · rw [readUint_ok (show n ≤ (⟨a, data⟩ : Cursor).data.length from h),
      readUint_ok (by simp only [List.length_append]; omega)]
    show _ = _
    rw [List.take_append_of_le_length h, List.drop_append_of_le_length h]
  · rw [readUint_none (by simp only; omega)]; exact Or.inl rfl

theorem sim_skipRanges (q : Bytes) (n a : Nat) (data : Bytes) :
    Sim q (skipRanges n ⟨a, data⟩) (skipRanges n ⟨a, data ++ q⟩) := by
  induction n generalizing a data with
  | zero => exact rfl
  | succ n ih =>
    rw [skipRanges, skipRanges]
    exact (sim_uleb q a data).bind fun _ c1 _ => (sim_uleb q c1.addr c1.data).bind fun _ c2 _ =>
      ih c2.addr c2.data

theorem sim_readTail (q : Bytes) (a : Nat) (data : Bytes) :
    Sim q (readTail ⟨a, data⟩) (readTail ⟨a, data ++ q⟩) := by
  unfold readTail
  exact (sim_uint q 1 a data).bind fun _ c1 _ => (sim_uint q 4 c1.addr c1.data).bind fun _ c2 _ =>
    (sim_uleb q c2.addr c2.data).bind fun _ c3 _ =>
      (sim_uleb q c3.addr c3.data).bind fun _ c4 _ => Sim.pure q _ c4

theorem sim_readRanges (q : Bytes) (base addr n a : Nat) (data : Bytes) (found : Bool)
    (first : Option Nat) :
    Sim q (readRanges base addr n found first ⟨a, data⟩)
      (readRanges base addr n found first ⟨a, data ++ q⟩) := by
  induction n generalizing a data found first with
  | zero => exact rfl
  | succ n ih =>
    rw [readRanges, readRanges]
    refine (sim_uleb q a data).bind fun o c1 _ => (sim_uleb q c1.addr c1.data).bind fun s c2 _ => ?_
    simp only []
    cases checkedAdd base o with
    | none => exact Or.inl rfl
    | some start =>
      simp only []
      cases checkedAdd start s with
      | none => exact Or.inl rfl
      | some stop => exact ih c2.addr c2.data _ _

theorem Good.len {α : Type} {k : Nat} {c c' : Cursor} {v : α} {x : Except Err (α × Cursor)}
    (h : Good k c x) (hx : x = .ok (v, c')) : c'.data.length + k ≤ c.data.length := by
  subst hx
  obtain ⟨p, hp, hk⟩ := h
  rw [hp, List.length_append]; omega

theorem sim_skip (q : Bytes) (f1 : Nat) : ∀ f2 a data,
    (2 * (data.length + q.length) + 1 ≤ f2 → 2 * data.length + 1 ≤ f1 →
      Sim q (skipNode f1 ⟨a, data⟩) (skipNode f2 ⟨a, data ++ q⟩)) ∧
    (2 * (data.length + q.length) + 2 ≤ f2 → 2 * data.length + 2 ≤ f1 →
      Sim q (skipNodes f1 ⟨a, data⟩) (skipNodes f2 ⟨a, data ++ q⟩)) := by
  induction f1 with
  | zero =>
    intro f2 a data
    exact ⟨fun _ h => absurd h (by omega), fun _ h => absurd h (by omega)⟩
  | succ f1 ih =>
    intro f2 a data
    constructor
    · intro h2 h1
      obtain ⟨f2, rfl⟩ : ∃ k, f2 = k + 1 := ⟨f2 - 1, by omega⟩
      rw [skipNode, skipNode]
      refine (sim_uleb q a data).bind fun n c1 e1 => ?_
      have l1 := (good_uleb ⟨a, data⟩).len e1
      simp only [] at l1 ⊢
      by_cases h0 : n = 0
      · rw [if_pos h0, if_pos h0]; exact Sim.pure q _ c1
      rw [if_neg h0, if_neg h0]
      refine (sim_skipRanges q n c1.addr c1.data).bind fun _ c2 e2 =>
        (sim_readTail q c2.addr c2.data).bind fun t c3 e3 => ?_
      have l2 := (good_skipRanges n c1).len e2
      have l3 := (good_readTail c2).len e3
      obtain ⟨ch, nm, cf, cl⟩ := t
      simp only []
      by_cases hc : ch = true
      · rw [if_pos hc, if_pos hc]
        exact ((ih f2 c3.addr c3.data).2 (by omega) (by omega)).bind fun _ c4 _ => Sim.pure q _ c4
      · rw [if_neg hc, if_neg hc]; exact Sim.pure q _ c3
    · intro h2 h1
      obtain ⟨f2, rfl⟩ : ∃ k, f2 = k + 1 := ⟨f2 - 1, by omega⟩
      rw [skipNodes, skipNodes]
      refine ((ih f2 a data).1 (by omega) (by omega)).bind fun more c1 e1 => ?_
      have l1 := ((good_skip f1).1 ⟨a, data⟩ (by simp only; omega)).len e1
      simp only [] at l1 ⊢
      by_cases hm : more = true
      · rw [if_pos hm, if_pos hm]; exact (ih f2 c1.addr c1.data).2 (by omega) (by omega)
      · rw [if_neg hm, if_neg hm]; exact Sim.pure q _ c1

theorem sim_parse (addr : Nat) (q : Bytes) (f1 : Nat) : ∀ f2 base stack a data,
    (2 * (data.length + q.length) + 1 ≤ f2 → 2 * data.length + 1 ≤ f1 →
      Sim q (parseNode addr f1 base stack ⟨a, data⟩) (parseNode addr f2 base stack ⟨a, data ++ q⟩)) ∧
    (2 * (data.length + q.length) + 2 ≤ f2 → 2 * data.length + 2 ≤ f1 →
      Sim q (parseNodes addr f1 base stack ⟨a, data⟩)
        (parseNodes addr f2 base stack ⟨a, data ++ q⟩)) := by
  induction f1 with
  | zero =>
    intro f2 base stack a data
    exact ⟨fun _ h => absurd h (by omega), fun _ h => absurd h (by omega)⟩
  | succ f1 ih =>
    intro f2 base stack a data
    constructor
    · intro h2 h1
      obtain ⟨f2, rfl⟩ : ∃ k, f2 = k + 1 := ⟨f2 - 1, by omega⟩
      rw [parseNode, parseNode]
      refine (sim_uleb q a data).bind fun n c1 e1 => ?_
      have l1 := (good_uleb ⟨a, data⟩).len e1
      simp only [] at l1 ⊢
      by_cases h0 : n = 0
      · rw [if_pos h0, if_pos h0]; exact Sim.pure q _ c1
      rw [if_neg h0, if_neg h0]
      refine (sim_readRanges q base addr n c1.addr c1.data false none).bind fun t0 c2 e2 =>
        (sim_readTail q c2.addr c2.data).bind fun t c3 e3 => ?_
      have l2 := (good_readRanges base addr n false none c1).len e2
      have l3 := (good_readTail c2).len e3
      obtain ⟨found, first⟩ := t0
      obtain ⟨ch, nm, cf, cl⟩ := t
      simp only []
      by_cases hcf : cf ≥ u32Size
      · rw [if_pos hcf]; exact Or.inl rfl
      rw [if_neg hcf, if_neg hcf]
      by_cases hf : found = true
      · rw [if_pos hf, if_pos hf]
        by_cases hc : ch = true
        · rw [if_pos hc, if_pos hc]
          exact ((ih f2 _ _ c3.addr c3.data).2 (by omega) (by omega)).bind
            fun _ c4 _ => Sim.pure q _ c4
        · rw [if_neg hc, if_neg hc]; exact Sim.pure q _ c3
      · rw [if_neg hf, if_neg hf]
        by_cases hc : ch = true
        · rw [if_pos hc, if_pos hc]
          exact ((sim_skip q f1 f2 c3.addr c3.data).2 (by omega) (by omega)).bind
            fun _ c4 _ => Sim.pure q _ c4
        · rw [if_neg hc, if_neg hc]; exact Sim.pure q _ c3
    · intro h2 h1
      obtain ⟨f2, rfl⟩ : ∃ k, f2 = k + 1 := ⟨f2 - 1, by omega⟩
      rw [parseNodes, parseNodes]
      refine ((ih f2 base stack a data).1 (by omega) (by omega)).bind fun t c1 e1 => ?_
      have l1 := ((good_parse addr f1).1 base stack ⟨a, data⟩ (by simp only; omega)).len e1
      obtain ⟨more, st⟩ := t
      simp only [] at l1 ⊢
      by_cases hm : more = true
      · rw [if_pos hm, if_pos hm]; exact (ih f2 _ _ c1.addr c1.data).2 (by omega) (by omega)
      · rw [if_neg hm, if_neg hm]; exact Sim.pure q _ c1

end Blazesym.Gsym
