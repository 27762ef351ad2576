import Verif.Gsym.Inline
import Verif.Gsym.InlineSpec
import Verif.Gsym.LineLemmas

set_option autoImplicit false

namespace Blazesym.Gsym
open Blazesym.Util Blazesym.Spec Blazesym.Spec.Gsym

theorem eok_bind {α β : Type} (a : α) (f : α → Except Err β) : (Except.ok a >>= f) = f a := rfl
theorem eerr_bind {α β : Type} (e : Err) (f : α → Except Err β) :
    ((Except.error e : Except Err α) >>= f) = .error e := rfl

theorem need_uleb {n : Nat} (hn : n < 2 ^ 64) (rest : Bytes) (addr : Nat) :
    need readU64Leb128 ⟨addr, uleb n ++ rest⟩ = .ok (n, ⟨addr + (uleb n).length, rest⟩) := by
  unfold need; rw [C12_uleb_roundtrip n hn]

theorem need_u8 (b : UInt8) (t : Bytes) (addr : Nat) :
    need readU8 ⟨addr, b :: t⟩ = .ok (b.toNat, ⟨addr + 1, t⟩) := by
  unfold need readU8
  rw [readUint_ok (by simp)]
  simp [leValue]

theorem le4_length (n : Nat) : (le4 n).length = 4 := rfl

theorem ofNat_mod (n : Nat) : (UInt8.ofNat (n % 256)).toNat = n % 256 := by
  rw [UInt8.toNat_ofNat']; omega

theorem need_u32 {n : Nat} (hn : n < 2 ^ 32) (rest : Bytes) (addr : Nat) :
    need readU32 ⟨addr, le4 n ++ rest⟩ = .ok (n, ⟨addr + 4, rest⟩) := by
  unfold need readU32
  rw [readUint_ok (by simp [le4_length])]
  have : leValue (le4 n) = n := by
    simp only [le4, leValue, ofNat_mod]
    omega
  simp only [show 4 = (le4 n).length from rfl, List.take_left, List.drop_left, this]

theorem skipRanges_eq (rs : List (Nat × Nat)) (h : ∀ r ∈ rs, r.1 < 2 ^ 64 ∧ r.2 < 2 ^ 64)
    (a : Nat) (tail : Bytes) :
    skipRanges rs.length ⟨a, rs.flatMap (fun r => uleb r.1 ++ uleb r.2) ++ tail⟩ =
      .ok ((), ⟨a + (rs.flatMap (fun r => uleb r.1 ++ uleb r.2)).length, tail⟩) := by
  induction rs generalizing a with
  | nil => rfl
  | cons r t ih =>
    rw [List.length_cons, skipRanges, List.flatMap_cons, List.append_assoc, List.append_assoc,
      need_uleb (h r (by simp)).1, eok_bind]
    simp only []
    rw [need_uleb (h r (by simp)).2, eok_bind]
    simp only []
    rw [ih (fun x hx => h x (by simp [hx]))]
    simp only [List.length_append, Nat.add_assoc]

theorem readTail_eq {i : Inlined} (hi : i.InRange) (a : Nat) (tail : Bytes) :
    readTail ⟨a, [i.flag] ++ le4 i.name ++ uleb i.callFile ++ uleb i.callLine ++ tail⟩ =
      .ok ((i.flag.toNat != 0, i.name, i.callFile, i.callLine),
        ⟨a + ([i.flag] ++ le4 i.name ++ uleb i.callFile ++ uleb i.callLine).length, tail⟩) := by
  obtain ⟨_, _, _, h1, h2, h3⟩ := hi
  unfold readTail
  simp only [List.append_assoc, List.cons_append, List.nil_append]
  rw [need_u8, eok_bind]; simp only []
  rw [need_u32 h1, eok_bind]; simp only []
  rw [need_uleb h2, eok_bind]; simp only []
  rw [need_uleb h3, eok_bind]
  simp only [pure, Except.pure, List.length_append, List.length_cons, le4_length, Nat.add_assoc]
  congr 4
  omega

theorem flag_ne (b : UInt8) : (b.toNat != 0) = decide (b ≠ 0) := by
  by_cases h : b = 0
  · subst h; rfl
  · have : b.toNat ≠ 0 := fun hb => h (by
      have := UInt8.toNat_inj.mp (show b.toNat = (0 : UInt8).toNat from hb); exact this)
    simp [h, this]

theorem uleb_pos (n : Nat) : 0 < (uleb n).length := by
  obtain ⟨bs, b, h1, _⟩ := uleb_shape n
  rw [h1]; simp

theorem bytes_pos (i : Inlined) : 0 < i.bytes.length := by
  unfold Inlined.bytes
  have := uleb_pos i.ranges.length
  simp only [List.length_append]; omega

/-- What `skipNode` reads before the children. -/
theorem skip_head {i : Inlined} (hi : i.InRange) (fuel a : Nat) (tail : Bytes) :
    skipNode (fuel + 1) ⟨a, i.bytes ++ tail⟩ =
      (if i.flag ≠ 0 then do
          let (_, c) ← skipNodes fuel ⟨a + i.bytes.length, tail⟩
          return (true, c)
        else .ok (true, ⟨a + i.bytes.length, tail⟩)) := by
  have hi' := hi
  obtain ⟨h0, h1, h2, _⟩ := hi
  rw [skipNode]
  unfold Inlined.bytes
  simp only [List.append_assoc]
  rw [need_uleb h1, eok_bind]
  simp only []
  rw [if_neg (by simpa using h0), skipRanges_eq _ h2, eok_bind]
  simp only []
  have ht := readTail_eq hi' (a + (uleb i.ranges.length).length +
    (i.ranges.flatMap (fun r => uleb r.1 ++ uleb r.2)).length) tail
  simp only [List.append_assoc] at ht
  rw [ht, eok_bind]
  simp only [flag_ne, decide_eq_true_eq]
  have hl : a + (uleb i.ranges.length).length +
      (i.ranges.flatMap (fun r => uleb r.1 ++ uleb r.2)).length +
      ([i.flag] ++ (le4 i.name ++ (uleb i.callFile ++ uleb i.callLine))).length =
      a + (uleb i.ranges.length ++ (i.ranges.flatMap (fun r => uleb r.1 ++ uleb r.2) ++
        ([i.flag] ++ (le4 i.name ++ (uleb i.callFile ++ uleb i.callLine))))).length := by
    simp only [List.length_append]; omega
  rw [hl]
  rfl

theorem uleb_zero : uleb 0 = [0] := by rw [uleb]; rfl

theorem skip_stop (fuel a : Nat) (tail : Bytes) :
    skipNode (fuel + 1) ⟨a, 0 :: tail⟩ = .ok (false, ⟨a + 1, tail⟩) := by
  rw [skipNode]
  have := need_uleb (n := 0) (by norm_num) tail a
  rw [uleb_zero] at this
  simp only [List.cons_append, List.nil_append] at this
  rw [this, eok_bind]
  rfl

/-- Skipping the functions inlined into a function ends right after their end marker. -/
theorem skipNodes_eq (f : Forest) (hf : f.InRange) (fuel a : Nat) (tail : Bytes)
    (hfuel : 2 * f.bytes.length + 2 ≤ fuel) :
    skipNodes fuel ⟨a, f.bytes ++ 0 :: tail⟩ = .ok ((), ⟨a + f.bytes.length + 1, tail⟩) := by
  induction f generalizing fuel a tail with
  | nil =>
    obtain ⟨k, rfl⟩ : ∃ k, fuel = k + 2 := ⟨fuel - 2, by omega⟩
    rw [skipNodes]
    simp only [Forest.bytes, List.nil_append]
    rw [skip_stop, eok_bind]; rfl
  | cons i ch rest ih1 ih2 =>
    obtain ⟨h1, h2, h3, h4⟩ := hf
    have hb := bytes_pos i
    simp only [Forest.bytes, List.length_append] at hfuel
    obtain ⟨k, rfl⟩ : ∃ k, fuel = k + 2 := ⟨fuel - 2, by omega⟩
    rw [skipNodes]
    simp only [Forest.bytes, List.append_assoc]
    rw [skip_head h1]
    by_cases hfl : i.flag ≠ 0
    · rw [if_pos hfl] at hfuel
      simp only [List.length_append, List.length_cons, List.length_nil] at hfuel
      simp only [if_pos hfl, List.append_assoc, List.cons_append, List.nil_append]
      rw [ih1 h3 k _ _ (by omega), eok_bind]
      simp only [pure, Except.pure]
      rw [eok_bind]
      simp only [if_true]
      rw [ih2 h4 _ _ _ (by omega)]
      simp only [List.length_append, List.length_cons, List.length_nil]
      congr 3
      omega
    · rw [if_neg hfl] at hfuel
      simp only [if_neg hfl, List.nil_append]
      rw [eok_bind]
      simp only [if_true]
      rw [ih2 h4 _ _ _ (by simp only [List.length_nil] at hfuel; omega)]
      simp only [List.length_append]
      congr 3
      omega

/-! ### Parsing -/

/-- Frame for an inlined function. -/
def frameOf (i : Inlined) : InlineFrame :=
  ⟨i.name, i.callFile, if i.callLine < u32Size then i.callLine else u32Size - 1⟩

def ownFrame (i : Inlined) : List InlineFrame := if i.name > 0 then [frameOf i] else []

/-- The frames at an address. -/
def frames (addr base : Nat) : Forest → List InlineFrame
  | .nil => []
  | .cons i ch rest =>
    (if Covers addr (i.code base) then ownFrame i ++ frames addr (i.base base) ch else []) ++
      frames addr base rest

def fits (i : Inlined) (base : Nat) : Prop := ∀ r ∈ i.code base, r.2 < 2 ^ 64

/-- Everything that is looked at is valid. -/
def Readable (addr base : Nat) : Forest → Prop
  | .nil => True
  | .cons i ch rest =>
    (fits i base ∧ i.callFile < 2 ^ 32) ∧
      (Covers addr (i.code base) → Readable addr (i.base base) ch) ∧ Readable addr base rest

theorem checkedAdd_some {a b : Nat} (h : a + b < 2 ^ 64) : checkedAdd a b = some (a + b) := if_pos h
theorem checkedAdd_none {a b : Nat} (h : ¬ a + b < 2 ^ 64) : checkedAdd a b = none := if_neg h

theorem covers_cons (addr : Nat) (x : Nat × Nat) (t : List (Nat × Nat)) :
    Covers addr (x :: t) ↔ (x.1 ≤ addr ∧ addr < x.2) ∨ Covers addr t := by
  simp [Covers]

theorem readRanges_eq (base addr : Nat) (rs : List (Nat × Nat))
    (h : ∀ r ∈ rs, r.1 < 2 ^ 64 ∧ r.2 < 2 ^ 64) (a : Nat) (tail : Bytes) (found : Bool)
    (first : Option Nat) :
    ((∀ r ∈ rs, base + r.1 + r.2 < 2 ^ 64) →
      readRanges base addr rs.length found first
        ⟨a, rs.flatMap (fun r => uleb r.1 ++ uleb r.2) ++ tail⟩ =
      .ok ((found || decide (Covers addr (rs.map fun r => (base + r.1, base + r.1 + r.2))),
          first.or (rs.head?.map fun r => base + r.1)),
        ⟨a + (rs.flatMap (fun r => uleb r.1 ++ uleb r.2)).length, tail⟩)) ∧
    (¬ (∀ r ∈ rs, base + r.1 + r.2 < 2 ^ 64) →
      readRanges base addr rs.length found first
        ⟨a, rs.flatMap (fun r => uleb r.1 ++ uleb r.2) ++ tail⟩ = .error .invalidData) := by
  induction rs generalizing a found first with
  | nil =>
    refine ⟨fun _ => ?_, fun hn => absurd (by simp) hn⟩
    simp [readRanges, Covers]
  | cons r t ih =>
    have h' := fun x hx => h x (List.mem_cons_of_mem _ hx)
    have hs : ∀ (found : Bool) (first : Option Nat),
        readRanges base addr (r :: t).length found first
          ⟨a, (r :: t).flatMap (fun r => uleb r.1 ++ uleb r.2) ++ tail⟩ =
        if base + r.1 + r.2 < 2 ^ 64 then
          readRanges base addr t.length
            (found || (decide (base + r.1 ≤ addr) && decide (addr < base + r.1 + r.2)))
            (first.or (some (base + r.1)))
            ⟨a + (uleb r.1).length + (uleb r.2).length,
              t.flatMap (fun r => uleb r.1 ++ uleb r.2) ++ tail⟩
        else .error .invalidData := by
      intro found first
      rw [List.length_cons, readRanges, List.flatMap_cons, List.append_assoc, List.append_assoc,
        need_uleb (h r (by simp)).1, eok_bind]
      simp only []
      rw [need_uleb (h r (by simp)).2, eok_bind]
      simp only []
      by_cases h1 : base + r.1 < 2 ^ 64
      · rw [checkedAdd_some h1]
        simp only []
        by_cases h2 : base + r.1 + r.2 < 2 ^ 64
        · rw [checkedAdd_some h2, if_pos h2]
        · rw [checkedAdd_none h2, if_neg h2]
      · rw [checkedAdd_none h1, if_neg (by omega)]
    constructor
    · intro hall
      rw [hs, if_pos (hall r (by simp)), (ih h' _ _ _).1 (fun x hx => hall x (by simp [hx]))]
      simp only [List.map_cons, List.head?_cons, Option.map_some, List.flatMap_cons,
        List.length_append]
      have e1 : (found || (decide (base + r.1 ≤ addr) && decide (addr < base + r.1 + r.2)) ||
          decide (Covers addr (t.map fun r => (base + r.1, base + r.1 + r.2)))) =
          (found || decide (Covers addr
            ((base + r.1, base + r.1 + r.2) :: t.map fun r => (base + r.1, base + r.1 + r.2)))) := by
        rw [Bool.or_assoc]
        congr 1
        rw [Bool.eq_iff_iff]
        simp only [Bool.or_eq_true, Bool.and_eq_true, decide_eq_true_eq, covers_cons]
      have e2 : (first.or (some (base + r.1))).or (t.head?.map fun r => base + r.1) =
          first.or (some (base + r.1)) := by
        cases first <;> cases t.head? <;> rfl
      rw [e1, e2]
      simp only [Nat.add_assoc]
    · intro hn
      rw [hs]
      by_cases h1 : base + r.1 + r.2 < 2 ^ 64
      · rw [if_pos h1]
        refine (ih h' _ _ _).2 fun hall => hn ?_
        intro x hx
        rcases List.mem_cons.mp hx with rfl | hx
        · exact h1
        · exact hall x hx
      · rw [if_neg h1]

theorem fits_iff (i : Inlined) (base : Nat) :
    fits i base ↔ ∀ r ∈ i.ranges, base + r.1 + r.2 < 2 ^ 64 := by
  unfold fits Inlined.code
  simp only [List.forall_mem_map]

instance (i : Inlined) (base : Nat) : Decidable (fits i base) := by unfold fits; infer_instance

/-- What `parseNode` does before the children. -/
theorem parse_head {i : Inlined} (hi : i.InRange) (addr fuel base a : Nat) (tail : Bytes)
    (stack : List InlineFrame) :
    parseNode addr (fuel + 1) base stack ⟨a, i.bytes ++ tail⟩ =
      (if ¬ (fits i base ∧ i.callFile < 2 ^ 32) then .error .invalidData
      else if Covers addr (i.code base) then
        (if i.flag ≠ 0 then do
          let (stack, c) ← parseNodes addr fuel (i.base base) (stack ++ ownFrame i)
            ⟨a + i.bytes.length, tail⟩
          return ((true, stack), c)
        else .ok ((true, stack ++ ownFrame i), ⟨a + i.bytes.length, tail⟩))
      else
        (if i.flag ≠ 0 then do
          let (_, c) ← skipNodes fuel ⟨a + i.bytes.length, tail⟩
          return ((true, stack), c)
        else .ok ((true, stack), ⟨a + i.bytes.length, tail⟩))) := by
  have hi' := hi
  obtain ⟨h0, h1, h2, _⟩ := hi
  rw [parseNode]
  unfold Inlined.bytes
  simp only [List.append_assoc]
  rw [need_uleb h1, eok_bind]
  simp only []
  rw [if_neg (by simpa using h0)]
  by_cases hfit : fits i base
  · rw [(readRanges_eq base addr i.ranges h2 _ _ _ _).1 ((fits_iff i base).mp hfit), eok_bind]
    simp only []
    have ht := readTail_eq hi' (a + (uleb i.ranges.length).length +
      (i.ranges.flatMap (fun r => uleb r.1 ++ uleb r.2)).length) tail
    simp only [List.append_assoc] at ht
    rw [ht, eok_bind]
    have hl : a + (uleb i.ranges.length).length +
        (i.ranges.flatMap (fun r => uleb r.1 ++ uleb r.2)).length +
        ([i.flag] ++ (le4 i.name ++ (uleb i.callFile ++ uleb i.callLine))).length =
        a + (uleb i.ranges.length ++ (i.ranges.flatMap (fun r => uleb r.1 ++ uleb r.2) ++
          ([i.flag] ++ (le4 i.name ++ (uleb i.callFile ++ uleb i.callLine))))).length := by
      simp only [List.length_append]; omega
    rw [hl]
    simp only [flag_ne, decide_eq_true_eq, Bool.false_or]
    by_cases hcf : i.callFile < 2 ^ 32
    · rw [if_neg (show ¬ i.callFile ≥ u32Size by unfold u32Size; omega),
        if_neg (show ¬ ¬ (fits i base ∧ i.callFile < 2 ^ 32) from not_not.mpr ⟨hfit, hcf⟩)]
      have hcov : Covers addr (i.ranges.map fun r => (base + r.1, base + r.1 + r.2)) ↔
          Covers addr (i.code base) := Iff.rfl
      have hstk : (if i.name > 0 then stack ++ [⟨i.name, i.callFile,
            if i.callLine < u32Size then i.callLine else u32Size - 1⟩] else stack) =
          stack ++ ownFrame i := by
        unfold ownFrame frameOf
        split_ifs <;> simp
      have hb : (Option.or none (i.ranges.head?.map fun r => base + r.1)).getD 0 = i.base base := by
        unfold Inlined.base
        cases hr : i.ranges with
        | nil => exact absurd hr h0
        | cons r t => rfl
      by_cases hc : Covers addr (i.code base)
      · rw [if_pos hc, if_pos (hcov.mpr hc), hstk, hb]
        rfl
      · rw [if_neg hc, if_neg (fun h => hc (hcov.mp h))]
        rfl
    · rw [if_pos (show i.callFile ≥ u32Size by unfold u32Size; omega), if_pos (fun h => hcf h.2)]
  · rw [(readRanges_eq base addr i.ranges h2 _ _ _ _).2 (fun h => hfit ((fits_iff i base).mpr h)),
      eerr_bind, if_pos (fun h => hfit h.1)]

theorem parse_stop (addr fuel base a : Nat) (tail : Bytes) (stack : List InlineFrame) :
    parseNode addr (fuel + 1) base stack ⟨a, 0 :: tail⟩ = .ok ((false, stack), ⟨a + 1, tail⟩) := by
  rw [parseNode]
  have := need_uleb (n := 0) (by norm_num) tail a
  rw [uleb_zero] at this
  simp only [List.cons_append, List.nil_append] at this
  rw [this, eok_bind]
  rfl

/-- The functions inlined into a function. -/
theorem parseNodes_eq (addr : Nat) (f : Forest) (hf : f.InRange) (fuel base a : Nat) (tail : Bytes)
    (stack : List InlineFrame) (hfuel : 2 * f.bytes.length + 2 ≤ fuel) :
    (Readable addr base f → parseNodes addr fuel base stack ⟨a, f.bytes ++ 0 :: tail⟩ =
      .ok (stack ++ frames addr base f, ⟨a + f.bytes.length + 1, tail⟩)) ∧
    (¬ Readable addr base f → parseNodes addr fuel base stack ⟨a, f.bytes ++ 0 :: tail⟩ =
      .error .invalidData) := by
  induction f generalizing fuel base a tail stack with
  | nil =>
    obtain ⟨k, rfl⟩ : ∃ k, fuel = k + 2 := ⟨fuel - 2, by omega⟩
    refine ⟨fun _ => ?_, fun h => absurd trivial h⟩
    rw [parseNodes]
    simp only [Forest.bytes, List.nil_append]
    rw [parse_stop, eok_bind]
    simp [frames, pure, Except.pure]
  | cons i ch rest ih1 ih2 =>
    obtain ⟨h1, h2, h3, h4⟩ := hf
    have hb := bytes_pos i
    simp only [Forest.bytes, List.length_append] at hfuel
    obtain ⟨k, rfl⟩ : ∃ k, fuel = k + 2 := ⟨fuel - 2, by omega⟩
    rw [parseNodes]
    simp only [Forest.bytes, List.append_assoc, Readable, frames]
    rw [parse_head h1]
    by_cases hv : fits i base ∧ i.callFile < 2 ^ 32
    swap
    · rw [if_pos hv, eerr_bind]
      exact ⟨fun h => absurd h.1 hv, fun _ => rfl⟩
    rw [if_neg (not_not.mpr hv)]
    by_cases hfl : i.flag ≠ 0
    · simp only [if_pos hfl, List.append_assoc, List.cons_append, List.nil_append,
        List.length_append, List.length_cons, List.length_nil] at hfuel ⊢
      by_cases hc : Covers addr (i.code base)
      · simp only [if_pos hc]
        by_cases hr : Readable addr (i.base base) ch
        · rw [(ih1 h3 k (i.base base) _ _ _ (by omega)).1 hr, eok_bind]
          simp only [pure, Except.pure]
          rw [eok_bind]
          simp only [if_true]
          have := ih2 h4 (k + 1) base (a + i.bytes.length + ch.bytes.length + 1) tail
            (stack ++ ownFrame i ++ frames addr (i.base base) ch) (by omega)
          constructor
          · intro hh
            rw [this.1 hh.2.2]
            simp only [List.append_assoc]
            congr 3
            omega
          · intro hh
            exact this.2 fun hrest => hh ⟨hv, fun _ => hr, hrest⟩
        · rw [(ih1 h3 k (i.base base) _ _ _ (by omega)).2 hr, eerr_bind, eerr_bind]
          exact ⟨fun h => absurd (h.2.1 hc) hr, fun _ => rfl⟩
      · simp only [if_neg hc, List.nil_append]
        rw [skipNodes_eq ch h3 k _ _ (by omega), eok_bind]
        simp only [pure, Except.pure]
        rw [eok_bind]
        simp only [if_true]
        have := ih2 h4 (k + 1) base (a + i.bytes.length + ch.bytes.length + 1) tail stack (by omega)
        constructor
        · intro hh
          rw [this.1 hh.2.2]
          congr 3
          omega
        · intro hh
          exact this.2 fun hrest => hh ⟨hv, fun hx => absurd hx hc, hrest⟩
    · have hch : ch = .nil := h2 (by simpa using hfl)
      subst hch
      simp only [if_neg hfl, List.nil_append, List.length_nil] at hfuel ⊢
      rw [← apply_ite Except.ok, eok_bind]
      by_cases hc : Covers addr (i.code base)
      · simp only [if_pos hc, if_true]
        have := ih2 h4 (k + 1) base (a + i.bytes.length) tail (stack ++ ownFrame i) (by omega)
        constructor
        · intro hh
          rw [this.1 hh.2.2]
          simp only [List.append_assoc, frames, List.nil_append]
          congr 3
          simp only [List.length_append]; omega
        · intro hh
          exact this.2 fun hrest => hh ⟨hv, fun _ => trivial, hrest⟩
      · simp only [if_neg hc, if_true, List.nil_append]
        have := ih2 h4 (k + 1) base (a + i.bytes.length) tail stack (by omega)
        constructor
        · intro hh
          rw [this.1 hh.2.2]
          congr 3
          simp only [List.length_append]; omega
        · intro hh
          exact this.2 fun hrest => hh ⟨hv, fun hx => absurd hx hc, hrest⟩

/-- A single tree. -/
theorem parseNode_eq (addr : Nat) (i : Inlined) (ch : Forest)
    (hf : (Forest.cons i ch .nil).InRange) (fuel base a : Nat) (tail : Bytes)
    (stack : List InlineFrame) (hfuel : 2 * (Forest.cons i ch .nil).bytes.length + 1 ≤ fuel) :
    (Readable addr base (.cons i ch .nil) →
      parseNode addr fuel base stack ⟨a, (Forest.cons i ch .nil).bytes ++ tail⟩ =
        .ok ((true, stack ++ frames addr base (.cons i ch .nil)),
          ⟨a + (Forest.cons i ch .nil).bytes.length, tail⟩)) ∧
    (¬ Readable addr base (.cons i ch .nil) →
      parseNode addr fuel base stack ⟨a, (Forest.cons i ch .nil).bytes ++ tail⟩ =
        .error .invalidData) := by
  obtain ⟨h1, h2, h3, _⟩ := hf
  have hb := bytes_pos i
  obtain ⟨fuel, rfl⟩ : ∃ k, fuel = k + 1 := ⟨fuel - 1, by omega⟩
  simp only [Forest.bytes, List.append_nil, List.length_append] at hfuel
  simp only [Forest.bytes, List.append_nil, Readable, frames, and_true, List.append_assoc]
  rw [parse_head h1]
  by_cases hv : fits i base ∧ i.callFile < 2 ^ 32
  swap
  · rw [if_pos hv]
    exact ⟨fun h => absurd h.1 hv, fun _ => rfl⟩
  rw [if_neg (not_not.mpr hv)]
  by_cases hfl : i.flag ≠ 0
  · simp only [if_pos hfl, List.append_assoc, List.cons_append, List.nil_append,
      List.length_append, List.length_cons, List.length_nil] at hfuel ⊢
    by_cases hc : Covers addr (i.code base)
    · simp only [if_pos hc]
      by_cases hr : Readable addr (i.base base) ch
      · rw [(parseNodes_eq addr ch h3 _ _ _ _ _ (by omega)).1 hr, eok_bind]
        simp only [pure, Except.pure, List.append_assoc, Nat.add_assoc, Nat.zero_add]
        exact ⟨fun _ => trivial, fun h => absurd ⟨hv, fun _ => hr⟩ h⟩
      · rw [(parseNodes_eq addr ch h3 _ _ _ _ _ (by omega)).2 hr, eerr_bind]
        exact ⟨fun h => absurd (h.2 hc) hr, fun _ => rfl⟩
    · simp only [if_neg hc]
      rw [skipNodes_eq ch h3 _ _ _ (by omega), eok_bind]
      simp only [pure, Except.pure, List.append_nil, Nat.add_assoc, Nat.zero_add]
      exact ⟨fun _ => trivial, fun h => absurd ⟨hv, fun hx => absurd hx hc⟩ h⟩
  · have hch : ch = .nil := h2 (by simpa using hfl)
    subst hch
    simp only [if_neg hfl, List.nil_append, List.append_nil, frames]
    by_cases hc : Covers addr (i.code base)
    · simp only [if_pos hc]
      exact ⟨fun _ => trivial, fun h => absurd ⟨hv, fun _ => trivial⟩ h⟩
    · simp only [if_neg hc, List.append_nil]
      exact ⟨fun _ => trivial, fun h => absurd ⟨hv, fun hx => absurd hx hc⟩ h⟩

/-- A single tree at the start of the data. -/
theorem parseInlineStack_eq (addr : Nat) (i : Inlined) (ch : Forest)
    (hf : (Forest.cons i ch .nil).InRange) (base a : Nat) (tail : Bytes)
    (stack : List InlineFrame) :
    (Readable addr base (.cons i ch .nil) →
      parseInlineStack ⟨a, (Forest.cons i ch .nil).bytes ++ tail⟩ base addr stack =
        .ok (stack ++ frames addr base (.cons i ch .nil))) ∧
    (¬ Readable addr base (.cons i ch .nil) →
      parseInlineStack ⟨a, (Forest.cons i ch .nil).bytes ++ tail⟩ base addr stack =
        .error .invalidData) := by
  have hfu : 2 * (Forest.cons i ch .nil).bytes.length + 1 ≤
      budget ⟨a, (Forest.cons i ch .nil).bytes ++ tail⟩ := by
    simp only [budget, List.length_append]; omega
  have := parseNode_eq addr i ch hf _ base a tail stack hfu
  unfold parseInlineStack
  constructor
  · intro h; rw [this.1 h]; rfl
  · intro h; rw [this.2 h]; rfl

/-! ### The specification -/

theorem frames_eq (addr : Nat) (f : Forest) (base : Nat) (around : List (List (Nat × Nat)))
    (hr : ∀ c ∈ around, Covers addr c) :
    frames addr base f = (((f.placed base around).filter fun p => decide (p.Holds addr)).filter
      fun p => decide (p.fn.name > 0)).map fun p => frameOf p.fn := by
  induction f generalizing base around with
  | nil => rfl
  | cons i ch rest ih1 ih2 =>
    have hskip : ∀ (f : Forest) (b : Nat) (ar : List (List (Nat × Nat))),
        (∃ c ∈ ar, ¬ Covers addr c) → (f.placed b ar).filter (fun p => decide (p.Holds addr)) = [] := by
      intro f
      induction f with
      | nil => intros; rfl
      | cons i ch rest ih1 ih2 =>
        rintro b ar ⟨c, hc, hn⟩
        simp only [Forest.placed, List.filter_cons, List.filter_append]
        rw [ih1 _ _ ⟨c, by simp [hc], hn⟩, ih2 _ _ ⟨c, hc, hn⟩]
        rw [if_neg (by
          simp only [decide_eq_true_eq]
          exact fun h => hn (h.2 c hc))]
        rfl
    simp only [frames, Forest.placed, List.filter_cons, List.filter_append]
    rw [ih2 base around hr]
    by_cases hc : Covers addr (i.code base)
    · rw [if_pos hc, ih1 (i.base base) (i.code base :: around)
        (fun c h => (List.mem_cons.mp h).elim (fun e => e ▸ hc) (hr c)),
        if_pos (by simp only [decide_eq_true_eq]; exact ⟨hc, hr⟩)]
      simp only [List.filter_cons, ownFrame]
      by_cases hn : i.name > 0
      · simp [hn]
      · simp [hn]
    · rw [if_neg hc, if_neg (by simp only [decide_eq_true_eq]; exact fun h => hc h.1),
        hskip ch _ _ ⟨_, List.mem_cons_self, hc⟩]
      simp

theorem readable_iff (addr : Nat) (f : Forest) (base : Nat) (around : List (List (Nat × Nat)))
    (hr : ∀ c ∈ around, Covers addr c) :
    Readable addr base f ↔ ∀ p ∈ f.placed base around, p.Reached addr → p.Valid := by
  induction f generalizing base around with
  | nil => simp [Readable, Forest.placed]
  | cons i ch rest ih1 ih2 =>
    have hskip : ∀ (f : Forest) (b : Nat) (ar : List (List (Nat × Nat))),
        ∀ p ∈ f.placed b ar, ∀ c ∈ ar, c ∈ p.around := by
      intro f
      induction f with
      | nil => intro b ar p hp; simp [Forest.placed] at hp
      | cons i ch rest ih1 ih2 =>
        intro b ar p hp c hc
        simp only [Forest.placed, List.mem_cons, List.mem_append] at hp
        rcases hp with rfl | hp | hp
        · exact hc
        · exact ih1 _ _ p hp c (by simp [hc])
        · exact ih2 _ _ p hp c hc
    simp only [Readable, Forest.placed, List.mem_cons, List.mem_append]
    rw [ih2 base around hr]
    constructor
    · rintro ⟨h1, h2, h3⟩ p (rfl | hp | hp) hre
      · exact h1
      · have hc : Covers addr (i.code base) := hre _ (hskip ch _ _ p hp _ (by simp))
        exact (ih1 (i.base base) (i.code base :: around)
          (fun c h => (List.mem_cons.mp h).elim (fun e => e ▸ hc) (hr c))).mp (h2 hc) p hp hre
      · exact h3 p hp hre
    · intro h
      refine ⟨h ⟨i, i.code base, around⟩ (Or.inl rfl) hr, fun hc => ?_,
        fun p hp => h p (Or.inr (Or.inr hp))⟩
      exact (ih1 (i.base base) (i.code base :: around)
        (fun c h => (List.mem_cons.mp h).elim (fun e => e ▸ hc) (hr c))).mpr
        fun p hp => h p (Or.inr (Or.inl hp))

end Blazesym.Gsym
