import Verif.Util.Reader
import Mathlib.Tactic.Ring
import Mathlib.Tactic.Positivity

set_option autoImplicit false

namespace Blazesym.Util

universe u v

theorem ensure_ok {n : Nat} {c : Cursor} (h : n ≤ c.data.length) : ensure n c = (.ok (), c) := by
  unfold ensure; rw [if_neg (by omega)]

theorem ensure_none {n : Nat} {c : Cursor} (h : c.data.length < n) :
    ensure n c = (.error .none, c) := by
  unfold ensure; rw [if_pos h]

theorem readSlice_ok {n : Nat} {c : Cursor} (h : n ≤ c.data.length) :
    readSlice n c = (.ok (c.data.take n), ⟨c.addr + n, c.data.drop n⟩) := by
  unfold readSlice; rw [ensure_ok h]

theorem readSlice_none {n : Nat} {c : Cursor} (h : c.data.length < n) :
    readSlice n c = (.error .none, c) := by
  unfold readSlice; rw [ensure_none h]

theorem readUint_ok {n : Nat} {c : Cursor} (h : n ≤ c.data.length) :
    readUint n c = (.ok (leValue (c.data.take n)), ⟨c.addr + n, c.data.drop n⟩) := by
  unfold readUint; rw [readSlice_ok h]

theorem readUint_none {n : Nat} {c : Cursor} (h : c.data.length < n) :
    readUint n c = (.error .none, c) := by
  unfold readUint; rw [readSlice_none h]

theorem advance_ok {n : Nat} {c : Cursor} (h : n ≤ c.data.length) :
    advance n c = (.ok (), ⟨c.addr + n, c.data.drop n⟩) := by
  unfold advance; rw [readSlice_ok h]

theorem advance_none {n : Nat} {c : Cursor} (h : c.data.length < n) :
    advance n c = (.error .none, c) := by
  unfold advance; rw [readSlice_none h]

theorem readArray_ok {n : Nat} {c : Cursor} (h : n ≤ c.data.length) :
    readArray n c = (.ok (c.data.take n), ⟨c.addr + n, c.data.drop n⟩) := by
  unfold readArray peekArray; rw [ensure_ok h]

theorem readArray_none {n : Nat} {c : Cursor} (h : c.data.length < n) :
    readArray n c = (.error .none, c) := by
  unfold readArray peekArray; rw [ensure_none h]

theorem bind_ok {α : Type u} {β : Type v} {m : Rd α} {f : α → Rd β} {c c' : Cursor} {a : α}
    (h : m c = (.ok a, c')) : Rd.bind m f c = f a c' := by
  unfold Rd.bind; rw [h]

theorem bind_error {α : Type u} {β : Type v} {m : Rd α} {f : α → Rd β} {c c' : Cursor} {e : Fail}
    (h : m c = (.error e, c')) : Rd.bind m f c = (.error e, c') := by
  unfold Rd.bind; rw [h]

theorem position_some {α : Type u} {p : α → Bool} {l : List α} {i : Nat}
    (h : position p l = some i) :
    ∃ a, l = l.take i ++ a :: l.drop (i + 1) ∧ p a = true ∧ (∀ b ∈ l.take i, p b = false) ∧
      i < l.length := by
  induction l generalizing i with
  | nil => simp [position] at h
  | cons x t ih =>
    unfold position at h
    by_cases hx : p x = true
    · simp only [hx, if_true, Option.some.injEq] at h
      subst h
      exact ⟨x, by simp, hx, by simp, by simp⟩
    · simp only [hx, if_false] at h
      cases hp : position p t with
      | none => rw [hp] at h; simp at h
      | some j =>
        rw [hp] at h
        simp only [Option.map_some, Bool.false_eq_true, if_false, Option.some.injEq] at h
        subst h
        obtain ⟨a, h1, h2, h3, h4⟩ := ih hp
        refine ⟨a, by simpa using h1, h2, ?_, by simpa using h4⟩
        intro b hb
        simp only [List.take_succ_cons, List.mem_cons] at hb
        rcases hb with hb | hb
        · subst hb; simpa using hx
        · exact h3 b hb

theorem position_append {α : Type u} {p : α → Bool} (s : List α) (a : α) (t : List α)
    (hs : ∀ b ∈ s, p b = false) (ha : p a = true) : position p (s ++ a :: t) = some s.length := by
  induction s with
  | nil => simp [position, ha]
  | cons x s ih =>
    have hx := hs x (by simp)
    simp only [List.cons_append, position, hx, Bool.false_eq_true, if_false]
    rw [ih (fun b hb => hs b (by simp [hb]))]
    rfl

theorem position_none {α : Type u} {p : α → Bool} {l : List α} :
    position p l = none ↔ ∀ b ∈ l, p b = false := by
  induction l with
  | nil => simp [position]
  | cons x t ih =>
    unfold position
    by_cases hx : p x = true
    · simp [hx]
    · simp only [hx, if_false, Option.map_eq_none_iff, ih, List.mem_cons, forall_eq_or_imp]
      simp [hx, ih]

theorem leValue_lt (b : Bytes) : leValue b < 256 ^ b.length := by
  induction b with
  | nil => simp [leValue]
  | cons x t ih =>
    unfold leValue
    have hx : x.toNat < 256 := x.toNat_lt
    simp only [List.length_cons, Nat.pow_succ]
    omega

theorem leValue_append (a b : Bytes) : leValue (a ++ b) = leValue a + 256 ^ a.length * leValue b := by
  induction a with
  | nil => simp [leValue]
  | cons x t ih =>
    simp only [List.cons_append, leValue, ih, List.length_cons, Nat.pow_succ]
    ring_nf

theorem alignOffset_lt (addr a : Nat) (ha : 0 < a) : alignOffset addr a < a :=
  Nat.mod_lt _ ha

theorem alignOffset_spec (addr a : Nat) (ha : 0 < a) : (addr + alignOffset addr a) % a = 0 := by
  unfold alignOffset
  have h1 : addr % a < a := Nat.mod_lt _ ha
  rw [Nat.add_mod, Nat.mod_mod]
  by_cases h0 : addr % a = 0
  · rw [h0]; simp
  · have h2 : a - addr % a < a := by omega
    rw [Nat.mod_eq_of_lt h2]
    have : addr % a + (a - addr % a) = a := by omega
    rw [this, Nat.mod_self]

/-! ### LEB128 -/

set_option maxRecDepth 8000 in
theorem and_0x80 (b : UInt8) : (b.toNat &&& 0x80 = 0) ↔ b.toNat < 128 := by
  have h := b.toNat_lt
  have : ∀ n, n < 256 → ((n &&& 0x80 = 0) ↔ n < 128) := by decide
  exact this _ h

set_option maxRecDepth 8000 in
theorem and_0x7f (b : UInt8) : b.toNat &&& 0x7F = b.toNat % 128 := by
  have h := b.toNat_lt
  have : ∀ n, n < 256 → n &&& 0x7F = n % 128 := by decide
  exact this _ h

set_option maxRecDepth 8000 in
theorem and_0x40 (b : UInt8) : (b.toNat &&& 0x40 ≠ 0) ↔ 64 ≤ b.toNat % 128 := by
  have h := b.toNat_lt
  have : ∀ n, n < 256 → ((n &&& 0x40 ≠ 0) ↔ 64 ≤ n % 128) := by decide
  exact this _ h

theorem or_shl (r x s : Nat) (hr : r < 2 ^ s) : r ||| (x * 2 ^ s) = r + x * 2 ^ s := by
  have := Nat.shiftLeft_add_eq_or_of_lt (b := r) (i := s) hr x
  rw [Nat.shiftLeft_eq] at this
  rw [Nat.or_comm, ← this, Nat.add_comm]

theorem mul_pow_mod (x s : Nat) (hs : s ≤ 64) :
    x * 2 ^ s % u64Size = (x % 2 ^ (64 - s)) * 2 ^ s := by
  have : u64Size = 2 ^ (64 - s) * 2 ^ s := by
    rw [← Nat.pow_add]; rw [Nat.sub_add_cancel hs]; rfl
  rw [this, Nat.mul_mod_mul_right]

theorem or_shl64 (r x s : Nat) (hr : r < 2 ^ s) (hs : s < 64) :
    r ||| (x * 2 ^ s % u64Size) = (r + x * 2 ^ s) % u64Size := by
  have h1 := mul_pow_mod x s (by omega)
  rw [h1, or_shl _ _ _ hr]
  have hu : u64Size = 2 ^ (64 - s) * 2 ^ s := by
    rw [← Nat.pow_add]; rw [Nat.sub_add_cancel (by omega)]; rfl
  have hlt : r + (x % 2 ^ (64 - s)) * 2 ^ s < u64Size := by
    have : x % 2 ^ (64 - s) < 2 ^ (64 - s) := Nat.mod_lt _ (by positivity)
    rw [hu]
    calc r + (x % 2 ^ (64 - s)) * 2 ^ s < 2 ^ s + (x % 2 ^ (64 - s)) * 2 ^ s := by omega
      _ = (x % 2 ^ (64 - s) + 1) * 2 ^ s := by ring
      _ ≤ 2 ^ (64 - s) * 2 ^ s := Nat.mul_le_mul_right _ this
  rw [← Nat.mod_eq_of_lt hlt, ← h1]
  simp

end Blazesym.Util
