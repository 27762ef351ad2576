import Verif.Util.ReaderLemmas
import Verif.Util.ReaderSpec
import Mathlib.Tactic.Linarith

set_option autoImplicit false

namespace Blazesym.Util
open Blazesym.Spec

theorem u64Size_pow : u64Size = 2 ^ 64 := rfl

theorem groups_lt (l : Bytes) : groups l < 2 ^ (7 * l.length) := by
  induction l with
  | nil => simp [groups]
  | cons b t ih =>
    simp only [groups, List.length_cons]
    have : 2 ^ (7 * (t.length + 1)) = 128 * 2 ^ (7 * t.length) := by
      rw [Nat.mul_add, Nat.pow_add]; omega
    omega

theorem shl64_ok (x s : Nat) (hs : s < 64) : shl64 x s = .ok (x * 2 ^ s % u64Size) := by
  unfold shl64; rw [if_pos hs]

theorem shl64_panic (x s : Nat) (hs : 64 ≤ s) : shl64 x s = .error .panic := by
  unfold shl64; rw [if_neg (by omega)]

theorem step_bound (r x s : Nat) (hr : r < 2 ^ s) (hx : x < 128) : r + x * 2 ^ s < 2 ^ (s + 7) := by
  rw [Nat.pow_add]
  have : x * 2 ^ s ≤ 127 * 2 ^ s := Nat.mul_le_mul_right _ (by omega)
  omega

theorem lebULoop_spec (bs : Bytes) (b : UInt8) (rest : Bytes) (addr r s : Nat)
    (hbs : ∀ x ∈ bs, 128 ≤ x.toNat) (hb : b.toNat < 128) (hr : r < 2 ^ s)
    (hlen : s + 7 * bs.length < 64) :
    lebULoop (bs ++ b :: rest) addr r s =
      (.ok ((r + 2 ^ s * groups (bs ++ [b])) % u64Size), ⟨addr + bs.length + 1, rest⟩) := by
  induction bs generalizing addr r s with
  | nil =>
    have h80 : b.toNat &&& 0x80 = 0 := (and_0x80 b).mpr hb
    simp only [List.nil_append, lebULoop, h80, if_true]
    rw [shl64_ok _ _ (by simpa using hlen)]
    simp only
    rw [or_shl64 _ _ _ hr (by simpa using hlen), Nat.mul_comm b.toNat]
    simp only [groups, Nat.mod_eq_of_lt hb, Nat.mul_zero, Nat.add_zero, List.length_nil]
  | cons x t ih =>
    have hx := hbs x (by simp)
    have h80 : ¬ (x.toNat &&& 0x80 = 0) := by rw [and_0x80]; omega
    simp only [List.length_cons] at hlen
    simp only [List.cons_append, lebULoop, h80, if_false]
    rw [shl64_ok _ _ (by omega)]
    simp only
    rw [or_shl64 _ _ _ hr (by omega), and_0x7f]
    have hm : x.toNat % 128 < 128 := Nat.mod_lt _ (by omega)
    have hb1 := step_bound r (x.toNat % 128) s hr hm
    have hb2 : 2 ^ (s + 7) ≤ 2 ^ 64 := Nat.pow_le_pow_right (by omega) (by omega)
    rw [Nat.mod_eq_of_lt (by rw [u64Size_pow]; omega)]
    rw [ih (addr + 1) _ (s + 7) (fun y hy => hbs y (by simp [hy])) hb1 (by omega)]
    simp only [groups, List.length_cons]
    congr 2
    · congr 1
      rw [Nat.pow_add]
      ring_nf
    · congr 1; omega

theorem lebULoop_panic (bs : Bytes) (b : UInt8) (rest : Bytes) (addr r s : Nat)
    (hbs : ∀ x ∈ bs, 128 ≤ x.toNat) (hlen : 64 ≤ s + 7 * bs.length) :
    (lebULoop (bs ++ b :: rest) addr r s).1 = .error .panic := by
  induction bs generalizing addr r s with
  | nil =>
    simp only [List.nil_append, lebULoop]
    split <;> rw [shl64_panic _ _ (by simpa using hlen)]
  | cons x t ih =>
    have hx := hbs x (by simp)
    have h80 : ¬ (x.toNat &&& 0x80 = 0) := by rw [and_0x80]; omega
    simp only [List.cons_append, lebULoop, h80, if_false]
    by_cases hs : s < 64
    · rw [shl64_ok _ _ hs]
      simp only
      exact ih _ _ _ (fun y hy => hbs y (by simp [hy])) (by simp only [List.length_cons] at hlen; omega)
    · rw [shl64_panic _ _ (by omega)]

theorem lebULoop_short (bs : Bytes) (addr r s : Nat)
    (hbs : ∀ x ∈ bs, 128 ≤ x.toNat) (hlen : s + 7 * bs.length < 64 + 7) :
    lebULoop bs addr r s = (.error .none, ⟨addr + bs.length, []⟩) := by
  induction bs generalizing addr r s with
  | nil => simp [lebULoop]
  | cons x t ih =>
    have hx := hbs x (by simp)
    have h80 : ¬ (x.toNat &&& 0x80 = 0) := by rw [and_0x80]; omega
    simp only [List.length_cons] at hlen
    simp only [lebULoop, h80, if_false]
    rw [shl64_ok _ _ (by omega)]
    simp only
    rw [ih _ _ _ (fun y hy => hbs y (by simp [hy])) (by omega)]
    simp only [List.length_cons]
    congr 2; omega

/-- Shape of the unsigned encoding. -/
theorem uleb_shape (n : Nat) : ∃ bs b, uleb n = bs ++ [b] ∧ (∀ x ∈ bs, 128 ≤ x.toNat) ∧
    b.toNat < 128 ∧ groups (bs ++ [b]) = n ∧ (∀ k, n < 128 ^ (k + 1) → bs.length ≤ k) := by
  induction n using Nat.strongRecOn with
  | _ n ih =>
    unfold uleb
    by_cases h : n < 128
    · refine ⟨[], UInt8.ofNat n, by simp [h], by simp, ?_, ?_, by simp⟩
      · simp only [UInt8.toNat_ofNat']; omega
      · simp only [List.nil_append, groups, UInt8.toNat_ofNat']; omega
    · obtain ⟨bs, b, h1, h2, h3, h4, h5⟩ := ih (n / 128) (by omega)
      refine ⟨UInt8.ofNat (n % 128 + 128) :: bs, b, by simp [h, h1], ?_, h3, ?_, ?_⟩
      · intro x hx
        rcases List.mem_cons.mp hx with hx | hx
        · subst hx; simp only [UInt8.toNat_ofNat']; omega
        · exact h2 x hx
      · simp only [List.cons_append, groups, h4, UInt8.toNat_ofNat']; omega
      · intro k hk
        cases k with
        | zero => simp at hk; omega
        | succ k =>
          have : n / 128 < 128 ^ (k + 1) := by
            rw [Nat.div_lt_iff_lt_mul (by omega)]
            rw [Nat.pow_succ] at hk; exact hk
          have := h5 k this
          simp only [List.length_cons]; omega

theorem lebSLoop_spec (bs : Bytes) (b : UInt8) (rest : Bytes) (addr r s : Nat)
    (hbs : ∀ x ∈ bs, 128 ≤ x.toNat) (hb : b.toNat < 128) (hr : r < 2 ^ s)
    (hlen : s + 7 * bs.length < 64) :
    lebSLoop (bs ++ b :: rest) addr r s =
      (.ok (let p := (r + 2 ^ s * groups (bs ++ [b])) % u64Size
            if s + 7 * (bs.length + 1) < 64 ∧ 64 ≤ b.toNat
            then p + (u64Size - 2 ^ (s + 7 * (bs.length + 1))) else p),
        ⟨addr + bs.length + 1, rest⟩) := by
  induction bs generalizing addr r s with
  | nil =>
    have h80 : b.toNat &&& 0x80 = 0 := (and_0x80 b).mpr hb
    have hs : s < 64 := by simpa using hlen
    simp only [List.nil_append, lebSLoop]
    rw [shl64_ok _ _ hs]
    simp only [h80, if_true]
    have hcond : (s + 7 < 64 ∧ b.toNat &&& 0x40 ≠ 0) ↔ (s + 7 < 64 ∧ 64 ≤ b.toNat) := by
      rw [and_0x40, Nat.mod_eq_of_lt hb]
    rw [or_shl64 _ _ _ hr hs, and_0x7f, Nat.mod_eq_of_lt hb]
    simp only [groups, Nat.mod_eq_of_lt hb, Nat.mul_zero, Nat.add_zero, List.length_nil,
      Nat.zero_add, Nat.mul_one]
    rw [Nat.mul_comm (2 ^ s) b.toNat]
    by_cases hc : s + 7 < 64 ∧ 64 ≤ b.toNat
    · rw [if_pos (hcond.mpr hc), if_pos hc, shl64_ok _ _ hc.1]
      simp only
      have hb1 := step_bound r b.toNat s hr hb
      have hb2 : 2 ^ (s + 7) ≤ 2 ^ 64 := Nat.pow_le_pow_right (by omega) (by omega)
      rw [Nat.mod_eq_of_lt (a := r + b.toNat * 2 ^ s) (by rw [u64Size_pow]; omega)]
      rw [or_shl64 _ _ _ hb1 hc.1]
      congr 2
      have hpow : (u64Size - 1) * 2 ^ (s + 7) = u64Size * (2 ^ (s + 7) - 1) + (u64Size - 2 ^ (s + 7)) := by
        have : 1 ≤ 2 ^ (s + 7) := Nat.one_le_two_pow
        rw [u64Size_pow]
        generalize 2 ^ (s + 7) = q at *
        have hq : q ≤ 2 ^ 64 := hb2
        zify [this, hq, show 1 ≤ 2 ^ 64 by norm_num]
        ring
      rw [hpow, ← Nat.add_assoc, Nat.add_comm (r + _) (u64Size * _), Nat.add_assoc,
        Nat.mul_add_mod]
      refine Nat.mod_eq_of_lt ?_
      rw [u64Size_pow]; omega
    · rw [if_neg (fun h => hc (hcond.mp h)), if_neg hc]
  | cons x t ih =>
    have hx := hbs x (by simp)
    have h80 : ¬ (x.toNat &&& 0x80 = 0) := by rw [and_0x80]; omega
    simp only [List.length_cons] at hlen
    simp only [List.cons_append, lebSLoop]
    rw [shl64_ok _ _ (by omega)]
    simp only [h80, if_false]
    rw [or_shl64 _ _ _ hr (by omega), and_0x7f]
    have hm : x.toNat % 128 < 128 := Nat.mod_lt _ (by omega)
    have hb1 := step_bound r (x.toNat % 128) s hr hm
    have hb2 : 2 ^ (s + 7) ≤ 2 ^ 64 := Nat.pow_le_pow_right (by omega) (by omega)
    rw [Nat.mod_eq_of_lt (by rw [u64Size_pow]; omega)]
    rw [ih (addr + 1) _ (s + 7) (fun y hy => hbs y (by simp [hy])) hb1 (by omega)]
    simp only [groups, List.length_cons]
    have e1 : s + 7 + 7 * (t.length + 1) = s + 7 * (t.length + 1 + 1) := by ring
    have e2 : r + x.toNat % 128 * 2 ^ s + 2 ^ (s + 7) * groups (t ++ [b]) =
        r + 2 ^ s * (x.toNat % 128 + 128 * groups (t ++ [b])) := by
      rw [Nat.pow_add]; ring
    have e3 : addr + 1 + t.length + 1 = addr + (t.length + 1) + 1 := by omega
    rw [e1, e2, e3]

theorem lebSLoop_panic (bs : Bytes) (b : UInt8) (rest : Bytes) (addr r s : Nat)
    (hbs : ∀ x ∈ bs, 128 ≤ x.toNat) (hlen : 64 ≤ s + 7 * bs.length) :
    (lebSLoop (bs ++ b :: rest) addr r s).1 = .error .panic := by
  induction bs generalizing addr r s with
  | nil =>
    simp only [List.nil_append, lebSLoop]
    rw [shl64_panic _ _ (by simpa using hlen)]
  | cons x t ih =>
    have hx := hbs x (by simp)
    have h80 : ¬ (x.toNat &&& 0x80 = 0) := by rw [and_0x80]; omega
    simp only [List.cons_append, lebSLoop]
    by_cases hs : s < 64
    · rw [shl64_ok _ _ hs]
      simp only [h80, if_false]
      exact ih _ _ _ (fun y hy => hbs y (by simp [hy])) (by simp only [List.length_cons] at hlen; omega)
    · rw [shl64_panic _ _ (by omega)]

theorem lebSLoop_short (bs : Bytes) (addr r s : Nat)
    (hbs : ∀ x ∈ bs, 128 ≤ x.toNat) (hlen : s + 7 * bs.length < 64 + 7) :
    lebSLoop bs addr r s = (.error .none, ⟨addr + bs.length, []⟩) := by
  induction bs generalizing addr r s with
  | nil => simp [lebSLoop]
  | cons x t ih =>
    have hx := hbs x (by simp)
    have h80 : ¬ (x.toNat &&& 0x80 = 0) := by rw [and_0x80]; omega
    simp only [List.length_cons] at hlen
    simp only [lebSLoop]
    rw [shl64_ok _ _ (by omega)]
    simp only [h80, if_false]
    rw [ih _ _ _ (fun y hy => hbs y (by simp [hy])) (by omega)]
    simp only [List.length_cons]
    congr 2; omega

/-- Shape of the signed encoding. -/
theorem sleb_shape (z : Int) : ∃ bs b, sleb z = bs ++ [b] ∧ (∀ x ∈ bs, 128 ≤ x.toNat) ∧
    b.toNat < 128 ∧ (groups (bs ++ [b]) : Int) = z % 2 ^ (7 * (bs.length + 1)) ∧
    (64 ≤ b.toNat ↔ z < 0) ∧
    (-(2 ^ (7 * bs.length + 6)) ≤ z ∧ z < 2 ^ (7 * bs.length + 6)) ∧
    (∀ k, -(2 ^ (7 * k + 6)) ≤ z → z < 2 ^ (7 * k + 6) → bs.length ≤ k) := by
  induction hn : z.natAbs using Nat.strongRecOn generalizing z with
  | _ n ih =>
    unfold sleb
    simp only
    have hm0 : 0 ≤ z % 128 := Int.emod_nonneg _ (by omega)
    have hm1 : z % 128 < 128 := Int.emod_lt_of_pos _ (by omega)
    by_cases h : (z / 128 = 0 ∧ (z % 128).toNat < 64) ∨ (z / 128 = -1 ∧ 64 ≤ (z % 128).toNat)
    · have hto : (UInt8.ofNat (z % 128).toNat).toNat = (z % 128).toNat := by
        simp only [UInt8.toNat_ofNat']; omega
      refine ⟨[], UInt8.ofNat (z % 128).toNat, by simp only [h, if_true, List.nil_append],
        by simp, ?_, ?_, ?_, ?_, by simp⟩
      · rw [hto]; omega
      · simp only [List.nil_append, groups, hto]
        norm_num
        omega
      · rw [hto]; omega
      · norm_num; omega
    · obtain ⟨bs, b, h1, h2, h3, h4, h5, h6, h7⟩ := ih (z / 128).natAbs (by omega) (z / 128) rfl
      have hto : (UInt8.ofNat ((z % 128).toNat + 128)).toNat = (z % 128).toNat + 128 := by
        simp only [UInt8.toNat_ofNat']; omega
      refine ⟨UInt8.ofNat ((z % 128).toNat + 128) :: bs, b,
        by simp only [h, if_false, h1, List.cons_append], ?_, h3, ?_, ?_, ?_, ?_⟩
      · intro x hx
        rcases List.mem_cons.mp hx with hx | hx
        · subst hx; rw [hto]; omega
        · exact h2 x hx
      · simp only [List.cons_append, groups, hto, List.length_cons]
        push_cast
        rw [h4]
        have e1 : (2 : Int) ^ (7 * (bs.length + 1 + 1)) = 128 * 2 ^ (7 * (bs.length + 1)) := by
          rw [show 7 * (bs.length + 1 + 1) = 7 + 7 * (bs.length + 1) by ring, pow_add]; norm_num
        rw [e1]
        have hP : (0 : Int) < 2 ^ (7 * (bs.length + 1)) := by positivity
        generalize (2 : Int) ^ (7 * (bs.length + 1)) = P at *
        have q1 : z = 128 * (z / 128) + z % 128 := by omega
        have q2 := Int.emod_add_mul_ediv (z / 128) P
        have q3 : 0 ≤ (z / 128) % P := Int.emod_nonneg _ (by omega)
        have q4 : (z / 128) % P < P := Int.emod_lt_of_pos _ hP
        have q5 : ((z % 128).toNat : Int) = z % 128 := by omega
        have q6 : (((z % 128).toNat : Int) + 128) % 128 = z % 128 := by omega
        rw [q6]
        obtain ⟨q, hq⟩ : ∃ q, (z / 128) % P = q := ⟨_, rfl⟩
        obtain ⟨d, hd⟩ : ∃ d, (z / 128) / P = d := ⟨_, rfl⟩
        rw [hq, hd] at q2
        rw [hq] at q3 q4
        rw [hq]
        have : z = (z % 128 + 128 * q) + (128 * P) * d := by
          have : 128 * (q + P * d) + z % 128 = z := by rw [q2]; omega
          linarith
        have fin : (z % 128 + 128 * q) % (128 * P) = z % 128 + 128 * q :=
          Int.emod_eq_of_lt (by omega) (by omega)
        conv_rhs => rw [this]
        rw [Int.add_mul_emod_self_left, fin]
      · rw [h5]; omega
      · simp only [List.length_cons]
        have e1 : (2 : Int) ^ (7 * (bs.length + 1) + 6) = 128 * 2 ^ (7 * bs.length + 6) := by
          rw [show 7 * (bs.length + 1) + 6 = 7 + (7 * bs.length + 6) by ring, pow_add]; norm_num
        rw [e1]
        omega
      · intro k hk1 hk2
        cases k with
        | zero => norm_num at hk1 hk2; omega
        | succ k =>
          have e1 : (2 : Int) ^ (7 * (k + 1) + 6) = 128 * 2 ^ (7 * k + 6) := by
            rw [show 7 * (k + 1) + 6 = 7 + (7 * k + 6) by ring, pow_add]; norm_num
          rw [e1] at hk1 hk2
          have := h7 k (by omega) (by omega)
          simp only [List.length_cons]; omega

end Blazesym.Util
