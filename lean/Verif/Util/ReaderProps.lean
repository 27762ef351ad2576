import Verif.Util.LebLemmas
import Verif.Util.Bytes
import Verif.Util.BytesSpec

/-! Property theorems C11, C12, C52. -/

set_option autoImplicit false

namespace Blazesym.Util
open Blazesym.Spec

/-- What a fixed-length read has to do: on success hand out exactly the next `n` bytes and
advance by exactly `n`; it fails exactly when fewer than `n` bytes remain, without moving. -/
def ReadsExactly (op : Rd Bytes) (n : Nat) : Prop :=
  ∀ c : Cursor,
    (n ≤ c.data.length → ∃ out rest, c.data = out ++ rest ∧ out.length = n ∧
      op c = (.ok out, ⟨c.addr + n, rest⟩)) ∧
    (c.data.length < n → op c = (.error .none, c))

/-- **C11** `read_slice` accounts for every byte. -/
theorem C11_read_slice (n : Nat) : ReadsExactly (readSlice n) n := by
  intro c
  refine ⟨fun h => ⟨c.data.take n, c.data.drop n, (List.take_append_drop n _).symm, ?_,
    readSlice_ok h⟩, readSlice_none⟩
  simp [h]

/-- **C11** `read_array` accounts for every byte. -/
theorem C11_read_array (n : Nat) : ReadsExactly (readArray n) n := by
  intro c
  refine ⟨fun h => ⟨c.data.take n, c.data.drop n, (List.take_append_drop n _).symm, ?_,
    readArray_ok h⟩, readArray_none⟩
  simp [h]

/-- **C11** `peek_array` returns the same bytes and never moves the cursor. -/
theorem C11_peek_array (n : Nat) (c : Cursor) :
    (peekArray n c).1 = (readArray n c).1 ∧ (peekArray n c).2 = c := by
  rcases Nat.lt_or_ge c.data.length n with h | h
  · rw [readArray_none h]; unfold peekArray; rw [ensure_none h]; exact ⟨rfl, rfl⟩
  · rw [readArray_ok h]; unfold peekArray; rw [ensure_ok h]; exact ⟨rfl, rfl⟩

/-- **C11** `ensure` succeeds exactly when the bytes are there and never moves. -/
theorem C11_ensure (n : Nat) (c : Cursor) :
    ((ensure n c).1 = .ok () ↔ n ≤ c.data.length) ∧ (ensure n c).2 = c := by
  rcases Nat.lt_or_ge c.data.length n with h | h
  · rw [ensure_none h]
    refine ⟨⟨fun h' => by simp at h', fun h' => by omega⟩, rfl⟩
  · rw [ensure_ok h]; exact ⟨⟨fun _ => h, fun _ => rfl⟩, rfl⟩

/-- **C11** `align` skips the least number of bytes that brings the address to a multiple
of the alignment, or fails (without moving) when these bytes are not there. -/
theorem C11_align (a : Nat) (ha : 0 < a) (c : Cursor) :
    ∃ k, k < a ∧ (c.addr + k) % a = 0 ∧ (∀ k', k' < k → (c.addr + k') % a ≠ 0) ∧
      (k ≤ c.data.length → align a c = (.ok (), ⟨c.addr + k, c.data.drop k⟩)) ∧
      (c.data.length < k → align a c = (.error .none, c)) := by
  refine ⟨alignOffset c.addr a, alignOffset_lt _ _ ha, alignOffset_spec _ _ ha, ?_, ?_, ?_⟩
  · intro k' hk' h0
    unfold alignOffset at hk'
    have h1 : c.addr % a < a := Nat.mod_lt _ ha
    by_cases h2 : c.addr % a = 0
    · rw [h2] at hk'; simp at hk'
    · rw [Nat.mod_eq_of_lt (show a - c.addr % a < a by omega)] at hk'
      rw [Nat.add_mod, Nat.mod_eq_of_lt (show k' < a by omega)] at h0
      rw [Nat.mod_eq_of_lt (by omega)] at h0
      omega
  · intro h; unfold align; exact advance_ok h
  · intro h; unfold align; exact advance_none h

/-- **C11** `read_cstr` returns the bytes up to the first NUL and consumes that NUL; it
fails (without moving) exactly when no NUL remains. -/
theorem C11_read_cstr (c : Cursor) :
    (∀ s rest, c.data = s ++ 0 :: rest → (∀ b ∈ s, b ≠ 0) →
      readCstr c = (.ok s, ⟨c.addr + s.length + 1, rest⟩)) ∧
    ((∀ b ∈ c.data, b ≠ 0) → readCstr c = (.error .none, c)) := by
  constructor
  · intro s rest hd hs
    unfold readCstr
    have hp : position (fun b => b == 0) c.data = some s.length := by
      rw [hd]
      exact position_append s 0 rest (fun b hb => by simpa using hs b hb) (by simp)
    rw [hp]
    simp only
    have hl : s.length + 1 ≤ c.data.length := by rw [hd]; simp
    rw [readSlice_ok hl]
    simp only [hd]
    have e1 : ((s ++ 0 :: rest).take (s.length + 1)).take s.length = s := by
      rw [List.take_take]; simp
    have e2 : (s ++ 0 :: rest).drop (s.length + 1) = rest := by
      have : s ++ (0 : UInt8) :: rest = (s ++ [0]) ++ rest := by simp
      rw [this, List.drop_left' (by simp)]
    rw [e1, e2]; rfl
  · intro h
    unfold readCstr
    have hp : position (fun b => b == 0) c.data = none :=
      position_none.mpr (fun b hb => by simpa using h b hb)
    rw [hp]

/-- **C11** unsigned integers are read little endian from exactly `n` bytes. -/
theorem C11_read_uint (n : Nat) (c : Cursor) :
    (n ≤ c.data.length → ∃ out rest, c.data = out ++ rest ∧ out.length = n ∧
      readUint n c = (.ok (leValue out), ⟨c.addr + n, rest⟩) ∧ leValue out < 256 ^ n) ∧
    (c.data.length < n → readUint n c = (.error .none, c)) := by
  refine ⟨fun h => ⟨c.data.take n, c.data.drop n, (List.take_append_drop n _).symm, ?_,
    readUint_ok h, ?_⟩, readUint_none⟩
  · simp [h]
  · have := leValue_lt (c.data.take n)
    rwa [show (c.data.take n).length = n by simp [h]] at this

/-- **C11** a reference to a plain data object or slice is handed out only if it is in
bounds and aligned, and then designates exactly the next bytes. -/
theorem C11_read_pod_slice_ref (size a count : Nat) (ha : 0 < a) (c c' : Cursor) (out : Bytes)
    (h : readPodSliceRef size a count c = (.ok out, c')) :
    c.addr % a = 0 ∧ c.data = out ++ c'.data ∧ out.length = size * count ∧
      c'.addr = c.addr + size * count := by
  unfold readPodSliceRef at h
  split at h
  · unfold readPodRef at h
    rcases Nat.lt_or_ge c.data.length (size * count) with hl | hl
    · rw [readSlice_none hl] at h; simp at h
    · rw [readSlice_ok hl] at h
      simp only at h
      split at h
      · rename_i hal
        cases h
        refine ⟨?_, (List.take_append_drop _ _).symm, by simp [hl], rfl⟩
        have := alignOffset_spec c.addr a ha
        rwa [hal] at this
      · simp at h
  · simp at h

/-- **C11** conversely, in-bounds aligned references are always handed out. -/
theorem C11_read_pod_slice_ref_complete (size a count : Nat) (c : Cursor) (ha : 0 < a)
    (hal : c.addr % a = 0) (hb : size * count ≤ c.data.length) (hu : size * count < u64Size) :
    readPodSliceRef size a count c =
      (.ok (c.data.take (size * count)), ⟨c.addr + size * count, c.data.drop (size * count)⟩) := by
  unfold readPodSliceRef
  rw [if_pos hu]
  unfold readPodRef
  rw [readSlice_ok hb]
  simp only
  rw [if_pos]
  unfold alignOffset
  rw [hal]; simp

example : readCstr ⟨0, [102, 111, 111, 0, 7]⟩ = (.ok [102, 111, 111], ⟨4, [7]⟩) :=
  (C11_read_cstr ⟨0, [102, 111, 111, 0, 7]⟩).1 [102, 111, 111] [7] rfl (by decide)

example : readUint 2 ⟨8, [0x34, 0x12, 0xff]⟩ = (.ok 0x1234, ⟨10, [0xff]⟩) := by decide

example : readPodSliceRef 4 4 1 ⟨8, [1, 0, 0, 0, 9]⟩ = (.ok [1, 0, 0, 0], ⟨12, [9]⟩) := by decide

/-- **C12** unsigned: decoding the standard encoding of any 64 bit value gives the value
back and leaves the following bytes. -/
theorem C12_uleb_roundtrip (n : Nat) (hn : n < 2 ^ 64) (rest : Bytes) (addr : Nat) :
    readU64Leb128 ⟨addr, uleb n ++ rest⟩ = (.ok n, ⟨addr + (uleb n).length, rest⟩) := by
  obtain ⟨bs, b, h1, h2, h3, h4, h5⟩ := uleb_shape n
  have hlen := h5 9 (lt_trans hn (by norm_num))
  rw [h1]
  unfold readU64Leb128
  cases bs with
  | nil =>
    have h80 : b.toNat &&& 0x80 = 0 := (and_0x80 b).mpr h3
    simp only [List.nil_append, List.cons_append, h80, if_true]
    simp only [List.nil_append, groups, Nat.mod_eq_of_lt h3, Nat.mul_zero, Nat.add_zero] at h4
    rw [h4]; rfl
  | cons x t =>
    have hx := h2 x (by simp)
    have h80 : ¬ (x.toNat &&& 0x80 = 0) := by rw [and_0x80]; omega
    simp only [List.cons_append, List.append_assoc, List.nil_append, h80, if_false]
    simp only [List.length_cons] at hlen
    rw [and_0x7f, lebULoop_spec t b rest (addr + 1) (x.toNat % 128) 7
      (fun y hy => h2 y (by simp [hy])) h3 (Nat.mod_lt _ (by norm_num)) (by omega)]
    simp only [List.cons_append, groups] at h4
    have : (x.toNat % 128 + 2 ^ 7 * groups (t ++ [b])) % u64Size = n := by
      rw [show (2 : Nat) ^ 7 = 128 by norm_num, h4]
      exact Nat.mod_eq_of_lt hn
    rw [this]
    congr 2
    simp; omega

/-- **C12** unsigned, arbitrary (also padded) encodings of at most ten bytes: the value is
the number denoted by the groups, modulo 2^64. -/
theorem C12_uleb_value (bs : Bytes) (b : UInt8) (rest : Bytes) (addr : Nat)
    (hbs : ∀ x ∈ bs, 128 ≤ x.toNat) (hb : b.toNat < 128) (hlen : bs.length < 10) :
    readU64Leb128 ⟨addr, bs ++ b :: rest⟩ =
      (.ok (groups (bs ++ [b]) % 2 ^ 64), ⟨addr + bs.length + 1, rest⟩) := by
  unfold readU64Leb128
  cases bs with
  | nil =>
    have h80 : b.toNat &&& 0x80 = 0 := (and_0x80 b).mpr hb
    simp only [List.nil_append, h80, if_true, groups, Nat.mod_eq_of_lt hb, Nat.mul_zero,
      Nat.add_zero]
    rw [Nat.mod_eq_of_lt (by omega)]; rfl
  | cons x t =>
    have hx := hbs x (by simp)
    have h80 : ¬ (x.toNat &&& 0x80 = 0) := by rw [and_0x80]; omega
    simp only [List.length_cons] at hlen
    simp only [List.cons_append, h80, if_false]
    rw [and_0x7f, lebULoop_spec t b rest (addr + 1) (x.toNat % 128) 7
      (fun y hy => hbs y (by simp [hy])) hb (Nat.mod_lt _ (by norm_num)) (by omega)]
    simp only [groups]
    congr 2
    simp; omega

/-- **C12** truncated data is reported as missing and consumes the available bytes. -/
theorem C12_uleb_truncated (bs : Bytes) (addr : Nat) (hbs : ∀ x ∈ bs, 128 ≤ x.toNat)
    (hlen : bs.length ≤ 10) :
    readU64Leb128 ⟨addr, bs⟩ = (.error .none, ⟨addr + bs.length, []⟩) := by
  unfold readU64Leb128
  cases bs with
  | nil => rfl
  | cons x t =>
    have hx := hbs x (by simp)
    have h80 : ¬ (x.toNat &&& 0x80 = 0) := by rw [and_0x80]; omega
    simp only [List.length_cons] at hlen
    simp only [h80, if_false]
    rw [lebULoop_short t _ _ 7 (fun y hy => hbs y (by simp [hy])) (by omega)]
    simp only [List.length_cons]
    congr 2; omega

/-- **C12** (defect on malformed data): an encoding with ten or more continuation bytes
makes the decoder shift by more than 63 bits, which panics in a build with overflow
checks. -/
theorem C12_uleb_overlong_panics (bs : Bytes) (b : UInt8) (rest : Bytes) (addr : Nat)
    (hbs : ∀ x ∈ bs, 128 ≤ x.toNat) (hlen : 10 ≤ bs.length) :
    (readU64Leb128 ⟨addr, bs ++ b :: rest⟩).1 = .error .panic := by
  unfold readU64Leb128
  cases bs with
  | nil => simp at hlen
  | cons x t =>
    have hx := hbs x (by simp)
    have h80 : ¬ (x.toNat &&& 0x80 = 0) := by rw [and_0x80]; omega
    simp only [List.length_cons] at hlen
    simp only [List.cons_append, h80, if_false]
    exact lebULoop_panic t b rest _ _ 7 (fun y hy => hbs y (by simp [hy])) (by omega)

/-- **C12** signed: decoding the standard encoding of any `i64` gives it back. -/
theorem C12_sleb_roundtrip (z : Int) (h0 : -(2 ^ 63) ≤ z) (h1 : z < 2 ^ 63) (rest : Bytes)
    (addr : Nat) :
    readI64Leb128 ⟨addr, sleb z ++ rest⟩ = (.ok z, ⟨addr + (sleb z).length, rest⟩) := by
  obtain ⟨bs, b, g1, g2, g3, g4, g5, g6, g7⟩ := sleb_shape z
  have hlen : bs.length ≤ 9 := g7 9 (le_trans (by norm_num) h0) (lt_trans h1 (by norm_num))
  rw [g1]
  unfold readI64Leb128
  simp only [List.append_assoc, List.cons_append, List.nil_append]
  rw [lebSLoop_spec bs b rest addr 0 0 g2 g3 (by norm_num) (by omega)]
  simp only [Nat.zero_add, Nat.pow_zero, Nat.one_mul]
  have hgl := groups_lt (bs ++ [b])
  simp only [List.length_append, List.length_cons, List.length_nil] at hgl
  generalize hG : groups (bs ++ [b]) = G at *
  generalize hL : bs.length = L at *
  have hval : toI64 (if 7 * (L + 1) < 64 ∧ 64 ≤ b.toNat then
      G % u64Size + (u64Size - 2 ^ (7 * (L + 1))) else G % u64Size) = z := by
    have hu : (u64Size : Int) = 2 ^ 64 := by norm_num [u64Size]
    rcases Nat.lt_or_ge L 9 with hL9 | hL9
    · have hp1 : (2 : Nat) ^ (7 * (L + 1)) ≤ 2 ^ 63 := Nat.pow_le_pow_right (by norm_num) (by omega)
      have hp2 : (2 : Nat) ^ (7 * (L + 1)) = 2 * 2 ^ (7 * L + 6) := by
        rw [show 7 * (L + 1) = 1 + (7 * L + 6) by ring, Nat.pow_add]
      have hp3 : ((2 : Int) ^ (7 * (L + 1))) = ((2 ^ (7 * (L + 1)) : Nat) : Int) := by push_cast; rfl
      have hp4 : ((2 : Int) ^ (7 * L + 6)) = ((2 ^ (7 * L + 6) : Nat) : Int) := by push_cast; rfl
      rw [hp3] at g4
      rw [hp4] at g6
      rw [hp2] at hgl hp1 g4 ⊢
      generalize (2 : Nat) ^ (7 * L + 6) = Q at *
      have hGm : G % u64Size = G := Nat.mod_eq_of_lt (by rw [u64Size_pow]; omega)
      rw [hGm]
      by_cases hneg : z < 0
      · have hb64 := g5.mpr hneg
        rw [if_pos ⟨by omega, hb64⟩]
        have hz : (G : Int) = z + 2 * Q := by
          rw [g4, ← Int.add_emod_right]
          push_cast
          exact Int.emod_eq_of_lt (by omega) (by omega)
        unfold toI64 u64Size
        rw [if_neg (by omega)]
        omega
      · have hb64 : ¬ 64 ≤ b.toNat := fun h => hneg (g5.mp h)
        rw [if_neg (fun h => hb64 h.2)]
        have hz : (G : Int) = z := by
          rw [g4]; push_cast
          exact Int.emod_eq_of_lt (by omega) (by omega)
        unfold toI64 u64Size
        rw [if_pos (by omega)]
        exact hz
    · have hL' : L = 9 := by omega
      subst hL'
      rw [if_neg (by omega)]
      have hGm : ((G % u64Size : Nat) : Int) = z % 2 ^ 64 := by
        rw [Int.natCast_emod, g4, hu]
        exact Int.emod_emod_of_dvd _ ⟨2 ^ 6, by norm_num⟩
      have hz : z % 2 ^ 64 = if 0 ≤ z then z else z + 2 ^ 64 := by
        split
        · exact Int.emod_eq_of_lt (by omega) (by omega)
        · rw [← Int.add_emod_right]; exact Int.emod_eq_of_lt (by omega) (by omega)
      unfold toI64
      generalize G % u64Size = M at *
      unfold u64Size at *
      split at hz <;> split <;> omega
  rw [hval]
  congr 2
  simp [hL]; omega

/-- **C12** signed: overlong encodings panic, truncated ones are reported as missing. -/
theorem C12_sleb_malformed (bs : Bytes) (addr : Nat) (hbs : ∀ x ∈ bs, 128 ≤ x.toNat) :
    (bs.length ≤ 10 → readI64Leb128 ⟨addr, bs⟩ = (.error .none, ⟨addr + bs.length, []⟩)) ∧
    (10 ≤ bs.length → ∀ b rest, (readI64Leb128 ⟨addr, bs ++ b :: rest⟩).1 = .error .panic) := by
  constructor
  · intro h
    unfold readI64Leb128
    simp only
    rw [lebSLoop_short bs addr 0 0 hbs (by omega)]
  · intro h b rest
    unfold readI64Leb128
    have := lebSLoop_panic bs b rest addr 0 0 hbs (by omega)
    simp only
    split
    · rename_i heq; rw [heq] at this; simp at this
    · rename_i heq; rw [heq] at this; simpa using this

example : uleb 624485 = [0xE5, 0x8E, 0x26] := by
  simp [uleb]

example : sleb (-123456) = [0xC0, 0xBB, 0x78] := by
  simp [sleb]

/-! ### C52 -/

set_option maxRecDepth 8000 in
theorem asciiToHexdigit_eq (c : UInt8) :
    asciiToHexdigit c = if IsDigit 16 c then some (digitVal c) else none := by
  have h := c.toNat_lt
  have : ∀ n, n < 256 → asciiToHexdigit (UInt8.ofNat n) =
      if IsDigit 16 (UInt8.ofNat n) then some (digitVal (UInt8.ofNat n)) else none := by decide
  have := this c.toNat h
  simpa using this

theorem foldl_mono (s : Bytes) (a : Nat) :
    a ≤ s.foldl (fun acc c => acc * 16 + digitVal c) a := by
  induction s generalizing a with
  | nil => simp
  | cons c t ih => simp only [List.foldl_cons]; exact le_trans (by omega) (ih _)

theorem fromRadix16Loop_ok (s : Bytes) (a v : Nat) (ha : a < u64Size) :
    fromRadix16Loop s a = .ok v ↔ (∀ c ∈ s, IsDigit 16 c) ∧
      s.foldl (fun acc c => acc * 16 + digitVal c) a = v ∧ v < u64Size := by
  induction s generalizing a with
  | nil =>
    simp only [fromRadix16Loop, List.foldl_nil, List.not_mem_nil, false_imp_iff,
      implies_true, true_and]
    constructor
    · intro h; cases h; exact ⟨rfl, ha⟩
    · rintro ⟨h, _⟩; rw [h]
  | cons c t ih =>
    simp only [fromRadix16Loop, asciiToHexdigit_eq, List.foldl_cons, List.mem_cons,
      forall_eq_or_imp]
    by_cases hd : IsDigit 16 c
    · simp only [hd, if_true, true_and]
      by_cases hb : a * 16 + digitVal c < u64Size
      · rw [if_pos hb]; exact ih _ hb
      · rw [if_neg hb]
        constructor
        · intro h; exact absurd h (by simp)
        · rintro ⟨_, h1, h2⟩
          have := foldl_mono t (a * 16 + digitVal c)
          omega
    · simp only [hd, if_false, false_and]
      constructor
      · intro h; exact absurd h (by simp)
      · intro h; exact h.elim

/-- **C52**: parsing succeeds exactly on strings of hexadecimal digits whose value fits 64
bits, and then yields that value.  (The empty string denotes 0.) -/
theorem C52_from_radix_16 (s : Bytes) (v : Nat) :
    fromRadix16 s = .ok v ↔ (∀ c ∈ s, IsDigit 16 c) ∧ numVal 16 s = v ∧ v < 2 ^ 64 :=
  fromRadix16Loop_ok s 0 v (by norm_num [u64Size])

/-- **C52** (failure modes): a non-digit met before the value overflows gives `None`; a
digit string whose value does not fit panics (in a build with overflow checks; release
builds wrap silently). -/
theorem C52_overflow_panics (s : Bytes) (hs : ∀ c ∈ s, IsDigit 16 c) (hv : 2 ^ 64 ≤ numVal 16 s) :
    fromRadix16 s = .error .panic := by
  have key : ∀ (s : Bytes) (a : Nat), a < u64Size → (∀ c ∈ s, IsDigit 16 c) →
      u64Size ≤ s.foldl (fun acc c => acc * 16 + digitVal c) a →
      fromRadix16Loop s a = .error .panic := by
    intro s
    induction s with
    | nil => intro a ha _ h; simp only [List.foldl_nil] at h; omega
    | cons c t ih =>
      intro a ha hd h
      simp only [fromRadix16Loop, asciiToHexdigit_eq, hd c (by simp), if_true]
      by_cases hb : a * 16 + digitVal c < u64Size
      · rw [if_pos hb]
        exact ih _ hb (fun x hx => hd x (by simp [hx])) (by simpa using h)
      · rw [if_neg hb]
  exact key s 0 (by norm_num [u64Size]) hs hv

/-- **C52**: `None` happens only for strings with a non-digit. -/
theorem C52_none_only_nondigit (s : Bytes) (h : fromRadix16 s = .error .none) :
    ∃ c ∈ s, ¬ IsDigit 16 c := by
  have key : ∀ (s : Bytes) (a : Nat), fromRadix16Loop s a = .error .none →
      ∃ c ∈ s, ¬ IsDigit 16 c := by
    intro s
    induction s with
    | nil => intro a h; simp [fromRadix16Loop] at h
    | cons c t ih =>
      intro a h
      simp only [fromRadix16Loop, asciiToHexdigit_eq] at h
      by_cases hd : IsDigit 16 c
      · simp only [hd, if_true] at h
        split at h
        · obtain ⟨x, hx, hxd⟩ := ih _ h
          exact ⟨x, by simp [hx], hxd⟩
        · simp at h
      · exact ⟨c, by simp, hd⟩
  exact key s 0 h

example : fromRadix16 [0x66, 0x46, 0x31, 0x30] = .ok 0xff10 := by decide

/-- Rounding up to a multiple of a power of two (used for note and debug-link padding). -/
theorem C11_align_up (size value k : Nat) (h : value + (2 ^ k - 1) < size) :
    ∃ r, alignUp size value (2 ^ k) = .ok r ∧ value ≤ r ∧ r < value + 2 ^ k ∧ r % 2 ^ k = 0 := by
  have hk : 0 < 2 ^ k := by positivity
  refine ⟨_, by unfold alignUp; rw [if_pos h], ?_, ?_, ?_⟩
  · have := Nat.mod_lt (value + (2 ^ k - 1)) hk; omega
  · omega
  · exact Nat.sub_mod_eq_zero_of_mod_eq (by simp)

/-- Splitting at the first matching byte drops exactly that byte. -/
theorem C11_split_bytes (bytes : Bytes) (check : UInt8 → Bool) (l r : Bytes) :
    splitBytes bytes check = some (l, r) ↔
      ∃ b, bytes = l ++ b :: r ∧ check b = true ∧ ∀ x ∈ l, check x = false := by
  unfold splitBytes
  constructor
  · intro h
    cases hp : position check bytes with
    | none => rw [hp] at h; simp at h
    | some i =>
      rw [hp] at h
      simp only [Option.some.injEq, Prod.mk.injEq, List.drop_drop] at h
      obtain ⟨a, h1, h2, h3, _⟩ := position_some hp
      refine ⟨a, ?_, h2, ?_⟩
      · rw [← h.1, ← h.2]; exact h1
      · rw [← h.1]; exact h3
  · rintro ⟨b, h1, h2, h3⟩
    rw [h1, position_append l b r h3 h2]
    simp

/-- Both splitting helpers are the same function. -/
theorem C11_split_once_eq (bytes : Bytes) (check : UInt8 → Bool) :
    splitOnce bytes check = splitBytes bytes check := by
  unfold splitOnce splitBytes
  cases position check bytes <;> simp

end Blazesym.Util
