import Verif.Kernel.Depmod
import Verif.Kernel.DepmodSpec
import Verif.Util.LayoutLemmas
import Verif.Util.ReaderLemmas
import Mathlib.Data.Nat.Bitwise

/-! Lemmas about the depmod index model. -/

set_option autoImplicit false

namespace Blazesym.Kernel.Depmod
open Blazesym.Util Blazesym.Spec Blazesym.Spec.Depmod

theorem bit_iff (n i : Nat) : n &&& 2 ^ i ≠ 0 ↔ n / 2 ^ i % 2 = 1 := by
  rw [Nat.and_two_pow]
  have h : n.testBit i = decide (n / 2 ^ i % 2 = 1) := by
    rw [Nat.testBit_eq_decide_div_mod_eq]
  rw [h]
  have : 0 < 2 ^ i := Nat.two_pow_pos i
  by_cases hb : n / 2 ^ i % 2 = 1
  · simp [hb]
  · simp [hb]

theorem kids_iff (n : Nat) : n &&& INDEX_NODE_CHILDS ≠ 0 ↔ HasKids n := bit_iff n 29
theorem values_iff (n : Nat) : n &&& INDEX_NODE_VALUES ≠ 0 ↔ HasValues n := bit_iff n 30
theorem prefix_iff (n : Nat) : n &&& INDEX_NODE_PREFIX ≠ 0 ↔ HasPrefix n := bit_iff n 31
theorem mask_eq (n : Nat) : n &&& INDEX_NODE_MASK = n % 2 ^ 28 := Nat.and_two_pow_sub_one_eq_mod n 28

theorem be_len {d : Bytes} {p v : Nat} (h : Be d p v) : p + 4 ≤ d.length := by
  obtain ⟨a, b, c, e, ⟨pre, post, rfl, hp, _⟩, _⟩ := h
  simp; omega

theorem be_unique {d : Bytes} {p v w : Nat} (h : Be d p v) (h' : Be d p w) : v = w := by
  obtain ⟨a, b, c, e, h1, rfl⟩ := h
  obtain ⟨a', b', c', e', h2, rfl⟩ := h'
  rw [isSlice_iff] at h1 h2
  have := h1.2.trans h2.2.symm
  simp at this
  obtain ⟨rfl, rfl, rfl, rfl⟩ := this
  rfl

theorem need_u32 (d : Bytes) (p : Nat) :
    (∃ x, need readU32 (d.drop p) = .ok (x, d.drop (p + 4)) ∧ Be d p (fromBe x)) ∨
    (need readU32 (d.drop p) = .error .invalidData ∧ d.length < p + 4) := by
  by_cases h : 4 ≤ (d.drop p).length
  · left
    obtain ⟨a, b, c, e, hs⟩ : ∃ a b c e, (d.drop p).take 4 = [a, b, c, e] := by
      have hl : ((d.drop p).take 4).length = 4 := by simp at h ⊢; omega
      match h' : (d.drop p).take 4, hl with
      | [a, b, c, e], _ => exact ⟨a, b, c, e, rfl⟩
    refine ⟨leValue ((d.drop p).take 4), ?_, ?_⟩
    · unfold need readU32
      rw [readUint_ok (c := ⟨0, d.drop p⟩) h]
      simp only [List.drop_drop]
    · refine ⟨a, b, c, e, ?_, ?_⟩
      · rw [isSlice_iff]
        rw [List.length_drop] at h
        exact ⟨by omega, hs.symm⟩
      · rw [hs]
        simp only [leValue, fromBe]
        have := a.toNat_lt; have := b.toNat_lt; have := c.toNat_lt; have := e.toNat_lt
        omega
  · right
    refine ⟨?_, ?_⟩
    · unfold need readU32
      rw [readUint_none (c := ⟨0, d.drop p⟩) (by simpa using h)]
    · simp at h; omega

theorem need_u8 (d : Bytes) (p : Nat) :
    (∃ b, d[p]? = some b ∧ need readU8 (d.drop p) = .ok (b.toNat, d.drop (p + 1))) ∨
    (d[p]? = none ∧ need readU8 (d.drop p) = .error .invalidData) := by
  cases hd : d.drop p with
  | nil =>
    right
    refine ⟨by simpa using hd, ?_⟩
    unfold need readU8
    rw [readUint_none (by simp)]
  | cons b t =>
    left
    have h1 : d[p]? = some b := by
      have := congrArg (fun l => l[0]?) hd
      simpa using this
    refine ⟨b, h1, ?_⟩
    unfold need readU8
    rw [readUint_ok (by simp)]
    have h2 : d.drop (p + 1) = t := by
      rw [← List.drop_drop, hd]; rfl
    simp [leValue, h2]

theorem need_advance (d : Bytes) (p n : Nat) (hp : p ≤ d.length) :
    (p + n ≤ d.length ∧ need (advance n) (d.drop p) = .ok ((), d.drop (p + n))) ∨
    (d.length < p + n ∧ need (advance n) (d.drop p) = .error .invalidData) := by
  by_cases h : n ≤ (d.drop p).length
  · left
    refine ⟨by simp at h; omega, ?_⟩
    unfold need
    rw [advance_ok (c := ⟨0, d.drop p⟩) h]
    simp only [List.drop_drop]
  · right
    refine ⟨by simp at h; omega, ?_⟩
    unfold need
    rw [advance_none (c := ⟨0, d.drop p⟩) (by simpa using h)]

theorem nameAt_unique {d : Bytes} {p : Nat} {s s' : Bytes} (h : NameAt d p s) (h' : NameAt d p s') : s = s' := by
  obtain ⟨r, h1, h2⟩ := h
  obtain ⟨r', h1', h2'⟩ := h'
  rw [h1] at h1'
  clear h1
  induction s generalizing s' with
  | nil =>
    cases s' with
    | nil => rfl
    | cons b t =>
      simp at h1'
      exact absurd h1'.1.symm (h2' b (by simp))
  | cons a t ih =>
    cases s' with
    | nil =>
      simp at h1'
      exact absurd h1'.1 (h2 a (by simp))
    | cons b t' =>
      simp only [List.cons_append, List.cons.injEq] at h1'
      rw [h1'.1, ih (fun x hx => h2 x (by simp [hx])) h1'.2 (fun x hx => h2' x (by simp [hx]))]

theorem need_cstr (d : Bytes) (p : Nat) (hp : p ≤ d.length) :
    (∃ s, NameAt d p s ∧ p + s.length + 1 ≤ d.length ∧
      need readCstr (d.drop p) = .ok (s, d.drop (p + s.length + 1))) ∨
    ((∀ s, ¬ NameAt d p s) ∧ need readCstr (d.drop p) = .error .invalidData) := by
  unfold need readCstr
  simp only
  cases hpos : position (fun b : UInt8 => b == 0) (d.drop p) with
  | none =>
    right
    refine ⟨?_, rfl⟩
    rintro s ⟨r, h1, _⟩
    rw [position_none] at hpos
    have := hpos 0 (by rw [h1]; simp)
    simp at this
  | some idx =>
    left
    obtain ⟨a, h1, h2, h3, h4⟩ := position_some hpos
    have ha : a = 0 := by simpa using h2
    subst ha
    have hl : ((d.drop p).take idx).length = idx := by
      rw [List.length_take]; omega
    rw [List.length_drop] at h4
    refine ⟨(d.drop p).take idx, ⟨(d.drop p).drop (idx + 1), h1, ?_⟩, by rw [hl]; omega, ?_⟩
    · intro b hb
      simpa using h3 b hb
    · simp only
      rw [readSlice_ok (by simp only [List.length_drop]; omega)]
      simp only [List.take_take, List.drop_drop, hl]
      rw [Nat.min_eq_left (by omega)]
      rfl

theorem need_panic {α : Type} {m : Rd α} {r : Bytes} (h : (m ⟨0, r⟩).1 ≠ .error .panic) :
    need m r ≠ .error .panic := by
  unfold need
  intro hc
  split at hc
  · simp at hc
  · simp at hc
  · rename_i c heq
    rw [heq] at h
    exact h rfl

theorem node_unique {d : Bytes} {ref : Nat} {pre pre' : Bytes} {n n' : Nat} (h : Node d ref pre n)
    (h' : Node d ref pre' n') : pre = pre' ∧ n = n' := by
  obtain ⟨_, ⟨h1, h2, rfl⟩ | ⟨h1, rfl, rfl⟩⟩ := h
  · obtain ⟨_, ⟨_, h2', rfl⟩ | ⟨h1', _⟩⟩ := h'
    · have := nameAt_unique h2 h2'
      subst this
      exact ⟨rfl, rfl⟩
    · exact absurd h1 h1'
  · obtain ⟨_, ⟨h1', _⟩ | ⟨_, rfl, rfl⟩⟩ := h'
    · exact absurd h1' h1
    · exact ⟨rfl, rfl⟩

theorem node_len {d : Bytes} {ref : Nat} {pre : Bytes} {n : Nat} (h : Node d ref pre n) : n ≤ d.length := by
  obtain ⟨h0, ⟨h1, ⟨r, h2, _⟩, rfl⟩ | ⟨h1, rfl, rfl⟩⟩ := h
  · have := congrArg List.length h2
    simp at this
    omega
  · exact h0

theorem dropPrefix_node {d : Bytes} {ref : Nat} {pre : Bytes} {next : Nat} (h : Node d ref pre next) (name : Bytes) :
    (∀ rest, name = pre ++ rest → dropPrefix ref name (d.drop (ref % 2 ^ 28)) = .ok (some (rest, d.drop next))) ∧
    (¬ pre <+: name → dropPrefix ref name (d.drop (ref % 2 ^ 28)) = .ok none) := by
  obtain ⟨h0, ⟨h1, h2, rfl⟩ | ⟨h1, rfl, rfl⟩⟩ := h
  · unfold dropPrefix
    rw [if_pos ((prefix_iff ref).mpr h1)]
    rcases need_cstr d _ h0 with ⟨s, h3, _, h4⟩ | ⟨h3, _⟩
    · have := nameAt_unique h2 h3
      subst this
      rw [h4]
      simp only
      refine ⟨?_, ?_⟩
      · rintro rest rfl
        rw [if_pos (by simp)]
        simp
      · intro hn
        rw [if_neg (by simpa using hn)]
    · exact absurd h2 (h3 _)
  · unfold dropPrefix
    have : ¬ (ref &&& INDEX_NODE_PREFIX ≠ 0) := fun hc => h1 ((prefix_iff ref).mp hc)
    rw [if_neg this]
    refine ⟨?_, ?_⟩
    · rintro rest rfl; rfl
    · intro hn; exact absurd (List.nil_prefix) hn

theorem no_node {d : Bytes} {ref : Nat} (h : ∀ pre next, ¬ Node d ref pre next) (name : Bytes) :
    d.length < ref % 2 ^ 28 ∨ dropPrefix ref name (d.drop (ref % 2 ^ 28)) = .error .invalidData := by
  by_cases h0 : ref % 2 ^ 28 ≤ d.length
  · right
    by_cases h1 : HasPrefix ref
    · unfold dropPrefix
      rw [if_pos ((prefix_iff ref).mpr h1)]
      rcases need_cstr d _ h0 with ⟨s, h3, _, h4⟩ | ⟨h3, h4⟩
      · exact absurd ⟨h0, .inl ⟨h1, h3, rfl⟩⟩ (h s _)
      · rw [h4]
    · exact absurd ⟨h0, .inr ⟨h1, rfl, rfl⟩⟩ (h [] _)
  · left; omega

/-! ### The steps of the search -/

section
variable {d : Bytes} {ref : Nat} {pre : Bytes} {next : Nat} (fuel : Nat)

theorem visit_no_node (h : ∀ pre next, ¬ Node d ref pre next) (name : Bytes) :
    visit d (fuel + 1) ref name = .error .invalidData := by
  rw [visit, mask_eq]
  rcases no_node h name with h' | h'
  · rw [if_pos h']
  · by_cases hl : ref % 2 ^ 28 > d.length
    · rw [if_pos hl]
    · rw [if_neg hl, h']

theorem visit_mismatch (h : Node d ref pre next) {name : Bytes} (hn : ¬ pre <+: name) :
    visit d (fuel + 1) ref name = .ok none := by
  rw [visit, mask_eq, if_neg (by have := h.1; omega), (dropPrefix_node h name).2 hn]

theorem visit_leaf (h : Node d ref pre next) (hk : ¬ HasKids ref) :
    visit d (fuel + 1) ref pre = values ref (d.drop next) := by
  have hk' : ¬ (ref &&& INDEX_NODE_CHILDS ≠ 0) := fun hc => hk ((kids_iff ref).mp hc)
  rw [visit, mask_eq, if_neg (by have := h.1; omega), (dropPrefix_node h pre).1 [] (by simp)]
  simp only
  rw [if_neg hk']

theorem visit_leaf_more (h : Node d ref pre next) (hk : ¬ HasKids ref) (c : UInt8) (rest : Bytes) :
    visit d (fuel + 1) ref (pre ++ c :: rest) = .ok none := by
  have hk' : ¬ (ref &&& INDEX_NODE_CHILDS ≠ 0) := fun hc => hk ((kids_iff ref).mp hc)
  rw [visit, mask_eq, if_neg (by have := h.1; omega), (dropPrefix_node h _).1 _ rfl]
  simp only
  rw [if_neg hk']

theorem visit_kids_short (h : Node d ref pre next) (hk : HasKids ref)
    (hs : d[next]? = none ∨ d[next + 1]? = none) (rest : Bytes) :
    visit d (fuel + 1) ref (pre ++ rest) = .error .invalidData := by
  rw [visit, mask_eq, if_neg (by have := h.1; omega), (dropPrefix_node h _).1 rest rfl]
  simp only
  rw [if_pos ((kids_iff ref).mpr hk)]
  rcases need_u8 d next with ⟨b, h1, h2⟩ | ⟨h1, h2⟩
  · rw [h2]
    simp only
    rcases need_u8 d (next + 1) with ⟨b', h3, h4⟩ | ⟨h3, h4⟩
    · rw [h1, h3] at hs; simp at hs
    · rw [h4]
  · rw [h2]

/-- A node with children whose first and last byte can be read. -/
theorem visit_kids (h : Node d ref pre next) {first last : UInt8} (hk : Kids d ref next first last) (rest : Bytes) :
    visit d (fuel + 1) ref (pre ++ rest) =
      match rest with
      | cur :: name =>
        if cur.toNat < first.toNat ∨ cur.toNat > last.toNat then .ok none
        else
          match need (advance (4 * (cur.toNat - first.toNat))) (d.drop (next + 2)) with
          | .error e => .error e
          | .ok ((), reader) =>
            match need readU32 reader with
            | .error e => .error e
            | .ok (offset, _) => visit d fuel (fromBe offset) name
      | [] =>
        if last.toNat < first.toNat then .error .panic
        else if last.toNat - first.toNat + 1 ≥ 256 then .error .panic
        else
          match need (advance (4 * (last.toNat - first.toNat + 1))) (d.drop (next + 2)) with
          | .error e => .error e
          | .ok ((), reader) => values ref reader := by
  rw [visit, mask_eq, if_neg (by have := h.1; omega), (dropPrefix_node h _).1 rest rfl]
  simp only
  rw [if_pos ((kids_iff ref).mpr hk.1)]
  rcases need_u8 d next with ⟨b, h1, h2⟩ | ⟨h1, h2⟩
  · rw [h2]
    simp only
    rcases need_u8 d (next + 1) with ⟨b', h3, h4⟩ | ⟨h3, h4⟩
    · have e1 : b = first := by rw [hk.2.1] at h1; simpa using h1.symm
      have e2 : b' = last := by rw [hk.2.2] at h3; simpa using h3.symm
      subst e1 e2
      rw [h4]
      rfl
    · rw [hk.2.2] at h3; simp at h3
  · rw [hk.2.1] at h1; simp at h1

theorem kids_len {first last : UInt8} (hk : Kids d ref next first last) : next + 2 ≤ d.length := by
  have := (List.getElem?_eq_some_iff.mp hk.2.2).1
  omega

theorem visit_out_of_range (h : Node d ref pre next) {first last c : UInt8} (hk : Kids d ref next first last)
    (hc : ¬ (first ≤ c ∧ c ≤ last)) (rest : Bytes) : visit d (fuel + 1) ref (pre ++ c :: rest) = .ok none := by
  rw [visit_kids fuel h hk]
  simp only
  rw [if_pos]
  rw [UInt8.le_iff_toNat_le, UInt8.le_iff_toNat_le] at hc
  omega

theorem visit_child (h : Node d ref pre next) {first last c : UInt8} (hk : Kids d ref next first last)
    (hc : first ≤ c ∧ c ≤ last) {r : Nat} (hr : Be d (next + 2 + 4 * (c.toNat - first.toNat)) r) (rest : Bytes) :
    visit d (fuel + 1) ref (pre ++ c :: rest) = visit d fuel r rest := by
  rw [visit_kids fuel h hk]
  simp only
  rw [UInt8.le_iff_toNat_le, UInt8.le_iff_toNat_le] at hc
  rw [if_neg (by omega)]
  have hl := be_len hr
  rcases need_advance d (next + 2) (4 * (c.toNat - first.toNat)) (kids_len hk) with ⟨_, h2⟩ | ⟨h1, _⟩
  · rw [h2]
    simp only
    rcases need_u32 d (next + 2 + 4 * (c.toNat - first.toNat)) with ⟨x, h3, h4⟩ | ⟨_, h4⟩
    · rw [h3]
      simp only
      rw [be_unique h4 hr]
    · omega
  · omega

theorem visit_child_short (h : Node d ref pre next) {first last c : UInt8} (hk : Kids d ref next first last)
    (hc : first ≤ c ∧ c ≤ last) (hr : ∀ r, ¬ Be d (next + 2 + 4 * (c.toNat - first.toNat)) r) (rest : Bytes) :
    visit d (fuel + 1) ref (pre ++ c :: rest) = .error .invalidData := by
  rw [visit_kids fuel h hk]
  simp only
  rw [UInt8.le_iff_toNat_le, UInt8.le_iff_toNat_le] at hc
  rw [if_neg (by omega)]
  rcases need_advance d (next + 2) (4 * (c.toNat - first.toNat)) (kids_len hk) with ⟨_, h2⟩ | ⟨_, h2⟩
  · rw [h2]
    simp only
    rcases need_u32 d (next + 2 + 4 * (c.toNat - first.toNat)) with ⟨x, _, h4⟩ | ⟨h3, _⟩
    · exact absurd h4 (hr _)
    · rw [h3]
  · rw [h2]

theorem visit_inner_bad (h : Node d ref pre next) {first last : UInt8} (hk : Kids d ref next first last)
    (hb : last < first ∨ last.toNat - first.toNat = 255) : visit d (fuel + 1) ref pre = .error .panic := by
  have := visit_kids fuel h hk []
  rw [List.append_nil] at this
  rw [this]
  simp only
  rw [UInt8.lt_iff_toNat_lt] at hb
  by_cases h1 : last.toNat < first.toNat
  · rw [if_pos h1]
  · rw [if_neg h1, if_pos (by omega)]

theorem visit_inner (h : Node d ref pre next) {first last : UInt8} (hk : Kids d ref next first last)
    (hb : ¬ (last < first ∨ last.toNat - first.toNat = 255)) :
    (next + 2 + 4 * (last.toNat - first.toNat + 1) ≤ d.length ∧
      visit d (fuel + 1) ref pre = values ref (d.drop (next + 2 + 4 * (last.toNat - first.toNat + 1)))) ∨
    (d.length < next + 2 + 4 * (last.toNat - first.toNat + 1) ∧
      visit d (fuel + 1) ref pre = .error .invalidData) := by
  have := visit_kids fuel h hk []
  rw [List.append_nil] at this
  rw [this]
  simp only
  rw [UInt8.lt_iff_toNat_lt] at hb
  have := first.toNat_lt; have := last.toNat_lt
  rw [if_neg (by omega), if_neg (by omega)]
  rcases need_advance d (next + 2) (4 * (last.toNat - first.toNat + 1)) (kids_len hk) with ⟨h1, h2⟩ | ⟨h1, h2⟩
  · left; refine ⟨h1, ?_⟩; rw [h2]
  · right; refine ⟨h1, ?_⟩; rw [h2]

end

/-! ### Values -/

theorem values_spec (d : Bytes) (ref v : Nat) :
    (∀ path, values ref (d.drop v) = .ok (some path) ↔ HasValues ref ∧ PathAt d v path) ∧
    (∀ e, values ref (d.drop v) = .error e → e = .invalidData) ∧
    (¬ HasValues ref ∨ Be d v 0 → values ref (d.drop v) = .ok none) := by
  unfold values
  by_cases hv : HasValues ref
  · have hv' : ¬ (ref &&& INDEX_NODE_VALUES = 0) := (values_iff ref).mpr hv
    rw [if_neg hv']
    rcases need_u32 d v with ⟨x, h1, h2⟩ | ⟨h1, h2⟩
    · rw [h1]
      simp only
      by_cases hx : fromBe x = 0
      · rw [if_pos hx]
        refine ⟨?_, by simp, fun _ => rfl⟩
        intro path
        constructor
        · intro h; simp at h
        · rintro ⟨_, n, hn, h0, _⟩
          rw [be_unique h2 hn] at hx
          exact absurd hx h0
      · rw [if_neg hx]
        have hnone : ¬ HasValues ref ∨ Be d v 0 → False := by
          rintro (h | h)
          · exact h hv
          · exact hx (be_unique h2 h)
        rcases need_advance d (v + 4) 4 (be_len h2) with ⟨h3, h4⟩ | ⟨h3, h4⟩
        · rw [h4]
          simp only
          cases hp : position (fun b : UInt8 => b == 58) (d.drop (v + 4 + 4)) with
          | none =>
            refine ⟨?_, ?_, fun h => absurd h hnone⟩
            · intro path
              simp only [reduceCtorEq, false_iff]
              rintro ⟨_, n, _, _, rest, _, h5, _⟩
              rw [position_none] at hp
              have := hp 58 (by rw [h5]; simp)
              simp at this
            · intro e he
              simpa using he.symm
          | some pos =>
            refine ⟨?_, by simp, fun h => absurd h hnone⟩
            intro path
            simp only [Except.ok.injEq, Option.some.injEq]
            constructor
            · rintro rfl
              obtain ⟨a, h5, h6, h7, h8⟩ := position_some hp
              have ha : a = 58 := by simpa using h6
              subst ha
              exact ⟨hv, _, h2, hx, _, h3, h5, fun b hb => by simpa using h7 b hb⟩
            · rintro ⟨_, n, _, _, rest, _, h5, h6⟩
              have hp' : position (fun b : UInt8 => b == 58) (d.drop (v + 8)) = some path.length := by
                rw [h5]
                exact position_append path 58 rest (by simpa using h6) (by simp)
              have : pos = path.length := by
                have := hp.symm.trans hp'
                simpa using this
              rw [this]
              show (d.drop (v + 8)).take path.length = path
              rw [h5]; simp
        · rw [h4]
          refine ⟨?_, ?_, fun h => absurd h hnone⟩
          · intro path
            simp only [reduceCtorEq, false_iff]
            rintro ⟨_, n, _, _, rest, h5, _⟩
            omega
          · intro e he
            simpa using he.symm
    · rw [h1]
      refine ⟨?_, ?_, ?_⟩
      · intro path
        simp only [reduceCtorEq, false_iff]
        rintro ⟨_, n, h3, _⟩
        have := be_len h3
        omega
      · intro e he
        simpa using he.symm
      · rintro (h | h)
        · exact absurd hv h
        · have := be_len h; omega
  · have hv' : ref &&& INDEX_NODE_VALUES = 0 := by
      by_contra hc
      exact hv ((values_iff ref).mp hc)
    rw [if_pos hv']
    exact ⟨fun path => by simp [hv], by simp, fun _ => rfl⟩

/-! ### Following a name -/

theorem leads_node {d : Bytes} {ref : Nat} {name : Bytes} {r n : Nat} (h : Leads d ref name r n) :
    ∃ pre next, Node d ref pre next := by
  cases h with
  | here _ _ _ h => exact ⟨_, _, h⟩
  | child _ _ _ _ _ _ _ _ _ _ h => exact ⟨_, _, h⟩

theorem leads_iff {d : Bytes} {ref : Nat} {pre : Bytes} {next : Nat} (h : Node d ref pre next) (name : Bytes) (r n : Nat) :
    Leads d ref name r n ↔ (name = pre ∧ r = ref ∧ n = next) ∨
      ∃ (first last c : UInt8) (ref' : Nat) (rest : Bytes), name = pre ++ c :: rest ∧ Kids d ref next first last ∧
        (first ≤ c ∧ c ≤ last) ∧ Be d (next + 2 + 4 * (c.toNat - first.toNat)) ref' ∧ Leads d ref' rest r n := by
  constructor
  · intro hl
    cases hl with
    | here _ _ _ h' =>
      obtain ⟨rfl, rfl⟩ := node_unique h h'
      exact .inl ⟨rfl, rfl, rfl⟩
    | child _ _ _ first last c ref' rest _ _ h' hk hc hr hl =>
      obtain ⟨rfl, rfl⟩ := node_unique h h'
      exact .inr ⟨first, last, c, ref', rest, rfl, hk, hc, hr, hl⟩
  · rintro (⟨rfl, rfl, rfl⟩ | ⟨first, last, c, ref', rest, rfl, hk, hc, hr, hl⟩)
    · exact .here _ _ _ h
    · exact .child _ _ _ first last c ref' rest _ _ h hk hc hr hl

theorem kids_unique {d : Bytes} {ref next : Nat} {f l f' l' : UInt8} (h : Kids d ref next f l)
    (h' : Kids d ref next f' l') : f = f' ∧ l = l' := by
  obtain ⟨_, h1, h2⟩ := h
  obtain ⟨_, h1', h2'⟩ := h'
  rw [h1] at h1'; rw [h2] at h2'
  exact ⟨by simpa using h1', by simpa using h2'⟩

end Blazesym.Kernel.Depmod
