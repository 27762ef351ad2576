import Verif.Breakpad.Parser
import Verif.Breakpad.Spec
import Mathlib.Tactic.Ring

/-! Lemmas about the Breakpad parser: what each record parser accepts. -/

set_option autoImplicit false

namespace Blazesym.Breakpad
open Blazesym.Util Blazesym.Spec Blazesym.Spec.Breakpad

variable {α β : Type}

/-! ### Combinators -/

theorem nom_bind_ok {p : Nom α} {f : α → Nom β} {i r : Bytes} {b : β} :
    (p >>= f) i = .ok (r, b) ↔ ∃ m a, p i = .ok (m, a) ∧ f a m = .ok (r, b) := by
  change Nom.bind p f i = _ ↔ _
  unfold Nom.bind
  cases h : p i with
  | error e => simp
  | ok x => simp only [Except.ok.injEq]; constructor
            · intro h; exact ⟨x.1, x.2, rfl, h⟩
            · rintro ⟨m, a, rfl, hh⟩; exact hh

theorem nom_pure_ok {a b : α} {i r : Bytes} : (pure a : Nom α) i = .ok (r, b) ↔ r = i ∧ b = a := by
  change Except.ok (i, a) = Except.ok (r, b) ↔ _
  simp only [Except.ok.injEq, Prod.mk.injEq, eq_comm]

theorem cut_ok {p : Nom α} {i : Bytes} {x : Bytes × α} : cut p i = .ok x ↔ p i = .ok x := by
  unfold cut
  cases p i <;> simp

theorem cut_error {p : Nom α} {i : Bytes} {e : NErr} (h : cut p i = .error e) : ∃ t, e = .failure t := by
  unfold cut at h
  cases hp : p i <;> rw [hp] at h <;> simp at h
  exact ⟨_, h.symm⟩

theorem terminated_ok {p : Nom α} {q : Nom β} {i r : Bytes} {a : α} :
    terminated p q i = .ok (r, a) ↔ ∃ m, p i = .ok (m, a) ∧ ∃ b, q m = .ok (r, b) := by
  unfold terminated
  rw [nom_bind_ok]
  constructor
  · rintro ⟨m, a', h1, h2⟩
    rw [nom_bind_ok] at h2
    obtain ⟨m', b, h3, h4⟩ := h2
    rw [nom_pure_ok] at h4
    obtain ⟨rfl, rfl⟩ := h4
    exact ⟨m, h1, b, h3⟩
  · rintro ⟨m, h1, b, h2⟩
    refine ⟨m, a, h1, ?_⟩
    rw [nom_bind_ok]
    exact ⟨r, b, h2, by rw [nom_pure_ok]; exact ⟨rfl, rfl⟩⟩

theorem mapTo_ok {p : Nom α} {f : α → β} {i r : Bytes} {b : β} :
    mapTo p f i = .ok (r, b) ↔ ∃ a, p i = .ok (r, a) ∧ b = f a := by
  unfold mapTo
  rw [nom_bind_ok]
  constructor
  · rintro ⟨m, a, h1, h2⟩
    rw [nom_pure_ok] at h2
    obtain ⟨rfl, rfl⟩ := h2
    exact ⟨a, h1, rfl⟩
  · rintro ⟨a, h1, rfl⟩
    exact ⟨r, a, h1, by rw [nom_pure_ok]; exact ⟨rfl, rfl⟩⟩

theorem tag_ok {t i r : Bytes} {u : Unit} : tag t i = .ok (r, u) ↔ i = t ++ r := by
  unfold tag
  split
  · rename_i h
    rw [List.isPrefixOf_iff_prefix] at h
    obtain ⟨s, rfl⟩ := h
    simp only [List.drop_left, Except.ok.injEq, Prod.mk.injEq, and_true]
    constructor
    · rintro rfl; rfl
    · intro h; exact List.append_cancel_left h
  · rename_i h
    rw [List.isPrefixOf_iff_prefix] at h
    simp only [reduceCtorEq, false_iff]
    rintro rfl
    exact h ⟨r, rfl⟩

theorem span_iff {p : UInt8 → Bool} {l t r : Bytes} :
    (l.dropWhile p = r ∧ l.takeWhile p = t) ↔
      l = t ++ r ∧ (∀ c ∈ t, p c = true) ∧ ∀ c, r.head? = some c → p c = false := by
  constructor
  · rintro ⟨rfl, rfl⟩
    refine ⟨(List.takeWhile_append_dropWhile).symm,
      fun c hc => List.all_eq_true.mp (List.all_takeWhile (p := p) (l := l)) c hc, ?_⟩
    intro c hc
    have := List.head?_dropWhile_not p l
    rw [hc] at this
    simpa using this
  · rintro ⟨rfl, h1, h2⟩
    induction t with
    | nil =>
      cases r with
      | nil => exact ⟨rfl, rfl⟩
      | cons c r => simp [h2 c rfl]
    | cons c t ih =>
      have := ih (fun x hx => h1 x (by simp [hx]))
      simp [h1 c (by simp), this.1, this.2]

theorem takeWhile_ok {p : UInt8 → Bool} {i r t : Bytes} :
    takeWhile p i = .ok (r, t) ↔
      i = t ++ r ∧ (∀ c ∈ t, p c = true) ∧ ∀ c, r.head? = some c → p c = false := by
  unfold takeWhile
  rw [Except.ok.injEq, Prod.mk.injEq]
  exact span_iff

theorem isBlank_iff (c : UInt8) : isBlank c = true ↔ Blank c := by
  unfold isBlank Blank; simp

theorem isBlank_false_iff (c : UInt8) : isBlank c = false ↔ ¬ Blank c := by
  rw [← isBlank_iff]; simp

/-- What blanks stop at. -/
def Stop (r : Bytes) : Prop := ∀ c, r.head? = some c → ¬ Blank c

theorem space1_ok {i r : Bytes} {u : Unit} :
    space1 i = .ok (r, u) ↔ ∃ b, i = b ++ r ∧ Blanks b ∧ Stop r := by
  unfold space1
  have hs := @span_iff isBlank i (i.takeWhile isBlank) (i.dropWhile isBlank)
  obtain ⟨h1, h2, h3⟩ := hs.mp ⟨rfl, rfl⟩
  constructor
  · intro h
    cases ht : i.takeWhile isBlank with
    | nil => rw [ht] at h; simp at h
    | cons a t =>
      rw [ht] at h
      simp only [Except.ok.injEq, Prod.mk.injEq, and_true] at h
      subst h
      refine ⟨i.takeWhile isBlank, h1, ⟨by rw [ht]; simp, fun c hc => (isBlank_iff c).mp (h2 c hc)⟩,
        fun c hc => (isBlank_false_iff c).mp (h3 c hc)⟩
  · rintro ⟨b, rfl, ⟨hb1, hb2⟩, hs⟩
    obtain ⟨g1, g2⟩ := (@span_iff isBlank (b ++ r) b r).mpr
      ⟨rfl, fun c hc => (isBlank_iff c).mpr (hb2 c hc), fun c hc => (isBlank_false_iff c).mpr (hs c hc)⟩
    rw [g1, g2]
    cases b with
    | nil => exact absurd rfl hb1
    | cons a t => rfl

theorem stop_append {x r : Bytes} (hx : x ≠ []) : Stop (x ++ r) ↔ Stop x := by
  cases x with
  | nil => exact absurd rfl hx
  | cons a t => simp [Stop]

theorem multispace0_ok {i r : Bytes} {u : Unit} :
    multispace0 i = .ok (r, u) ↔ ∃ w, i = w ++ r ∧ Ws w ∧
      ∀ c, r.head? = some c → ¬ (c = 32 ∨ c = 9 ∨ c = 13 ∨ c = 10) := by
  unfold multispace0
  have hm : ∀ c, isMultispace c = true ↔ (c = 32 ∨ c = 9 ∨ c = 13 ∨ c = 10) := by
    intro c; unfold isMultispace; simp [or_assoc]
  have hm' : ∀ c, isMultispace c = false ↔ ¬ (c = 32 ∨ c = 9 ∨ c = 13 ∨ c = 10) := by
    intro c; rw [← hm]; simp
  simp only [Except.ok.injEq, Prod.mk.injEq, and_true]
  constructor
  · rintro rfl
    obtain ⟨h1, h2, h3⟩ := (@span_iff isMultispace i (i.takeWhile isMultispace) (i.dropWhile isMultispace)).mp ⟨rfl, rfl⟩
    exact ⟨_, h1, fun c hc => (hm c).mp (h2 c hc), fun c hc => (hm' c).mp (h3 c hc)⟩
  · rintro ⟨w, h1, h2, h3⟩
    exact ((@span_iff isMultispace i w r).mpr
      ⟨h1, fun c hc => (hm c).mpr (h2 c hc), fun c hc => (hm' c).mpr (h3 c hc)⟩).1

theorem utf8_ok {p : Nom Bytes} {i r s : Bytes} :
    utf8 p i = .ok (r, s) ↔ p i = .ok (r, s) ∧ isUtf8 s = true := by
  unfold utf8
  cases p i with
  | error e => simp
  | ok x =>
    obtain ⟨x1, x2⟩ := x
    simp only
    split
    · rename_i h
      constructor
      · intro g
        refine ⟨g, ?_⟩
        simp only [Except.ok.injEq, Prod.mk.injEq] at g
        rw [← g.2]; exact h
      · exact fun g => g.1
    · rename_i h
      simp only [reduceCtorEq, false_iff, not_and]
      intro g
      simp only [Except.ok.injEq, Prod.mk.injEq] at g
      rw [← g.2]; exact h

theorem myEol_ok {i r : Bytes} {u : Unit} : myEol i = .ok (r, u) ↔ ∃ e, i = e ++ r ∧ Eol e := by
  unfold myEol
  rw [nom_bind_ok]
  constructor
  · rintro ⟨m, t, h1, h2⟩
    rw [takeWhile_ok] at h1
    rw [tag_ok] at h2
    obtain ⟨rfl, h3, h4⟩ := h1
    subst h2
    refine ⟨t ++ [10], by simp, t.length, ?_⟩
    rw [List.append_cancel_right_eq, List.eq_replicate_iff]
    exact ⟨rfl, fun c hc => by simpa using h3 c hc⟩
  · rintro ⟨e, rfl, n, rfl⟩
    refine ⟨10 :: r, List.replicate n 13, ?_, ?_⟩
    · rw [takeWhile_ok]
      refine ⟨by simp, ?_, ?_⟩
      · intro c hc; rw [List.eq_of_mem_replicate hc]; rfl
      · intro c hc; simp at hc; subst hc; rfl
    · rw [tag_ok]; rfl

/-- An end of line starts with a byte that ends the rest of the line. -/
theorem eol_head {e r : Bytes} (h : Eol e) : ∃ c t, e ++ r = c :: t ∧ (c = 13 ∨ c = 10) := by
  obtain ⟨n, rfl⟩ := h
  cases n with
  | zero => exact ⟨10, r, rfl, Or.inr rfl⟩
  | succ n => exact ⟨13, _, rfl, Or.inl rfl⟩

theorem notMyEol_ok {i r t : Bytes} : notMyEol i = .ok (r, t) ↔
    i = t ++ r ∧ Rest t ∧ ∀ c, r.head? = some c → c = 13 ∨ c = 10 := by
  unfold notMyEol
  rw [takeWhile_ok]
  have h1 : (∀ c ∈ t, (c != 13 && c != 10) = true) ↔ Rest t := by unfold Rest; simp
  have h2 : (∀ c : UInt8, r.head? = some c → (c != 13 && c != 10) = false) ↔
      ∀ c : UInt8, r.head? = some c → c = 13 ∨ c = 10 := by
    constructor
    · intro h c hc
      have := h c hc
      rw [Bool.and_eq_false_iff] at this
      simpa using this
    · intro h c hc
      rw [Bool.and_eq_false_iff]
      simpa using h c hc
  rw [h1, h2]

theorem restEol_ok {i r t : Bytes} :
    terminated notMyEol myEol i = .ok (r, t) ↔ ∃ e, i = t ++ e ++ r ∧ Rest t ∧ Eol e := by
  rw [terminated_ok]
  constructor
  · rintro ⟨m, h1, b, h2⟩
    rw [notMyEol_ok] at h1
    rw [myEol_ok] at h2
    obtain ⟨rfl, h3, _⟩ := h1
    obtain ⟨e, rfl, h4⟩ := h2
    exact ⟨e, by rw [List.append_assoc], h3, h4⟩
  · rintro ⟨e, rfl, h3, h4⟩
    refine ⟨e ++ r, ?_, (), ?_⟩
    · rw [notMyEol_ok]
      refine ⟨by rw [List.append_assoc], h3, ?_⟩
      obtain ⟨c, u, h5, h6⟩ := eol_head (r := r) h4
      intro d hd
      rw [h5] at hd
      cases hd; exact h6
    · rw [myEol_ok]; exact ⟨e, rfl, h4⟩

theorem nameField_ok {i r t : Bytes} :
    nameField i = .ok (r, t) ↔ ∃ e, i = t ++ e ++ r ∧ Rest t ∧ isUtf8 t = true ∧ Eol e := by
  unfold nameField
  rw [terminated_ok]
  constructor
  · rintro ⟨m, h1, b, h2⟩
    rw [utf8_ok] at h1
    obtain ⟨e, h3, h4, h5⟩ := restEol_ok.mp (terminated_ok.mpr ⟨m, h1.1, b, h2⟩)
    exact ⟨e, h3, h4, h1.2, h5⟩
  · rintro ⟨e, h1, h2, h3, h4⟩
    obtain ⟨m, h5, b, h6⟩ := terminated_ok.mp (restEol_ok.mpr ⟨e, h1, h2, h4⟩)
    exact ⟨m, utf8_ok.mpr ⟨h5, h3⟩, b, h6⟩

theorem keyword_ok {k i r : Bytes} {u : Unit} :
    keyword k i = .ok (r, u) ↔ ∃ b, i = k ++ b ++ r ∧ Blanks b ∧ Stop r := by
  unfold keyword
  rw [terminated_ok]
  constructor
  · rintro ⟨m, h1, b, h2⟩
    rw [tag_ok] at h1
    rw [space1_ok] at h2
    obtain ⟨b, rfl, h3⟩ := h2
    subst h1
    exact ⟨b, by rw [List.append_assoc], h3⟩
  · rintro ⟨b, rfl, h⟩
    exact ⟨b ++ r, by rw [tag_ok, List.append_assoc], (), space1_ok.mpr ⟨b, rfl, h⟩⟩

/-! ### Numbers -/

theorem toDigit_ok {radix : Nat} (hr : radix ≤ 16) {c : UInt8} {d : Nat} :
    toDigit radix c = some d ↔ IsDigit radix c ∧ digitVal c = d := by
  unfold toDigit IsDigit digitVal
  simp only
  split_ifs <;> simp only [Option.some.injEq, reduceCtorEq, false_iff] <;>
    (try split) <;> (try simp only [Option.some.injEq, reduceCtorEq, false_iff]) <;> omega

theorem toDigit_none {radix : Nat} (hr : radix ≤ 16) {c : UInt8} :
    toDigit radix c = none ↔ ¬ IsDigit radix c := by
  constructor
  · intro h hd
    rw [(toDigit_ok hr).mpr ⟨hd, rfl⟩] at h
    exact absurd h (by simp)
  · intro h
    cases hd : toDigit radix c with
    | none => rfl
    | some d => exact absurd ((toDigit_ok hr).mp hd).1 h

theorem numVal_foldl (base : Nat) (t : Bytes) (a : Nat) :
    t.foldl (fun acc c => acc * base + digitVal c) a = a * base ^ t.length + numVal base t := by
  induction t generalizing a with
  | nil => simp [numVal]
  | cons c t ih =>
    unfold numVal
    rw [List.foldl_cons, List.foldl_cons, ih, ih]
    rw [List.length_cons, Nat.pow_succ]
    ring

/-- The digit loops, in general: with `n` bytes to go they read the longest run of digits of at
most that length. -/
theorem hexLoop_eq (m : Nat) : ∀ (n : Nat) (i : Bytes) (res k : Nat), k + n ≤ m → res < 16 ^ k →
    ∃ t r, i = t ++ r ∧ t.length ≤ n ∧ (∀ c ∈ t, IsDigit 16 c) ∧
      (t.length = n ∨ ∀ c, r.head? = some c → ¬ IsDigit 16 c) ∧
      hexLoop (4 * m) n i res k = (res * 16 ^ t.length + numVal 16 t, k + t.length) := by
  intro n
  induction n with
  | zero =>
    intro i res k _ _
    exact ⟨[], i, rfl, Nat.le_refl _, by simp, Or.inl rfl, by simp [hexLoop, numVal]⟩
  | succ n ih =>
    intro i res k hk hres
    cases i with
    | nil => exact ⟨[], [], rfl, by simp, by simp, Or.inr (by simp), by simp [hexLoop, numVal]⟩
    | cons v i =>
      unfold hexLoop
      cases hd : toDigit 16 v with
      | none =>
        refine ⟨[], v :: i, rfl, by simp, by simp, Or.inr ?_, by simp [numVal]⟩
        intro c hc; simp at hc; subst hc
        exact (toDigit_none (by omega)).mp hd
      | some d =>
        obtain ⟨h1, h2⟩ := (toDigit_ok (by omega)).mp hd
        have hd16 : d < 16 := by rw [← h2]; exact h1
        have hsh : (res <<< 4) % 2 ^ (4 * m) ||| d = res * 16 + d := by
          have e1 : res <<< 4 = res * 16 := by rw [Nat.shiftLeft_eq]
          have : res * 16 < 2 ^ (4 * m) := by
            calc res * 16 < 16 ^ k * 16 := by omega
              _ = 16 ^ (k + 1) := by rw [Nat.pow_succ]
              _ ≤ 16 ^ m := Nat.pow_le_pow_right (by omega) (by omega)
              _ = 2 ^ (4 * m) := by rw [show (16 : Nat) = 2 ^ 4 from rfl, ← Nat.pow_mul]
          rw [e1, Nat.mod_eq_of_lt this, Nat.mul_comm res 16]
          exact (Nat.two_pow_add_eq_or_of_lt (i := 4) hd16 res).symm
        simp only
        rw [hsh]
        have hlt : res * 16 + d < 16 ^ (k + 1) := by rw [Nat.pow_succ]; omega
        obtain ⟨t, r, g1, g2, g3, g4, g5⟩ := ih i (res * 16 + d) (k + 1) (by omega) hlt
        refine ⟨v :: t, r, by rw [g1]; rfl, by simp; omega, ?_, ?_, ?_⟩
        · intro c hc
          rcases List.mem_cons.mp hc with rfl | hc
          · exact h1
          · exact g3 c hc
        · rcases g4 with g4 | g4
          · exact Or.inl (by simp [g4])
          · exact Or.inr g4
        · rw [g5]
          have : numVal 16 (v :: t) = d * 16 ^ t.length + numVal 16 t := by
            rw [← h2]; unfold numVal; rw [List.foldl_cons, numVal_foldl]; simp [numVal]
          rw [this, List.length_cons, Nat.pow_succ]
          congr 1
          · ring
          · omega

theorem decimalLoop_eq : ∀ (n : Nat) (i : Bytes) (res k : Nat),
    ∃ t r, i = t ++ r ∧ t.length ≤ n ∧ (∀ c ∈ t, IsDigit 10 c) ∧
      (t.length = n ∨ ∀ c, r.head? = some c → ¬ IsDigit 10 c) ∧
      decimalLoop n i res k = (res * 10 ^ t.length + numVal 10 t, k + t.length) := by
  intro n
  induction n with
  | zero =>
    intro i res k
    exact ⟨[], i, rfl, Nat.le_refl _, by simp, Or.inl rfl, by simp [decimalLoop, numVal]⟩
  | succ n ih =>
    intro i res k
    cases i with
    | nil => exact ⟨[], [], rfl, by simp, by simp, Or.inr (by simp), by simp [decimalLoop, numVal]⟩
    | cons v i =>
      unfold decimalLoop
      cases hd : toDigit 10 v with
      | none =>
        refine ⟨[], v :: i, rfl, by simp, by simp, Or.inr ?_, by simp [numVal]⟩
        intro c hc; simp at hc; subst hc
        exact (toDigit_none (by omega)).mp hd
      | some d =>
        obtain ⟨h1, h2⟩ := (toDigit_ok (by omega)).mp hd
        obtain ⟨t, r, g1, g2, g3, g4, g5⟩ := ih i (res * 10 + d) (k + 1)
        refine ⟨v :: t, r, by rw [g1]; rfl, by simp; omega, ?_, ?_, ?_⟩
        · intro c hc
          rcases List.mem_cons.mp hc with rfl | hc
          · exact h1
          · exact g3 c hc
        · rcases g4 with g4 | g4
          · exact Or.inl (by simp [g4])
          · exact Or.inr g4
        · simp only
          rw [g5]
          have : numVal 10 (v :: t) = d * 10 ^ t.length + numVal 10 t := by
            rw [← h2]; unfold numVal; rw [List.foldl_cons, numVal_foldl]; simp [numVal]
          rw [this, List.length_cons, Nat.pow_succ]
          congr 1
          · ring
          · omega

/-- Two ways to split a text into a run of digits and the rest are the same if neither run can
be longer. -/
theorem digits_unique {base n : Nat} {t r t' r' : Bytes} (h : t ++ r = t' ++ r')
    (h1 : t.length ≤ n) (h2 : ∀ c ∈ t, IsDigit base c)
    (h3 : t.length = n ∨ ∀ c, r.head? = some c → ¬ IsDigit base c)
    (h1' : t'.length ≤ n) (h2' : ∀ c ∈ t', IsDigit base c)
    (h3' : t'.length = n ∨ ∀ c, r'.head? = some c → ¬ IsDigit base c) : t = t' ∧ r = r' := by
  have key : ∀ (t r t' r' : Bytes), t ++ r = t' ++ r' → t'.length ≤ n → (∀ c ∈ t', IsDigit base c) →
      (t.length = n ∨ ∀ c, r.head? = some c → ¬ IsDigit base c) → t'.length ≤ t.length := by
    intro t r t' r' h h1' h2' h3
    by_contra hlt
    rcases h3 with h3 | h3
    · omega
    · have hpre : t <+: t' :=
        List.prefix_of_prefix_length_le (l₃ := t ++ r) ⟨r, rfl⟩ ⟨r', h.symm⟩ (by omega)
      obtain ⟨s, rfl⟩ := hpre
      rw [List.append_assoc] at h
      have hr := List.append_cancel_left h
      cases s with
      | nil => simp at hlt
      | cons c s =>
        exact h3 c (by rw [hr]; rfl) (h2' c (by simp))
  have e1 := key t r t' r' h h1' h2' h3
  have e2 := key t' r' t r h.symm h1 h2 h3'
  exact List.append_inj h (by omega)

theorem hexStr_ok {n : Nat} {i r : Bytes} {v : Nat} :
    hexStr n i = .ok (r, v) ↔ ∃ t, i = t ++ r ∧ Hex (n * 2) v t ∧
      (t.length = n * 2 ∨ ∀ c, r.head? = some c → ¬ IsDigit 16 c) := by
  obtain ⟨t, r', h1, h2, h3, h4, h5⟩ := hexLoop_eq (n * 2) (n * 2) i 0 0 (by omega) (by simp)
  have hb : 8 * n = 4 * (n * 2) := by omega
  unfold hexStr
  rw [hb, h5]
  simp only [Nat.zero_add, Nat.zero_mul]
  constructor
  · intro h
    by_cases ht : t.length = 0
    · rw [if_pos ht] at h; exact absurd h (by simp)
    · rw [if_neg ht] at h
      simp only [Except.ok.injEq, Prod.mk.injEq] at h
      obtain ⟨rfl, rfl⟩ := h
      rw [h1, List.drop_left]
      exact ⟨t, rfl, ⟨by rintro rfl; simp at ht, h2, h3, rfl⟩, h4⟩
  · rintro ⟨t', g1, ⟨g2, g3, g4, g5⟩, g6⟩
    obtain ⟨rfl, rfl⟩ := digits_unique (h1.symm.trans g1) h2 h3 h4 g3 g4 g6
    rw [if_neg (by simpa using g2), h1, List.drop_left, g5]

theorem decimalU32_ok {i r : Bytes} {v : Nat} :
    decimalU32 i = .ok (r, v) ↔ ∃ t, i = t ++ r ∧ Dec v t ∧
      (t.length = 10 ∨ ∀ c, r.head? = some c → ¬ IsDigit 10 c) := by
  obtain ⟨t, r', h1, h2, h3, h4, h5⟩ := decimalLoop_eq 10 i 0 0
  unfold decimalU32
  rw [h5]
  simp only [Nat.zero_add, Nat.zero_mul]
  have hu : u32Size = 2 ^ 32 := rfl
  constructor
  · intro h
    by_cases ht : t.length = 0
    · rw [if_pos ht] at h; exact absurd h (by simp)
    · rw [if_neg ht] at h
      by_cases hv : numVal 10 t < u32Size
      · rw [if_pos hv] at h
        simp only [Except.ok.injEq, Prod.mk.injEq] at h
        obtain ⟨rfl, rfl⟩ := h
        rw [h1, List.drop_left]
        exact ⟨t, rfl, ⟨by rintro rfl; simp at ht, h2, h3, rfl, hu ▸ hv⟩, h4⟩
      · rw [if_neg hv] at h; exact absurd h (by simp)
  · rintro ⟨t', g1, ⟨g2, g3, g4, g5, g7⟩, g6⟩
    obtain ⟨rfl, rfl⟩ := digits_unique (h1.symm.trans g1) h2 h3 h4 g3 g4 g6
    rw [if_neg (by simpa using g2), if_pos (by rw [g5, hu]; exact g7), h1, List.drop_left, g5]

theorem digit_not_blank {base : Nat} (hb : base ≤ 16) {c : UInt8} (h : IsDigit base c) : ¬ Blank c := by
  unfold IsDigit digitVal at h
  rintro (rfl | rfl) <;> revert h <;> simp <;> omega

theorem blank_not_digit {base : Nat} (hb : base ≤ 16) {c : UInt8} (h : Blank c) : ¬ IsDigit base c :=
  fun hd => digit_not_blank hb hd h

theorem eol_not_digit {base : Nat} (hb : base ≤ 16) {c : UInt8} (h : c = 13 ∨ c = 10) : ¬ IsDigit base c := by
  intro hd
  unfold IsDigit digitVal at hd
  rcases h with rfl | rfl <;> revert hd <;> simp <;> omega

theorem blanks_head {b r : Bytes} (h : Blanks b) : ∃ c t, b ++ r = c :: t ∧ Blank c := by
  obtain ⟨h1, h2⟩ := h
  cases b with
  | nil => exact absurd rfl h1
  | cons c t => exact ⟨c, t ++ r, rfl, h2 c (by simp)⟩

theorem hex_stop {n v : Nat} {t r : Bytes} (h : Hex n v t) : Stop (t ++ r) := by
  rw [stop_append h.1]
  intro c hc
  cases t with
  | nil => simp at hc
  | cons a t => simp at hc; subst hc; exact digit_not_blank (by omega) (h.2.2.1 a (by simp))

theorem dec_stop {v : Nat} {t r : Bytes} (h : Dec v t) : Stop (t ++ r) := by
  rw [stop_append h.1]
  intro c hc
  cases t with
  | nil => simp at hc
  | cons a t => simp at hc; subst hc; exact digit_not_blank (by omega) (h.2.2.1 a (by simp))

theorem hexField_ok {n : Nat} {i r : Bytes} {v : Nat} :
    terminated (hexStr n) space1 i = .ok (r, v) ↔
      ∃ t b, i = t ++ b ++ r ∧ Hex (n * 2) v t ∧ Blanks b ∧ Stop r := by
  rw [terminated_ok]
  constructor
  · rintro ⟨m, h1, u, h2⟩
    rw [hexStr_ok] at h1
    rw [space1_ok] at h2
    obtain ⟨t, rfl, h3, _⟩ := h1
    obtain ⟨b, rfl, h4, h5⟩ := h2
    exact ⟨t, b, by rw [List.append_assoc], h3, h4, h5⟩
  · rintro ⟨t, b, rfl, h3, h4, h5⟩
    refine ⟨b ++ r, ?_, (), space1_ok.mpr ⟨b, rfl, h4, h5⟩⟩
    rw [hexStr_ok]
    refine ⟨t, by rw [List.append_assoc], h3, Or.inr ?_⟩
    obtain ⟨c, u, h6, h7⟩ := blanks_head (r := r) h4
    intro d hd
    rw [h6] at hd; cases hd
    exact blank_not_digit (by omega) h7

theorem decField_ok {i r : Bytes} {v : Nat} :
    terminated decimalU32 space1 i = .ok (r, v) ↔
      ∃ t b, i = t ++ b ++ r ∧ Dec v t ∧ Blanks b ∧ Stop r := by
  rw [terminated_ok]
  constructor
  · rintro ⟨m, h1, u, h2⟩
    rw [decimalU32_ok] at h1
    rw [space1_ok] at h2
    obtain ⟨t, rfl, h3, _⟩ := h1
    obtain ⟨b, rfl, h4, h5⟩ := h2
    exact ⟨t, b, by rw [List.append_assoc], h3, h4, h5⟩
  · rintro ⟨t, b, rfl, h3, h4, h5⟩
    refine ⟨b ++ r, ?_, (), space1_ok.mpr ⟨b, rfl, h4, h5⟩⟩
    rw [decimalU32_ok]
    refine ⟨t, by rw [List.append_assoc], h3, Or.inr ?_⟩
    obtain ⟨c, u, h6, h7⟩ := blanks_head (r := r) h4
    intro d hd
    rw [h6] at hd; cases hd
    exact blank_not_digit (by omega) h7

theorem decEol_ok {i r : Bytes} {v : Nat} :
    terminated decimalU32 myEol i = .ok (r, v) ↔ ∃ t e, i = t ++ e ++ r ∧ Dec v t ∧ Eol e := by
  rw [terminated_ok]
  constructor
  · rintro ⟨m, h1, u, h2⟩
    rw [decimalU32_ok] at h1
    rw [myEol_ok] at h2
    obtain ⟨t, rfl, h3, _⟩ := h1
    obtain ⟨e, rfl, h4⟩ := h2
    exact ⟨t, e, by rw [List.append_assoc], h3, h4⟩
  · rintro ⟨t, e, rfl, h3, h4⟩
    refine ⟨e ++ r, ?_, (), myEol_ok.mpr ⟨e, rfl, h4⟩⟩
    rw [decimalU32_ok]
    refine ⟨t, by rw [List.append_assoc], h3, Or.inr ?_⟩
    obtain ⟨c, u, h6, h7⟩ := eol_head (r := r) h4
    intro d hd
    rw [h6] at hd; cases hd
    exact eol_not_digit (by omega) h7

end Blazesym.Breakpad
