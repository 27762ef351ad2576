import Verif.Util.Search

/-! Contracts of the standard library searches and of the helpers built on them. -/

set_option autoImplicit false

namespace Blazesym.Util

universe u v w

theorem bisect_range (cmp : Nat → Ordering) (base size : Nat) (h : 0 < size) :
    base ≤ bisect cmp base size ∧ bisect cmp base size < base + size := by
  induction size using Nat.strongRecOn generalizing base with
  | _ size ih =>
    unfold bisect
    split
    · omega
    · rename_i hs
      have h1 : size - size / 2 < size := by omega
      have h2 : 0 < size - size / 2 := by omega
      have := ih _ h1 (if cmp (base + size / 2) = .gt then base else base + size / 2) h2
      simp only
      split <;> rename_i hc <;> simp only [hc, if_true, if_false] at this <;> omega

/-- Everything after the answer is `gt`, provided `cmp` is monotone on the range. -/
theorem bisect_spec (cmp : Nat → Ordering) (lo hi base size : Nat)
    (hb : lo ≤ base) (hbh : base + size ≤ hi)
    (hgt : ∀ i j, lo ≤ i → i ≤ j → j < hi → cmp i = .gt → cmp j = .gt)
    (hpost : ∀ i, base + size ≤ i → i < hi → cmp i = .gt)
    (hpre : base = lo ∨ cmp base ≠ .gt)
    (h : 0 < size) :
    (∀ i, bisect cmp base size < i → i < hi → cmp i = .gt) ∧
    (bisect cmp base size = lo ∨ cmp (bisect cmp base size) ≠ .gt) := by
  induction size using Nat.strongRecOn generalizing base with
  | _ size ih =>
    unfold bisect
    split
    · exact ⟨fun i h1 h2 => hpost i (by omega) h2, hpre⟩
    · rename_i hs
      have h1 : size - size / 2 < size := by omega
      have h2 : 0 < size - size / 2 := by omega
      simp only
      split
      · rename_i hc
        refine ih _ h1 base hb (by omega) ?_ hpre h2
        intro i hi1 hi2
        by_cases hle : base + size ≤ i
        · exact hpost i hle hi2
        · exact hgt (base + size / 2) i (by omega) (by omega) hi2 hc
      · rename_i hc
        refine ih _ h1 _ (by omega) (by omega) ?_ (Or.inr hc) h2
        intro i hi1 hi2
        exact hpost i (by omega) hi2

/-- Sortedness of a list under a three-way comparison with a target: `lt`s, then `eq`s,
then `gt`s. -/
def CmpSorted {α : Type u} (l : List α) (cmp : α → Ordering) : Prop :=
  l.Pairwise (fun a b => (cmp a = .gt → cmp b = .gt) ∧ (cmp b = .lt → cmp a = .lt))

/-- The documented contract of `slice::binary_search_by`. -/
theorem binarySearchBy_contract {α : Type u} (l : List α) (cmp : α → Ordering)
    (hs : CmpSorted l cmp) :
    match binarySearchBy l cmp with
    | .inl i => ∃ e, l[i]? = some e ∧ cmp e = .eq
    | .inr i => i ≤ l.length ∧ (∀ j e, j < i → l[j]? = some e → cmp e = .lt) ∧
        (∀ j e, i ≤ j → l[j]? = some e → cmp e = .gt) := by
  cases l with
  | nil => simp [binarySearchBy]
  | cons a t =>
    generalize hl : a :: t = l at *
    have hpos : 0 < l.length := by rw [← hl]; simp
    have hdef : binarySearchBy l cmp =
      (match cmpAt l cmp (bisect (cmpAt l cmp) 0 l.length) with
      | .eq => Sum.inl (bisect (cmpAt l cmp) 0 l.length)
      | .lt => .inr (bisect (cmpAt l cmp) 0 l.length + 1)
      | .gt => .inr (bisect (cmpAt l cmp) 0 l.length)) := by
      rw [← hl]; rfl
    rw [hdef]
    have hat' : ∀ i e, l[i]? = some e → cmpAt l cmp i = cmp e := by
      intro i e h; simp [cmpAt, h]
    generalize cmpAt l cmp = at' at *
    have hpw := List.pairwise_iff_getElem.mp hs
    have hmono : ∀ i j, 0 ≤ i → i ≤ j → j < l.length → at' i = .gt → at' j = .gt := by
      intro i j _ hij hj hi
      have hil : i < l.length := by omega
      rw [hat' i l[i] (by simp [hil])] at hi
      rw [hat' j l[j] (by simp [hj])]
      rcases Nat.lt_or_ge i j with h | h
      · exact (hpw i j hil hj h).1 hi
      · have : i = j := by omega
        subst this; exact hi
    have hr := bisect_range at' 0 l.length hpos
    have hsp := bisect_spec at' 0 l.length 0 l.length (by omega) (by omega) hmono
      (by intro i h1 h2; omega) (Or.inl rfl) hpos
    generalize bisect at' 0 l.length = b at *
    have hbl : b < l.length := by omega
    have hbe : at' b = cmp l[b] := hat' b _ (by simp [hbl])
    cases hc : at' b with
    | eq =>
      exact ⟨l[b], by simp [hbl], by rw [← hbe, hc]⟩
    | lt =>
      refine ⟨by omega, ?_, ?_⟩
      · intro j e hj he
        have hjl : j < l.length := by omega
        have : e = l[j] := by rw [List.getElem?_eq_getElem hjl] at he; exact (Option.some.inj he).symm
        subst this
        rcases Nat.lt_or_ge j b with h | h
        · exact (hpw j b hjl hbl h).2 (by rw [← hbe, hc])
        · have : j = b := by omega
          subst this; rw [← hbe, hc]
      · intro j e hj he
        have hjl : j < l.length := (List.getElem?_eq_some_iff.mp he).1
        rw [← hat' j e he]
        exact hsp.1 j (by omega) hjl
    | gt =>
      have hb0 : b = 0 := by
        rcases hsp.2 with h | h
        · exact h
        · exact absurd hc h
      subst hb0
      refine ⟨by omega, by intro j e hj; omega, ?_⟩
      intro j e hj he
      have hjl : j < l.length := (List.getElem?_eq_some_iff.mp he).1
      rw [← hat' j e he]
      exact hmono 0 j (by omega) (by omega) hjl hc

/-- `partition_point` on a partitioned slice is the length of the satisfying prefix. -/
theorem partitionPoint_eq {α : Type u} (l : List α) (p : α → Bool)
    (hs : l.Pairwise (fun a b => p b = true → p a = true)) :
    partitionPoint l p = (l.takeWhile p).length := by
  have hcs : CmpSorted l (fun e => if p e then Ordering.lt else .gt) := by
    refine hs.imp ?_
    intro a b h
    by_cases ha : p a = true <;> by_cases hb : p b = true <;> simp_all
  have hc := binarySearchBy_contract l _ hcs
  unfold partitionPoint
  generalize binarySearchBy l (fun e => if p e then Ordering.lt else .gt) = r at hc
  cases r with
  | inl i =>
    obtain ⟨e, _, he⟩ := hc
    exfalso
    by_cases h : p e = true <;> simp_all
  | inr i =>
    simp only at hc ⊢
    obtain ⟨hle, hlt, hgt⟩ := hc
    have hlt' : ∀ j e, j < i → l[j]? = some e → p e = true := by
      intro j e hj he
      have := hlt j e hj he
      by_cases h : p e = true <;> simp_all
    have hgt' : ∀ j e, i ≤ j → l[j]? = some e → p e = false := by
      intro j e hj he
      have := hgt j e hj he
      by_cases h : p e = true <;> simp_all
    clear hlt hgt hcs hs
    induction l generalizing i with
    | nil => simp at hle; simp [hle]
    | cons a t ih =>
      cases i with
      | zero =>
        have := hgt' 0 a (by omega) (by simp)
        simp [this]
      | succ i =>
        have h0 := hlt' 0 a (by omega) (by simp)
        simp only [List.takeWhile_cons, h0, if_true, List.length_cons]
        rw [ih i (by simpa using hle)]
        · intro j e hj he; exact hlt' (j + 1) e (by omega) (by simpa using he)
        · intro j e hj he; exact hgt' (j + 1) e (by omega) (by simpa using he)

/-- List facts about the satisfying prefix. -/
theorem takeWhile_getElem {α : Type u} (l : List α) (p : α → Bool) (j : Nat) (e : α)
    (hj : j < (l.takeWhile p).length) (he : l[j]? = some e) : p e = true := by
  induction l generalizing j with
  | nil => simp at hj
  | cons a t ih =>
    by_cases ha : p a = true
    · cases j with
      | zero => simp at he; rw [← he]; exact ha
      | succ j =>
        simp only [List.takeWhile_cons, ha, if_true, List.length_cons] at hj
        exact ih j (by omega) (by simpa using he)
    · simp [ha] at hj

theorem takeWhile_boundary {α : Type u} (l : List α) (p : α → Bool) (e : α)
    (he : l[(l.takeWhile p).length]? = some e) : p e = false := by
  induction l with
  | nil => simp at he
  | cons a t ih =>
    by_cases ha : p a = true
    · simp only [List.takeWhile_cons, ha, if_true, List.length_cons,
        List.getElem?_cons_succ] at he
      exact ih he
    · simp [ha] at he
      rw [← he]; simpa using ha

theorem takeWhile_length_le {α : Type u} (l : List α) (p : α → Bool) :
    (l.takeWhile p).length ≤ l.length := by
  induction l with
  | nil => simp
  | cons a t ih => by_cases ha : p a = true <;> simp [ha, ih]

theorem partitionPoint_lt {α : Type u} (l : List α) (p : α → Bool)
    (hs : l.Pairwise (fun a b => p b = true → p a = true)) (j : Nat) (e : α)
    (hj : j < partitionPoint l p) (he : l[j]? = some e) : p e = true := by
  rw [partitionPoint_eq l p hs] at hj
  exact takeWhile_getElem l p j e hj he

theorem partitionPoint_ge {α : Type u} (l : List α) (p : α → Bool)
    (hs : l.Pairwise (fun a b => p b = true → p a = true)) (j : Nat) (e : α)
    (hj : partitionPoint l p ≤ j) (he : l[j]? = some e) : p e = false := by
  rw [partitionPoint_eq l p hs] at hj
  have hjl : j < l.length := (List.getElem?_eq_some_iff.mp he).1
  have hej : e = l[j] := by
    rw [List.getElem?_eq_getElem hjl] at he; exact (Option.some.inj he).symm
  have hkl : (l.takeWhile p).length < l.length := by omega
  have hb := takeWhile_boundary l p _ (List.getElem?_eq_getElem hkl)
  rcases Nat.lt_or_ge (l.takeWhile p).length j with h | h
  · have := (List.pairwise_iff_getElem.mp hs) _ j hkl hjl h
    cases hpe : p e with
    | false => rfl
    | true => rw [hej] at hpe; rw [this hpe] at hb; exact absurd hb (by simp)
  · have heq : j = (l.takeWhile p).length := by omega
    subst heq; rw [hej]; exact hb

theorem partitionPoint_le_length {α : Type u} (l : List α) (p : α → Bool)
    (hs : l.Pairwise (fun a b => p b = true → p a = true)) :
    partitionPoint l p ≤ l.length := by
  rw [partitionPoint_eq l p hs]; exact takeWhile_length_le l p

theorem scanBack_spec {α : Type u} {κ : Type v} [LinearOrder κ] (l : List α) (f : α → κ)
    (c : κ) (n : Nat) (hn : n ≤ l.length) :
    (scanBack l f c n = none ∧ ∀ j e, j < n → l[j]? = some e → f e = c) ∨
    (∃ i e, scanBack l f c n = some (some (i + 1)) ∧ i < n ∧ l[i]? = some e ∧ f e ≠ c ∧
      ∀ j e, i < j → j < n → l[j]? = some e → f e = c) := by
  induction n with
  | zero => left; exact ⟨rfl, by intro j e h; omega⟩
  | succ n ih =>
    have hlt : n < l.length := by omega
    have hget : l[n]? = some l[n] := List.getElem?_eq_getElem hlt
    by_cases hc : f l[n] = c
    · have hstep : scanBack l f c (n + 1) = scanBack l f c n := by
        simp [scanBack, hlt, hc]
      rcases ih (by omega) with ⟨h1, h2⟩ | ⟨i, e, h1, h2, h3, h4, h5⟩
      · left
        refine ⟨by rw [hstep, h1], ?_⟩
        intro j e hj he
        rcases Nat.lt_or_ge j n with h | h
        · exact h2 j e h he
        · have : j = n := by omega
          subst this; rw [hget] at he; rw [← Option.some.inj he]; exact hc
      · right
        refine ⟨i, e, by rw [hstep, h1], by omega, h3, h4, ?_⟩
        intro j e hij hj he
        rcases Nat.lt_or_ge j n with h | h
        · exact h5 j e hij h he
        · have : j = n := by omega
          subst this; rw [hget] at he; rw [← Option.some.inj he]; exact hc
    · right
      refine ⟨n, l[n], by simp [scanBack, hlt, hc], by omega, hget, hc, ?_⟩
      intro j e h1 h2; omega

end Blazesym.Util
