import Verif.Cache.InsertMap
import Mathlib.Data.List.Nodup
import Mathlib.Data.List.Count

/-! # Lemmas about the association-list map -/

set_option autoImplicit false

namespace Blazesym.Cache.InsertMap

universe u v w

variable {K : Type u} {V : Type v} {E : Type w} [DecidableEq K]

/-- At most one pair per key. -/
def KeysNodup (m : InsertMap K V) : Prop := (m.pairs.map Prod.fst).Nodup

theorem find_mem {l : List (K × V)} {k : K} {v : V} (h : find l k = some v) : (k, v) ∈ l := by
  induction l with
  | nil => simp [find] at h
  | cons p t ih =>
    obtain ⟨k', v'⟩ := p
    simp only [find] at h
    split at h
    · simp_all
    · exact List.mem_cons_of_mem _ (ih h)

theorem find_none_iff {l : List (K × V)} {k : K} : find l k = none ↔ k ∉ l.map Prod.fst := by
  induction l with
  | nil => simp [find]
  | cons p t ih =>
    obtain ⟨k', v'⟩ := p
    simp only [find, List.map_cons, List.mem_cons, not_or]
    split
    · simp_all
    · rename_i hne
      rw [ih]
      constructor
      · intro h; exact ⟨fun e => hne e.symm, h⟩
      · intro h; exact h.2

theorem find_of_mem {l : List (K × V)} {k : K} {v : V} (hn : (l.map Prod.fst).Nodup)
    (h : (k, v) ∈ l) : find l k = some v := by
  induction l with
  | nil => simp at h
  | cons p t ih =>
    obtain ⟨k', v'⟩ := p
    simp only [List.map_cons, List.nodup_cons] at hn
    simp only [find]
    rcases List.mem_cons.1 h with h | h
    · simp_all
    · have hk : k ∈ t.map Prod.fst := List.mem_map.2 ⟨_, h, rfl⟩
      have : k' ≠ k := fun e => hn.1 (e ▸ hk)
      rw [if_neg this]
      exact ih hn.2 h

theorem find_eraseKey (l : List (K × V)) (k k' : K) :
    find (eraseKey l k) k' = if k' = k then none else find l k' := by
  induction l with
  | nil => simp [eraseKey, find]
  | cons p t ih =>
    obtain ⟨a, v⟩ := p
    simp only [eraseKey] at ih ⊢
    by_cases hak : a = k
    · subst hak
      simp only [List.filter_cons, find]
      simp only [ne_eq, not_true_eq_false, decide_false, Bool.false_eq_true, if_false, ih]
      by_cases h : k' = a
      · simp [h]
      · simp [h, Ne.symm h]
    · simp only [List.filter_cons, ne_eq, hak, not_false_eq_true, decide_true, if_true, find, ih]
      by_cases h : a = k'
      · subst h; simp [hak]
      · simp [h]

theorem find_filter {l : List (K × V)} (hn : (l.map Prod.fst).Nodup) (f : K → V → Bool) (k : K) :
    find (l.filter (fun p => f p.1 p.2)) k = (find l k).filter (f k) := by
  induction l with
  | nil => simp [find]
  | cons p t ih =>
    obtain ⟨a, v⟩ := p
    simp only [List.map_cons, List.nodup_cons] at hn
    specialize ih hn.2
    simp only [List.filter_cons, find]
    by_cases hak : a = k
    · subst hak
      simp only [if_true]
      by_cases hf : f a v
      · simp [hf, find, Option.filter]
      · have : find t a = none := find_none_iff.2 hn.1
        simp [hf, ih, this, Option.filter]
    · simp only [if_neg hak]
      by_cases hf : f a v
      · simp [hf, find, hak, ih]
      · simp [hf, ih]

theorem find_update (l : List (K × V)) (k k' : K) (g : V → V) :
    find (l.map (fun p => if p.1 = k then (p.1, g p.2) else p)) k' =
      if k' = k then (find l k').map g else find l k' := by
  induction l with
  | nil => simp [find]
  | cons p t ih =>
    obtain ⟨a, v⟩ := p
    simp only [List.map_cons]
    by_cases hak : a = k
    · subst hak
      simp only [if_true, find, ih]
      by_cases h : a = k'
      · subst h; simp
      · simp [h, Ne.symm h]
    · simp only [if_neg hak, find, ih]
      by_cases h : a = k'
      · subst h; simp [hak]
      · simp [h]

@[simp] theorem get_update (m : InsertMap K V) (k k' : K) (g : V → V) :
    (m.update k g).get k' = if k' = k then (m.get k').map g else m.get k' := find_update _ _ _ _

@[simp] theorem get_remove (m : InsertMap K V) (k k' : K) :
    (m.remove k).2.get k' = if k' = k then none else m.get k' := find_eraseKey _ _ _

theorem keys_update (m : InsertMap K V) (k : K) (g : V → V) :
    (m.update k g).pairs.map Prod.fst = m.pairs.map Prod.fst := by
  simp only [update, List.map_map]
  apply List.map_congr_left
  intro p _
  simp only [Function.comp]
  split <;> rfl

theorem keysNodup_update {m : InsertMap K V} (h : m.KeysNodup) (k : K) (g : V → V) :
    (m.update k g).KeysNodup := by
  unfold KeysNodup; rw [keys_update]; exact h

theorem keysNodup_remove {m : InsertMap K V} (h : m.KeysNodup) (k : K) :
    (m.remove k).2.KeysNodup := by
  exact List.Nodup.sublist (List.Sublist.map _ List.filter_sublist) h

theorem keysNodup_retain {m : InsertMap K V} (h : m.KeysNodup) (f : K → V → Bool) :
    (m.retain f).KeysNodup :=
  List.Nodup.sublist (List.Sublist.map _ List.filter_sublist) h

theorem keysNodup_cons {l : List (K × V)} (h : KeysNodup ⟨l⟩) {k : K} (hk : find l k = none) (v : V) :
    KeysNodup ⟨(k, v) :: l⟩ := by
  unfold KeysNodup at *
  simp only [List.map_cons, List.nodup_cons]
  exact ⟨find_none_iff.1 hk, h⟩

theorem keysNodup_getOrInsert {m : InsertMap K V} (h : m.KeysNodup) (k : K) (v : V) :
    (m.getOrInsert k v).2.KeysNodup := by
  unfold getOrInsert
  cases hf : find m.pairs k with
  | some x => simpa using h
  | none => exact keysNodup_cons h hf v

theorem keysNodup_getOrTryInsert {m : InsertMap K V} (h : m.KeysNodup) (k : K)
    (init : Unit → Except E V) : (m.getOrTryInsert k init).2.KeysNodup := by
  unfold getOrTryInsert
  cases hf : find m.pairs k with
  | some x => simpa using h
  | none =>
    cases hi : init () with
    | error e => simpa using h
    | ok v => exact keysNodup_cons h hf v

theorem get_getOrInsert (m : InsertMap K V) (k k' : K) (v : V) :
    (m.getOrInsert k v).2.get k' =
      if k' = k then some ((m.get k).getD v) else m.get k' := by
  unfold getOrInsert get
  cases hf : find m.pairs k with
  | some x => by_cases h : k' = k <;> simp_all
  | none =>
    by_cases h : k' = k
    · subst h; simp [find]
    · simp [find, h, Ne.symm h]

/-- Counting over the pairs when one value changes. -/
theorem countP_update {l : List (K × V)} (hn : (l.map Prod.fst).Nodup) {k : K} {v : V}
    (h : find l k = some v) (g : V → V) (f : V → Bool) :
    (l.map (fun p => if p.1 = k then (p.1, g p.2) else p)).countP (fun p => f p.2) +
        (if f v then 1 else 0) =
      l.countP (fun p => f p.2) + (if f (g v) then 1 else 0) := by
  induction l with
  | nil => simp [find] at h
  | cons p t ih =>
    obtain ⟨a, w⟩ := p
    simp only [List.map_cons, List.nodup_cons] at hn
    by_cases hak : a = k
    · subst hak
      simp only [find, if_true, Option.some.injEq] at h
      subst h
      have ht : t.map (fun p => if p.1 = a then (p.1, g p.2) else p) = t := by
        conv_rhs => rw [← List.map_id t]
        apply List.map_congr_left
        intro p hp
        have : p.1 ≠ a := fun e => hn.1 (List.mem_map.2 ⟨p, hp, e⟩)
        simp [this]
      simp only [List.map_cons, if_true, ht, List.countP_cons]
      omega
    · simp only [find, if_neg hak] at h
      have := ih hn.2 h
      simp only [List.map_cons, if_neg hak, List.countP_cons]
      omega

/-- Counting over the pairs when one key is removed. -/
theorem countP_erase {l : List (K × V)} (hn : (l.map Prod.fst).Nodup) {k : K} {v : V}
    (h : find l k = some v) (f : V → Bool) :
    (eraseKey l k).countP (fun p => f p.2) + (if f v then 1 else 0) = l.countP (fun p => f p.2) := by
  induction l with
  | nil => simp [find] at h
  | cons p t ih =>
    obtain ⟨a, w⟩ := p
    simp only [List.map_cons, List.nodup_cons] at hn
    by_cases hak : a = k
    · subst hak
      simp only [find, if_true, Option.some.injEq] at h
      subst h
      have ht : eraseKey t a = t := by
        apply List.filter_eq_self.2
        intro p hp
        have : p.1 ≠ a := fun e => hn.1 (List.mem_map.2 ⟨p, hp, e⟩)
        simp [this]
      have : eraseKey ((a, w) :: t) a = t := by
        simp only [eraseKey, List.filter_cons] at ht ⊢
        simpa using ht
      rw [this, List.countP_cons]
    · simp only [find, if_neg hak] at h
      have := ih hn.2 h
      have he : eraseKey ((a, w) :: t) k = (a, w) :: eraseKey t k := by
        simp [eraseKey, hak]
      rw [he, List.countP_cons, List.countP_cons]
      omega

end Blazesym.Cache.InsertMap
