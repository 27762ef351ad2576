import Verif.Normalize.WalkLemmas

/-! Property theorems C02 for the walk over addresses and mappings. -/

set_option autoImplicit false

namespace Blazesym.Normalize
open Blazesym.Util Blazesym.Maps Blazesym.Spec.Normalize

/-- **C02** (walk over a listing): going through sorted addresses and ascending disjoint
mappings side by side is the same as looking up every address on its own. -/
theorem C02_walk {S : Type} (h : Handler S) (es : List Entry) (addrs : List Nat) (s : S)
    (hl : Listing es) (hne : es ≠ []) (hs : addrs.Pairwise (· ≤ ·)) :
    walk h addrs (.list (es.map .ok)) s = each h.unknown h.entryAddr es addrs s := by
  cases es with
  | nil => exact absurd rfl hne
  | cons e post =>
    unfold walk
    simp only [List.map_cons, Source.next]
    refine walkLoop_list h addrs _ [] e post s hl ?_ (by simp)
    cases addrs with
    | nil => simp
    | cons a t => simpa using hs

/-- **C02** (walk by queries): so is asking the kernel for the mapping covering an address or
the next one. -/
theorem C02_walk_query {S : Type} (h : Handler S) (es : List Entry) (addrs : List Nat) (s : S)
    (q : Nat → Except Err (Option Entry)) (hq : ∀ a, q a = .ok (coveringOrNext es a))
    (hl : Listing es) (hr : ∃ e ∈ es, addrs.head?.getD 0 < e.stop) (hs : addrs.Pairwise (· ≤ ·)) :
    walk h addrs (.query q) s = each h.unknown h.entryAddr es addrs s := by
  unfold walk
  simp only [Source.next, hq]
  cases hc : coveringOrNext es (addrs.head?.getD 0) with
  | none =>
    obtain ⟨e, he, h1⟩ := hr
    have := coveringOrNext_none hc e he
    omega
  | some e =>
    obtain ⟨pre, post, rfl, h2, h3⟩ := coveringOrNext_some hc
    refine walkLoop_query h addrs _ pre e post s hl q hq ?_ h2
    cases addrs with
    | nil => simp
    | cons a t => simpa using hs

/-- **C02** (defect): if the kernel knows of no mapping that ends above the first address, the
whole call fails instead of reporting the addresses as unmapped. -/
theorem C02_query_all_above_fails {S : Type} (h : Handler S) (es : List Entry) (addrs : List Nat) (s : S)
    (q : Nat → Except Err (Option Entry)) (hq : ∀ a, q a = .ok (coveringOrNext es a))
    (hr : ∀ e ∈ es, e.stop ≤ addrs.head?.getD 0) :
    walk h addrs (.query q) s = .error .unexpectedEof := by
  unfold walk
  simp only [Source.next, hq]
  have : coveringOrNext es (addrs.head?.getD 0) = none := by
    unfold coveringOrNext
    rw [List.find?_eq_none]
    intro x hx
    have := hr x hx
    simp only [decide_eq_true_eq]
    omega
  rw [this]

/-- **C02** without any mapping the call fails. -/
theorem C02_no_mapping {S : Type} (h : Handler S) (addrs : List Nat) (s : S) :
    walk h addrs (.list []) s = .error .unexpectedEof := rfl

theorem walkLoop_unsorted {S : Type} (h : Handler S) (addrs : List Nat) (prev : Nat) (e : Entry) (src : Source)
    (s : S) (hs : ¬ (prev :: addrs).Pairwise (· ≤ ·)) : ∃ err, walkLoop h addrs prev e src s = .error err := by
  induction addrs generalizing prev e src s with
  | nil => simp at hs
  | cons a t ih =>
    simp only [walkLoop]
    by_cases hlt : a < prev
    · rw [if_pos hlt]; exact ⟨_, rfl⟩
    · rw [if_neg hlt]
      have hs' : ¬ (a :: t).Pairwise (· ≤ ·) := by
        intro h1
        apply hs
        rw [List.pairwise_cons]
        refine ⟨?_, h1⟩
        intro x hx
        rcases List.mem_cons.mp hx with rfl | hx
        · omega
        · have := (List.pairwise_cons.mp h1).1 x hx; omega
      cases skip a src.fuel e src with
      | diverged => exact ⟨_, rfl⟩
      | failed err => exact ⟨_, rfl⟩
      | exhausted e' src' => exact ih a e' src' _ hs'
      | entry e' src' =>
        simp only
        split
        · exact ih a e' src' _ hs'
        · cases h.entryAddr a e' s with
          | error err => exact ⟨_, rfl⟩
          | ok s' => exact ih a e' src' _ hs'

/-- **C02** addresses that are claimed to be sorted but are not make the call fail, whatever the
source of the mappings. -/
theorem C02_unsorted_refused {S : Type} (h : Handler S) (addrs : List Nat) (src : Source) (s : S)
    (hs : ¬ addrs.Pairwise (· ≤ ·)) : ∃ err, walk h addrs src s = .error err := by
  unfold walk
  simp only
  cases hn : src.next (addrs.head?.getD 0) with
  | mk item src' =>
    cases item with
    | none => exact ⟨_, rfl⟩
    | some r =>
      cases r with
      | error err => exact ⟨_, rfl⟩
      | ok e =>
        refine walkLoop_unsorted h addrs _ e src' s ?_
        intro hp
        exact hs (List.pairwise_cons.mp hp).2

/-- **C02** the failure is "invalid input" if nothing else fails. -/
theorem C02_unsorted_invalid_input {S : Type} (h : Handler S) (es : List Entry) (addrs : List Nat) (s : S)
    (hne : es ≠ []) (hs : ¬ addrs.Pairwise (· ≤ ·)) (hh : ∀ a e s, ∃ s', h.entryAddr a e s = .ok s') :
    walk h addrs (.list (es.map .ok)) s = .error .invalidInput := by
  have hskip : ∀ (post : List Entry) (a fuel : Nat) (e : Entry), post.length < fuel →
      ∃ (e' : Entry) (post' : List Entry), skip a fuel e (.list (post.map .ok)) = .exhausted e' (.list (post'.map .ok)) ∨
        skip a fuel e (.list (post.map .ok)) = .entry e' (.list (post'.map .ok)) := by
    intro post
    induction post with
    | nil =>
      intro a fuel e hf
      cases fuel with
      | zero => simp at hf
      | succ fuel =>
        simp only [skip]
        split
        · exact ⟨e, [], Or.inl rfl⟩
        · exact ⟨e, [], Or.inr rfl⟩
    | cons x t ih =>
      intro a fuel e hf
      cases fuel with
      | zero => simp at hf
      | succ fuel =>
        simp only [skip]
        split
        · exact ih a fuel x (by simp at hf; omega)
        · exact ⟨e, x :: t, Or.inr rfl⟩
  have loop : ∀ (addrs : List Nat) (prev : Nat) (e : Entry) (post : List Entry) (s : S),
      ¬ (prev :: addrs).Pairwise (· ≤ ·) → walkLoop h addrs prev e (.list (post.map .ok)) s = .error .invalidInput := by
    intro addrs
    induction addrs with
    | nil => intro prev e post s hs; simp at hs
    | cons a t ih =>
      intro prev e post s hs
      simp only [walkLoop]
      by_cases hlt : a < prev
      · rw [if_pos hlt]
      · rw [if_neg hlt]
        have hs' : ¬ (a :: t).Pairwise (· ≤ ·) := by
          intro h1
          apply hs
          rw [List.pairwise_cons]
          refine ⟨?_, h1⟩
          intro x hx
          rcases List.mem_cons.mp hx with rfl | hx
          · omega
          · have := (List.pairwise_cons.mp h1).1 x hx; omega
        obtain ⟨e', post', hsk | hsk⟩ := hskip post a (Source.list (post.map .ok)).fuel e (by simp [Source.fuel])
        · rw [hsk]; exact ih a e' post' _ hs'
        · rw [hsk]
          simp only
          by_cases hst : a < e'.start
          · rw [if_pos hst]; exact ih a e' post' _ hs'
          · rw [if_neg hst]
            obtain ⟨s1, hs1⟩ := hh a e' s
            rw [hs1]
            exact ih a e' post' _ hs'
  cases es with
  | nil => exact absurd rfl hne
  | cons e post =>
    unfold walk
    simp only [List.map_cons, Source.next]
    refine loop addrs _ e post s ?_
    intro hp
    exact hs (List.pairwise_cons.mp hp).2

/-- The walk over a listing that breaks off with an error. -/
theorem walkLoop_list_tail {S : Type} (h : Handler S) (addrs : List Nat) (prev : Nat) (pre : List Entry)
    (e : Entry) (post : List Entry) (err : Err) (more : List (Except Err Entry)) (s : S)
    (hl : Listing (pre ++ e :: post))
    (hs : (prev :: addrs).Pairwise (· ≤ ·)) (hpre : ∀ x ∈ pre, x.stop ≤ prev) :
    walkLoop h addrs prev e (.list (post.map .ok ++ .error err :: more)) s =
      (match each h.unknown h.entryAddr (pre ++ e :: post)
          (addrs.takeWhile (fun a => (pre ++ e :: post).any (fun x => decide (a < x.stop)))) s with
        | .error e => .error e
        | .ok s' => if ∀ a ∈ addrs, ∃ x ∈ pre ++ e :: post, a < x.stop then .ok s' else .error err) := by
  induction addrs generalizing prev pre e post s with
  | nil => simp [walkLoop, each]
  | cons addr rest ih =>
    have hle : prev ≤ addr := by rw [List.pairwise_cons] at hs; exact hs.1 addr (by simp)
    have hs' : (addr :: rest).Pairwise (· ≤ ·) := (List.pairwise_cons.mp hs).2
    have hpre' : ∀ x ∈ pre, x.stop ≤ addr := fun x hx => le_trans (hpre x hx) hle
    simp only [walkLoop]
    rw [if_neg (by omega)]
    have hfuel : post.length < (Source.list (post.map Except.ok ++ .error err :: more)).fuel := by
      simp [Source.fuel]; omega
    rcases skip_list addr pre e post (Source.list (post.map .ok ++ .error err :: more)).fuel
        (.error err :: more) hfuel hpre' with
      ⟨pre', e', post', k1, k2, k3, k4⟩ | ⟨k1, pre', e', fuel', k2, k3, k4, k5⟩
    · rw [k4]
      simp only
      rw [k1] at hl ⊢
      have hany : (pre' ++ e' :: post').any (fun x => decide (addr < x.stop)) = true := by
        rw [List.any_eq_true]; exact ⟨e', by simp, by simpa using k3⟩
      simp only [List.takeWhile_cons, hany, if_true]
      have hall : (∀ a ∈ addr :: rest, ∃ x ∈ pre' ++ e' :: post', a < x.stop) ↔
          ∀ a ∈ rest, ∃ x ∈ pre' ++ e' :: post', a < x.stop := by
        constructor
        · intro hh a ha; exact hh a (by simp [ha])
        · intro hh a ha
          rcases List.mem_cons.mp ha with rfl | ha
          · exact ⟨e', by simp, k3⟩
          · exact hh a ha
      simp only [hall]
      by_cases hst : addr < e'.start
      · rw [if_pos hst]
        simp only [each]
        rw [mappingOf_before hl hst k2]
        exact ih addr pre' e' post' _ hl hs' k2
      · rw [if_neg hst]
        simp only [each]
        rw [mappingOf_at hl (by omega) k3]
        simp only
        cases h.entryAddr addr e' s with
        | error err => rfl
        | ok s' => exact ih addr pre' e' post' s' hl hs' k2
    · rw [k5]
      have hx : addr ≥ e'.stop := k1 e' (by rw [k2]; simp)
      cases fuel' with
      | zero => omega
      | succ fuel' =>
        have : skip addr (fuel' + 1) e' (.list (.error err :: more)) = .failed err := by
          unfold skip
          rw [if_pos hx]
          rfl
        rw [this]
        simp only
        have hany : ¬ ((pre ++ e :: post).any (fun x => decide (addr < x.stop)) = true) := by
          rw [List.any_eq_true]
          rintro ⟨x, hx, hx'⟩
          have := k1 x hx
          simp only [decide_eq_true_eq] at hx'
          omega
        simp only [List.takeWhile_cons]
        rw [if_neg hany]
        simp only [each]
        rw [if_neg]
        intro hh
        obtain ⟨x, hx, hx'⟩ := hh addr (by simp)
        have := k1 x hx
        omega

/-- **C02** (malformed mapping in the middle of the file): the mappings before it are used; the
call fails with its error exactly if an address lies above all of them. -/
theorem C02_walk_malformed {S : Type} (h : Handler S) (es : List Entry) (err : Err)
    (more : List (Except Err Entry)) (addrs : List Nat) (s : S)
    (hl : Listing es) (hne : es ≠ []) (hs : addrs.Pairwise (· ≤ ·)) :
    walk h addrs (.list (es.map .ok ++ .error err :: more)) s =
      (match each h.unknown h.entryAddr es
          (addrs.takeWhile (fun a => es.any (fun x => decide (a < x.stop)))) s with
        | .error e => .error e
        | .ok s' => if ∀ a ∈ addrs, ∃ x ∈ es, a < x.stop then .ok s' else .error err) := by
  cases es with
  | nil => exact absurd rfl hne
  | cons e post =>
    unfold walk
    simp only [List.map_cons, Source.next, List.cons_append]
    refine walkLoop_list_tail h addrs _ [] e post err more s hl ?_ (by simp)
    cases addrs with
    | nil => simp
    | cons a t => simpa using hs

/-- **C02** a first mapping that is malformed fails the call. -/
theorem C02_walk_malformed_first {S : Type} (h : Handler S) (err : Err) (more : List (Except Err Entry))
    (addrs : List Nat) (s : S) : walk h addrs (.list (.error err :: more)) s = .error err := rfl

/-- Everything that holds initially and is kept by the handler holds at the end, for every
source of mappings. -/
theorem walk_ind {S : Type} (h : Handler S) (P : Nat → S → Prop)
    (hu : ∀ n a s, P n s → P (n + 1) (h.unknown a s))
    (he : ∀ n a e s s', P n s → h.entryAddr a e s = .ok s' → P (n + 1) s')
    (addrs : List Nat) (src : Source) (s s' : S) (h0 : P 0 s) (hw : walk h addrs src s = .ok s') :
    P addrs.length s' := by
  have loop : ∀ (addrs : List Nat) (n prev : Nat) (e : Entry) (src : Source) (s : S), P n s →
      walkLoop h addrs prev e src s = .ok s' → P (n + addrs.length) s' := by
    intro addrs
    induction addrs with
    | nil => intro n prev e src s hp hw; cases hw; exact hp
    | cons a t ih =>
      intro n prev e src s hp hw
      have hlen : n + (a :: t).length = (n + 1) + t.length := by simp; omega
      rw [hlen]
      simp only [walkLoop] at hw
      by_cases hlt : a < prev
      · rw [if_pos hlt] at hw; cases hw
      · rw [if_neg hlt] at hw
        cases hsk : skip a src.fuel e src with
        | diverged => rw [hsk] at hw; cases hw
        | failed err => rw [hsk] at hw; cases hw
        | exhausted e' src' => rw [hsk] at hw; exact ih (n + 1) a e' src' _ (hu n a s hp) hw
        | entry e' src' =>
          rw [hsk] at hw
          simp only at hw
          by_cases hst : a < e'.start
          · rw [if_pos hst] at hw; exact ih (n + 1) a e' src' _ (hu n a s hp) hw
          · rw [if_neg hst] at hw
            cases hx : h.entryAddr a e' s with
            | error err => rw [hx] at hw; cases hw
            | ok s1 => rw [hx] at hw; exact ih (n + 1) a e' src' s1 (he n a e' s s1 hp hx) hw
  unfold walk at hw
  simp only at hw
  cases hn : src.next (addrs.head?.getD 0) with
  | mk item src' =>
    rw [hn] at hw
    cases item with
    | none => cases hw
    | some r =>
      cases r with
      | error err => cases hw
      | ok e =>
        have := loop addrs 0 _ e src' s h0 hw
        simpa using this

/-- A handler that logs what it is asked. -/
def logHandler : Handler (List (Nat × Option Nat)) :=
  ⟨fun a s => s ++ [(a, none)], fun a e s => .ok (s ++ [(a, some e.start)])⟩

/-- Three mappings with a gap. -/
def someEntries : List Entry :=
  [⟨10, 20, 4, 0, none, none⟩, ⟨20, 25, 4, 0, none, none⟩, ⟨40, 50, 4, 0, none, none⟩]

example : Listing someEntries := by
  refine ⟨?_, ?_⟩ <;> simp [someEntries]

example : walk logHandler [5, 10, 19, 20, 20, 30, 49, 50, 60] (.list (someEntries.map .ok)) [] =
    .ok [(5, none), (10, some 10), (19, some 10), (20, some 20), (20, some 20), (30, none), (49, some 40),
      (50, none), (60, none)] := by decide

example : walk logHandler [5, 10, 19, 20, 20, 30, 49, 50, 60] (.query (fun a => .ok (coveringOrNext someEntries a))) [] =
    .ok [(5, none), (10, some 10), (19, some 10), (20, some 20), (20, some 20), (30, none), (49, some 40),
      (50, none), (60, none)] := by decide

example : walk logHandler [50, 60] (.query (fun a => .ok (coveringOrNext someEntries a))) [] =
    .error .unexpectedEof := by decide

example : walk logHandler [10, 12, 11] (.list (someEntries.map .ok)) [] = .error .invalidInput := by decide

example : walk logHandler [10, 49] (.list (someEntries.map .ok ++ [.error .invalidData])) [] =
    .ok [(10, some 10), (49, some 40)] := by decide

example : walk logHandler [10, 50] (.list (someEntries.map .ok ++ [.error .invalidData])) [] =
    .error .invalidData := by decide

end Blazesym.Normalize
