import Verif.Normalize.Walk
import Verif.Normalize.WalkSpec

/-! Helper lemmas for `Verif.Normalize.Walk`. -/

set_option autoImplicit false

namespace Blazesym.Normalize
open Blazesym.Util Blazesym.Maps Blazesym.Spec.Normalize

theorem listing_append {pre : List Entry} {e : Entry} {post : List Entry} (h : Listing (pre ++ e :: post)) :
    (∀ x ∈ pre, x.stop ≤ e.start) ∧ (∀ x ∈ post, e.stop ≤ x.start) ∧ e.start < e.stop := by
  obtain ⟨h1, h2⟩ := h
  rw [List.pairwise_append, List.pairwise_cons] at h1
  exact ⟨fun x hx => h1.2.2 x hx e (by simp), fun x hx => h1.2.1.1 x hx, h2 e (by simp)⟩

theorem mappingOf_at {pre : List Entry} {e : Entry} {post : List Entry} (h : Listing (pre ++ e :: post))
    {addr : Nat} (h1 : e.start ≤ addr) (h2 : addr < e.stop) :
    mappingOf (pre ++ e :: post) addr = some e := by
  obtain ⟨k1, _, _⟩ := listing_append h
  unfold mappingOf
  rw [List.find?_append]
  have : pre.find? (fun e => decide (e.start ≤ addr) && decide (addr < e.stop)) = none := by
    rw [List.find?_eq_none]
    intro x hx
    have := k1 x hx
    simp only [Bool.and_eq_true, decide_eq_true_eq, not_and]
    omega
  rw [this]
  simp [h1, h2]

theorem mappingOf_before {pre : List Entry} {e : Entry} {post : List Entry} (h : Listing (pre ++ e :: post))
    {addr : Nat} (h1 : addr < e.start) (h2 : ∀ x ∈ pre, x.stop ≤ addr) :
    mappingOf (pre ++ e :: post) addr = none := by
  obtain ⟨_, k2, _⟩ := listing_append h
  unfold mappingOf
  rw [List.find?_eq_none]
  intro x hx
  simp only [Bool.and_eq_true, decide_eq_true_eq, not_and]
  rcases List.mem_append.mp hx with hx | hx
  · have := h2 x hx; omega
  · rcases List.mem_cons.mp hx with rfl | hx
    · omega
    · have := k2 x hx; have := h.2 e (by simp); omega

theorem mappingOf_after {es : List Entry} {addr : Nat} (h : ∀ x ∈ es, x.stop ≤ addr) :
    mappingOf es addr = none := by
  unfold mappingOf
  rw [List.find?_eq_none]
  intro x hx
  have := h x hx
  simp only [Bool.and_eq_true, decide_eq_true_eq, not_and]
  omega

theorem stops_le {pre : List Entry} {e : Entry} {post : List Entry} (h : Listing (pre ++ e :: post)) :
    ∀ x ∈ pre, x.stop ≤ e.stop := by
  obtain ⟨k1, _, k3⟩ := listing_append h
  intro x hx
  have := k1 x hx
  omega

/-- `skip` on a listing, the current entry being `e`: either it stops at the first entry that
ends after the address or it has used up all. -/
theorem skip_list (addr : Nat) (pre : List Entry) (e : Entry) (post : List Entry) (fuel : Nat)
    (tail : List (Except Err Entry)) (hf : post.length < fuel)
    (hpre : ∀ x ∈ pre, x.stop ≤ addr) :
    (∃ pre' e' post', pre ++ e :: post = pre' ++ e' :: post' ∧ (∀ x ∈ pre', x.stop ≤ addr) ∧ addr < e'.stop ∧
      skip addr fuel e (.list (post.map .ok ++ tail)) = .entry e' (.list (post'.map .ok ++ tail))) ∨
    ((∀ x ∈ pre ++ e :: post, x.stop ≤ addr) ∧ ∃ pre' e' fuel', pre ++ e :: post = pre' ++ [e'] ∧
      0 < fuel' ∧ fuel ≤ fuel' + post.length ∧
      skip addr fuel e (.list (post.map .ok ++ tail)) = skip addr fuel' e' (.list tail)) := by
  induction post generalizing pre e fuel with
  | nil =>
    cases fuel with
    | zero => simp at hf
    | succ fuel =>
      by_cases h : addr ≥ e.stop
      · right
        refine ⟨?_, pre, e, fuel + 1, rfl, by omega, by simp, rfl⟩
        intro x hx
        rcases List.mem_append.mp hx with hx | hx
        · exact hpre x hx
        · simp only [List.mem_singleton] at hx; subst hx; exact h
      · left
        exact ⟨pre, e, [], rfl, hpre, by omega, by simp only [skip]; rw [if_neg h]⟩
  | cons e1 post ih =>
    cases fuel with
    | zero => simp at hf
    | succ fuel =>
      by_cases h : addr ≥ e.stop
      · have hpre' : ∀ x ∈ pre ++ [e], x.stop ≤ addr := by
          intro x hx
          rcases List.mem_append.mp hx with hx | hx
          · exact hpre x hx
          · simp only [List.mem_singleton] at hx; subst hx; exact h
        have hskip : skip addr (fuel + 1) e (.list ((e1 :: post).map .ok ++ tail)) =
            skip addr fuel e1 (.list (post.map .ok ++ tail)) := by
          conv_lhs => unfold skip
          rw [if_pos h]
          rfl
        rcases ih (pre ++ [e]) e1 fuel (by simp at hf; omega) hpre' with
          ⟨pre', e', post', k1, k2, k3, k4⟩ | ⟨k1, pre', e', fuel', k2, k3, k4, k5⟩
        · left
          exact ⟨pre', e', post', by rw [← k1]; simp, k2, k3, by rw [hskip, k4]⟩
        · right
          exact ⟨by simpa using k1, pre', e', fuel', by rw [← k2]; simp, k3, by simp; omega,
            by rw [hskip, k5]⟩
      · left
        exact ⟨pre, e, e1 :: post, rfl, hpre, by omega, by simp only [skip]; rw [if_neg h]⟩

/-- The walk over a complete listing. -/
theorem walkLoop_list {S : Type} (h : Handler S) (addrs : List Nat) (prev : Nat) (pre : List Entry)
    (e : Entry) (post : List Entry) (s : S) (hl : Listing (pre ++ e :: post))
    (hs : (prev :: addrs).Pairwise (· ≤ ·)) (hpre : ∀ x ∈ pre, x.stop ≤ prev) :
    walkLoop h addrs prev e (.list (post.map .ok)) s =
      each h.unknown h.entryAddr (pre ++ e :: post) addrs s := by
  induction addrs generalizing prev pre e post s with
  | nil => rfl
  | cons addr rest ih =>
    have hle : prev ≤ addr := by rw [List.pairwise_cons] at hs; exact hs.1 addr (by simp)
    have hs' : (addr :: rest).Pairwise (· ≤ ·) := (List.pairwise_cons.mp hs).2
    have hpre' : ∀ x ∈ pre, x.stop ≤ addr := fun x hx => le_trans (hpre x hx) hle
    simp only [walkLoop]
    rw [if_neg (by omega)]
    have hfuel : post.length < (Source.list (post.map Except.ok)).fuel := by simp [Source.fuel]
    have := skip_list addr pre e post (Source.list (post.map .ok)).fuel [] hfuel hpre'
    simp only [List.append_nil] at this
    rcases this with ⟨pre', e', post', k1, k2, k3, k4⟩ | ⟨k1, pre', e', fuel', k2, k3, k4, k5⟩
    · rw [k4]
      simp only
      rw [k1] at hl ⊢
      by_cases hst : addr < e'.start
      · rw [if_pos hst]
        simp only [each]
        rw [mappingOf_before hl hst k2]
        exact ih addr pre' e' post' _ hl hs' k2
      · rw [if_neg hst]
        simp only [each]
        rw [mappingOf_at hl (by omega) k3]
        simp only
        cases h.entryAddr addr e' s with
        | error err => rfl
        | ok s' => exact ih addr pre' e' post' s' hl hs' k2
    · rw [k5]
      have hx : addr ≥ e'.stop := k1 e' (by rw [k2]; simp)
      cases fuel' with
      | zero => omega
      | succ fuel' =>
        have : skip addr (fuel' + 1) e' (.list []) = .exhausted e' (.list []) := by
          unfold skip
          rw [if_pos hx]
          rfl
        rw [this]
        simp only [each]
        rw [mappingOf_after k1]
        rw [k2] at hl ⊢
        have k1' : ∀ x ∈ pre', x.stop ≤ addr := fun x hx => k1 x (by rw [k2]; simp [hx])
        exact ih addr pre' e' [] _ hl hs' k1'

theorem coveringOrNext_some {es : List Entry} {addr : Nat} {e : Entry} (h : coveringOrNext es addr = some e) :
    ∃ pre post, es = pre ++ e :: post ∧ (∀ x ∈ pre, x.stop ≤ addr) ∧ addr < e.stop := by
  unfold coveringOrNext at h
  obtain ⟨h1, pre, post, h2, h3⟩ := List.find?_eq_some_iff_append.mp h
  refine ⟨pre, post, h2, fun x hx => ?_, by simpa using h1⟩
  have := h3 x hx
  simp only [Bool.not_eq_true', decide_eq_false_iff_not] at this
  omega

theorem coveringOrNext_none {es : List Entry} {addr : Nat} (h : coveringOrNext es addr = none) :
    ∀ x ∈ es, x.stop ≤ addr := by
  unfold coveringOrNext at h
  intro x hx
  have := List.find?_eq_none.mp h x hx
  simp only [decide_eq_true_eq] at this
  omega

/-- The walk with a query per entry. -/
theorem walkLoop_query {S : Type} (h : Handler S) (addrs : List Nat) (prev : Nat) (pre : List Entry)
    (e : Entry) (post : List Entry) (s : S) (hl : Listing (pre ++ e :: post))
    (q : Nat → Except Err (Option Entry)) (hq : ∀ a, q a = .ok (coveringOrNext (pre ++ e :: post) a))
    (hs : (prev :: addrs).Pairwise (· ≤ ·)) (hpre : ∀ x ∈ pre, x.stop ≤ prev) :
    walkLoop h addrs prev e (.query q) s =
      each h.unknown h.entryAddr (pre ++ e :: post) addrs s := by
  induction addrs generalizing prev pre e post s with
  | nil => rfl
  | cons addr rest ih =>
    have hle : prev ≤ addr := by rw [List.pairwise_cons] at hs; exact hs.1 addr (by simp)
    have hs' : (addr :: rest).Pairwise (· ≤ ·) := (List.pairwise_cons.mp hs).2
    have hpre' : ∀ x ∈ pre, x.stop ≤ addr := fun x hx => le_trans (hpre x hx) hle
    have stepEntry (pre' : List Entry) (e' : Entry) (post' : List Entry)
        (k1 : pre ++ e :: post = pre' ++ e' :: post') (k2 : ∀ x ∈ pre', x.stop ≤ addr) (k3 : addr < e'.stop) :
        (if addr < e'.start then walkLoop h rest addr e' (.query q) (h.unknown addr s)
          else match h.entryAddr addr e' s with
            | .error err => .error err
            | .ok s => walkLoop h rest addr e' (.query q) s) =
        each h.unknown h.entryAddr (pre ++ e :: post) (addr :: rest) s := by
      rw [k1] at hl hq ⊢
      by_cases hst : addr < e'.start
      · rw [if_pos hst]
        simp only [each]
        rw [mappingOf_before hl hst k2]
        exact ih addr pre' e' post' _ hl hq hs' k2
      · rw [if_neg hst]
        simp only [each]
        rw [mappingOf_at hl (by omega) k3]
        simp only
        cases h.entryAddr addr e' s with
        | error err => rfl
        | ok s' => exact ih addr pre' e' post' s' hl hq hs' k2
    simp only [walkLoop]
    rw [if_neg (by omega)]
    by_cases hx : addr ≥ e.stop
    · cases hc : coveringOrNext (pre ++ e :: post) addr with
      | none =>
        have k1 := coveringOrNext_none hc
        have : skip addr (Source.query q).fuel e (.query q) = .exhausted e (.query q) := by
          show skip addr (1 + 1) e (.query q) = _
          unfold skip
          rw [if_pos hx]
          simp only [Source.next, hq, hc]
        rw [this]
        simp only [each]
        rw [mappingOf_after k1]
        exact ih addr pre e post _ hl hq hs' hpre'
      | some e' =>
        obtain ⟨pre', post', k1, k2, k3⟩ := coveringOrNext_some hc
        have : skip addr (Source.query q).fuel e (.query q) = .entry e' (.query q) := by
          show skip addr (1 + 1) e (.query q) = _
          unfold skip
          rw [if_pos hx]
          simp only [Source.next, hq, hc]
          unfold skip
          rw [if_neg (by omega)]
        rw [this]
        exact stepEntry pre' e' post' k1 k2 k3
    · have : skip addr (Source.query q).fuel e (.query q) = .entry e (.query q) := by
        show skip addr (1 + 1) e (.query q) = _
        unfold skip
        rw [if_neg hx]
      rw [this]
      exact stepEntry pre e post rfl hpre' (by omega)

end Blazesym.Normalize
