import Verif.Cache.InsertMapLemmas

/-!
# C51: the memoizing map

Specification: a map is a partial function `K → Option V`; each operation's effect on that
function is stated, and then its consequence for whole histories.
-/

set_option autoImplicit false

namespace Blazesym.Cache

universe u v w

variable {K : Type u} {V : Type v} {E : Type w} [DecidableEq K]

/-- One call on the map. -/
inductive MapOp (K : Type u) (V : Type v) (E : Type w) where
  | getOrInsert (k : K) (v : V)
  | getOrTryInsert (k : K) (init : Unit → Except E V)
  | remove (k : K)
  | retain (f : K → V → Bool)

/-- State after one call. -/
def MapOp.apply (m : InsertMap K V) : MapOp K V E → InsertMap K V
  | .getOrInsert k v => (m.getOrInsert k v).2
  | .getOrTryInsert k i => (m.getOrTryInsert k i).2
  | .remove k => (m.remove k).2
  | .retain f => m.retain f

/-- State after a history. -/
def MapOp.run (m : InsertMap K V) (ops : List (MapOp K V E)) : InsertMap K V := ops.foldl MapOp.apply m

/-- The call drops the pair `(k, v)`. -/
def MapOp.Drops (k : K) (v : V) : MapOp K V E → Prop
  | .remove k' => k' = k
  | .retain f => f k v = false
  | _ => False

theorem MapOp.run_keysNodup (m : InsertMap K V) (h : m.KeysNodup) (ops : List (MapOp K V E)) :
    (MapOp.run m ops).KeysNodup := by
  induction ops generalizing m with
  | nil => simpa [MapOp.run] using h
  | cons op t ih =>
    apply ih
    cases op with
    | getOrInsert k v => exact InsertMap.keysNodup_getOrInsert h k v
    | getOrTryInsert k i => exact InsertMap.keysNodup_getOrTryInsert h k i
    | remove k => exact InsertMap.keysNodup_remove h k
    | retain f => exact InsertMap.keysNodup_retain h f

/-- **C51** (successful computation).  For a vacant key the computed value is returned and
stored; for an occupied key the stored value is returned, whatever `init` would do, and
nothing changes; other keys are never affected. -/
theorem C51_get_or_try_insert (m : InsertMap K V) (k : K) (init : Unit → Except E V) :
    (∀ v, m.get k = some v → m.getOrTryInsert k init = (.ok v, m)) ∧
    (∀ v, m.get k = none → init () = .ok v →
      (m.getOrTryInsert k init).1 = .ok v ∧ (m.getOrTryInsert k init).2.get k = some v) ∧
    (∀ e, m.get k = none → init () = .error e → m.getOrTryInsert k init = (.error e, m)) ∧
    (∀ k', k' ≠ k → (m.getOrTryInsert k init).2.get k' = m.get k') := by
  unfold InsertMap.getOrTryInsert InsertMap.get
  refine ⟨?_, ?_, ?_, ?_⟩
  · intro v h; rw [h]
  · intro v h hi; rw [h, hi]; simp [InsertMap.find]
  · intro e h hi; rw [h, hi]
  · intro k' hk
    cases InsertMap.find m.pairs k with
    | some v => rfl
    | none =>
      cases init () with
      | error e => rfl
      | ok v => simp [InsertMap.find, Ne.symm hk]

/-- **C51** (infallible insertion). -/
theorem C51_get_or_insert (m : InsertMap K V) (k : K) (v : V) :
    (∀ w, m.get k = some w → m.getOrInsert k v = (w, m)) ∧
    (m.get k = none → (m.getOrInsert k v).1 = v ∧ (m.getOrInsert k v).2.get k = some v) ∧
    (∀ k', k' ≠ k → (m.getOrInsert k v).2.get k' = m.get k') := by
  refine ⟨?_, ?_, ?_⟩
  · intro w h; unfold InsertMap.getOrInsert; rw [show InsertMap.find m.pairs k = some w from h]
  · intro h
    refine ⟨?_, ?_⟩
    · unfold InsertMap.getOrInsert; rw [show InsertMap.find m.pairs k = none from h]
    · rw [InsertMap.get_getOrInsert]; simp [h]
  · intro k' hk
    rw [InsertMap.get_getOrInsert]; simp [hk]

/-- **C51** (removal): the removed value is returned, only that key disappears. -/
theorem C51_remove (m : InsertMap K V) (k : K) :
    (m.remove k).1 = m.get k ∧ (m.remove k).2.get k = none ∧
    ∀ k', k' ≠ k → (m.remove k).2.get k' = m.get k' := by
  refine ⟨rfl, by simp, fun k' h => by simp [h]⟩

/-- **C51** (retention): after any history starting from the empty map, exactly the pairs
the predicate accepts are kept. -/
theorem C51_retain (ops : List (MapOp K V E)) (f : K → V → Bool) (k : K) (v : V) :
    ((MapOp.run (⟨[]⟩ : InsertMap K V) ops).retain f).get k = some v ↔
      (MapOp.run (⟨[]⟩ : InsertMap K V) ops).get k = some v ∧ f k v = true := by
  have hn := MapOp.run_keysNodup (E := E) (⟨[]⟩ : InsertMap K V) (by simp [InsertMap.KeysNodup]) ops
  generalize MapOp.run (⟨[]⟩ : InsertMap K V) ops = m at hn
  unfold InsertMap.retain InsertMap.get
  rw [InsertMap.find_filter hn]
  simp [Option.filter_eq_some_iff]

/-- **C51** (for ever after).  Once a key has a value, it keeps exactly that value through
every later history that does not drop the pair. -/
theorem C51_value_is_stable (ops : List (MapOp K V E)) (later : List (MapOp K V E)) (k : K) (v : V)
    (h : (MapOp.run (⟨[]⟩ : InsertMap K V) ops).get k = some v)
    (hl : ∀ op ∈ later, ¬ MapOp.Drops k v op) :
    (MapOp.run (MapOp.run (⟨[]⟩ : InsertMap K V) ops) later).get k = some v := by
  have hn := MapOp.run_keysNodup (E := E) (⟨[]⟩ : InsertMap K V) (by simp [InsertMap.KeysNodup]) ops
  generalize MapOp.run (⟨[]⟩ : InsertMap K V) ops = m at hn h
  induction later generalizing m with
  | nil => simpa [MapOp.run] using h
  | cons op t ih =>
    have hop := hl op (by simp)
    apply ih
    · intro op' hm; exact hl op' (by simp [hm])
    rotate_left
    · cases op with
      | getOrInsert k' v' =>
        simp only [MapOp.apply, InsertMap.get_getOrInsert]
        by_cases hk : k = k'
        · subst hk; simp [h]
        · simp [hk, h]
      | getOrTryInsert k' i =>
        by_cases hk : k = k'
        · subst hk
          have := (C51_get_or_try_insert m k i).1 v h
          simp [MapOp.apply, this, h]
        · exact ((C51_get_or_try_insert m k' i).2.2.2 k hk).trans h
      | remove k' =>
        have hk : k ≠ k' := fun e => hop (by simp [MapOp.Drops, e])
        simp [MapOp.apply, hk, h]
      | retain f =>
        simp only [MapOp.apply, InsertMap.retain, InsertMap.get]
        rw [InsertMap.find_filter hn]
        have hf : f k v = true := by simpa [MapOp.Drops] using hop
        rw [show InsertMap.find m.pairs k = some v from h]
        simp [Option.filter_eq_some_iff, hf]
    · cases op with
      | getOrInsert k v => exact InsertMap.keysNodup_getOrInsert hn k v
      | getOrTryInsert k i => exact InsertMap.keysNodup_getOrTryInsert hn k i
      | remove k => exact InsertMap.keysNodup_remove hn k
      | retain f => exact InsertMap.keysNodup_retain hn f

/-- A failed computation, then a successful one, then an attempt with another value. -/
example :
    (MapOp.run (E := Nat) (⟨[]⟩ : InsertMap Nat Nat)
      [.getOrTryInsert 1 (fun _ => .error 7), .getOrTryInsert 1 (fun _ => .ok 5),
       .getOrInsert 1 6, .getOrInsert 2 9, .remove 2]).get 1 = some 5 := by decide

end Blazesym.Cache
