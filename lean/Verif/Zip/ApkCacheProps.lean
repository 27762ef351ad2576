import Verif.Zip.ApkCache
import Verif.Zip.Props
import Verif.Cache.InsertMapLemmas

/-! Property theorems C59 (symbolizing the same archive again). -/

set_option autoImplicit false

namespace Blazesym.Zip
open Blazesym.Util Blazesym.Cache

/-- The bounds of a member's data determine which member an offset is attributed to. -/
theorem findMember_bounds {items : List (Except Err Entry)} {off off' : Nat} {e e' : Entry}
    (h : findMember off items = .ok (some e)) (h' : findMember off' items = .ok (some e'))
    (hb : e.dataOffset = e'.dataOffset) (hl : e.data.length = e'.data.length) : e = e' := by
  induction items with
  | nil => simp [findMember] at h
  | cons x t ih =>
    cases x with
    | error err => simp [findMember] at h
    | ok x =>
      simp only [findMember] at h h'
      split at h
      · rename_i hc
        have hx : x = e := by simpa using h
        subst hx
        split at h'
        · simpa using h'
        · rename_i hc'
          have hw : e'.dataOffset ≤ off' ∧ off' < e'.dataOffset + e'.data.length := by
            obtain ⟨_, _, _, hw, _⟩ := findMember_some.mp h'
            exact hw
          exact absurd (by omega) hc'
      · rename_i hc
        have hw : e.dataOffset ≤ off ∧ off < e.dataOffset + e.data.length := by
          obtain ⟨_, _, _, hw, _⟩ := findMember_some.mp h
          exact hw
        split at h'
        · have hx : x = e' := by simpa using h'
          subst hx
          exact absurd (by omega) hc
        · exact ih h h'

/-- Everything in the cache is what would be put there for a request of this kind. -/
def Fresh {R : Type} (contents : Bytes) (dispatch : Nat → Bytes → Bytes → Except Err R) (cache : MemberCache R) : Prop :=
  ∀ items off e r data, entries (Mmap.map contents).deref = .ok items → findMember off items = .ok (some e) →
    cache.get (e.dataOffset, e.dataOffset + e.data.length) = some r →
    memberData (Mmap.map contents) e = .ok data → dispatch e.dataOffset e.path data = .ok r

theorem cached_fresh {R : Type} (contents : Bytes) (hlen : contents.length < 2 ^ 63)
    (dispatch : Bool → Nat → Bytes → Bytes → Except Err R)
    (toVirt : R → Nat → Except Err (Option Nat)) (cache : MemberCache R) (off : Nat) (debugSyms : Bool)
    (hf : Fresh contents (dispatch debugSyms) cache) :
    (cachedApkResolver contents dispatch toVirt cache off debugSyms).1 =
        createApkResolver contents (dispatch debugSyms) toVirt off ∧
      Fresh contents (dispatch debugSyms) (cachedApkResolver contents dispatch toVirt cache off debugSyms).2 := by
  unfold cachedApkResolver createApkResolver
  cases he : entries (Mmap.map contents).deref with
  | error err => simp only [he, bind, Except.bind]; exact ⟨trivial, hf⟩
  | ok items =>
    cases hm : findMember off items with
    | error err => simp only [he, bind, Except.bind, hm]; exact ⟨trivial, hf⟩
    | ok o =>
      cases o with
      | none => simp only [he, bind, Except.bind, hm]; exact ⟨rfl, hf⟩
      | some e =>
        have hslice : ∃ data, memberData (Mmap.map contents) e = .ok data := by
          have hmem : ∃ before, Members contents before e := by
            obtain ⟨before, after, h1, _, _⟩ := findMember_some.mp hm
            exact ⟨before, after, by rw [C29_map] at he; rw [he, h1]⟩
          obtain ⟨before, hmem⟩ := hmem
          obtain ⟨hs, hne⟩ := members_slice hmem
          exact ⟨_, memberData_eq hlen hs hne⟩
        obtain ⟨data, hd⟩ := hslice
        simp only [he, bind, Except.bind, hm, hd]
        cases hg : cache.get (e.dataOffset, e.dataOffset + e.data.length) with
        | some r =>
          have hr := hf items off e r data he hm hg hd
          have : ∀ make : Unit → Except Err R,
              cache.getOrTryInsert (e.dataOffset, e.dataOffset + e.data.length) make = (.ok r, cache) := by
            intro make
            unfold InsertMap.getOrTryInsert
            unfold InsertMap.get at hg
            rw [hg]
          simp only [this, hr]
          cases toVirt r (off - e.dataOffset) with
          | error err => exact ⟨rfl, hf⟩
          | ok o => cases o <;> exact ⟨rfl, hf⟩
        | none =>
          unfold InsertMap.get at hg
          cases hr : dispatch debugSyms e.dataOffset e.path data with
          | error err =>
            have : cache.getOrTryInsert (e.dataOffset, e.dataOffset + e.data.length)
                (fun _ => Except.error (α := R) err) = (.error err, cache) := by
              unfold InsertMap.getOrTryInsert
              rw [hg]
            simp only [this]
            exact ⟨trivial, hf⟩
          | ok r =>
            have : cache.getOrTryInsert (e.dataOffset, e.dataOffset + e.data.length)
                (fun _ => Except.ok (ε := Err) r) =
                  (.ok r, ⟨((e.dataOffset, e.dataOffset + e.data.length), r) :: cache.pairs⟩) := by
              unfold InsertMap.getOrTryInsert
              rw [hg]
            simp only [this]
            have hf' : Fresh contents (dispatch debugSyms)
                ⟨((e.dataOffset, e.dataOffset + e.data.length), r) :: cache.pairs⟩ := by
              intro items' off' e' r' data' he' hm' hg' hd'
              have : items' = items := by rw [he] at he'; simpa using he'.symm
              subst this
              unfold InsertMap.get at hg'
              simp only [InsertMap.find] at hg'
              split at hg'
              · rename_i hk
                simp only [Prod.mk.injEq] at hk
                have hee : e = e' := findMember_bounds hm hm' hk.1 (by omega)
                subst hee
                have hdd : data = data' := by rw [hd] at hd'; simpa using hd'
                subst hdd
                have : r = r' := by simpa using hg'
                rw [← this]; exact hr
              · exact hf items' off' e' r' data' he' hm' hg' hd'
            cases toVirt r (off - e.dataOffset) with
            | error err => exact ⟨rfl, hf'⟩
            | ok o => cases o <;> exact ⟨rfl, hf'⟩

theorem fresh_empty {R : Type} (contents : Bytes) (dispatch : Nat → Bytes → Bytes → Except Err R) :
    Fresh contents dispatch InsertMap.empty := by
  intro items off e r data _ _ hg _
  simp [InsertMap.get, InsertMap.empty, InsertMap.find] at hg

theorem fresh_after {R : Type} (contents : Bytes) (hlen : contents.length < 2 ^ 63)
    (dispatch : Bool → Nat → Bytes → Bytes → Except Err R)
    (toVirt : R → Nat → Except Err (Option Nat)) (debugSyms : Bool) (history : List (Nat × Bool))
    (cache : MemberCache R) (hh : ∀ q ∈ history, q.2 = debugSyms) (hf : Fresh contents (dispatch debugSyms) cache) :
    Fresh contents (dispatch debugSyms) (cacheAfter contents dispatch toVirt history cache) := by
  induction history generalizing cache with
  | nil => exact hf
  | cons q t ih =>
    obtain ⟨off, d⟩ := q
    have : d = debugSyms := hh _ List.mem_cons_self
    subst this
    exact ih _ (fun q hq => hh q (List.mem_cons_of_mem _ hq)) (cached_fresh contents hlen dispatch toVirt cache off d hf).2

/-- **C59** (archive members): after any requests for an archive, of the same kind as regards debug
information, an offset is resolved as by a symbolizer that has not been used before.  Missing for the
full property: requests of another kind, see `C59_debug_syms_ignored_wrong`. -/
theorem C59_history_partial {R : Type} (contents : Bytes) (hlen : contents.length < 2 ^ 63)
    (dispatch : Bool → Nat → Bytes → Bytes → Except Err R) (toVirt : R → Nat → Except Err (Option Nat))
    (debugSyms : Bool) (history : List (Nat × Bool)) (hh : ∀ q ∈ history, q.2 = debugSyms) (off : Nat) :
    (cachedApkResolver contents dispatch toVirt
      (cacheAfter contents dispatch toVirt history InsertMap.empty) off debugSyms).1 =
        createApkResolver contents (dispatch debugSyms) toVirt off :=
  (cached_fresh contents hlen dispatch toVirt _ off debugSyms
    (fresh_after contents hlen dispatch toVirt debugSyms history _ hh (fresh_empty contents _))).1

/-- **C59 does not hold**: once an offset of a member has been requested with or without debug
information, all later requests for the member are answered that way, whatever they ask for. -/
theorem C59_debug_syms_ignored_wrong {R : Type} (contents : Bytes) (hlen : contents.length < 2 ^ 63)
    {before : List Entry} {e : Entry} (hm : Members contents before e) {off : Nat} (hw : Within e off)
    (hb : ∀ x ∈ before, ¬ Within x off) (dispatch : Bool → Nat → Bytes → Bytes → Except Err R)
    (toVirt : R → Nat → Except Err (Option Nat)) (debugSyms : Bool) (r r' : R) (addr addr' : Nat)
    (hr : dispatch debugSyms e.dataOffset e.path e.data = .ok r) (hr' : dispatch (!debugSyms) e.dataOffset e.path e.data = .ok r')
    (ht : toVirt r (off - e.dataOffset) = .ok (some addr)) (ht' : toVirt r' (off - e.dataOffset) = .ok (some addr')) :
    (cachedApkResolver contents dispatch toVirt
      (cacheAfter contents dispatch toVirt [(off, debugSyms)] InsertMap.empty) off (!debugSyms)).1 =
        .ok (some (r, addr)) ∧
      createApkResolver contents (dispatch (!debugSyms)) toVirt off = .ok (some (r', addr')) := by
  constructor
  · obtain ⟨hs, hne⟩ := members_slice hm
    have hd := memberData_eq hlen hs hne
    obtain ⟨after, he⟩ := hm
    have hf := findMember_some.mpr ⟨before, after, rfl, hw, hb⟩
    have hc : cacheAfter contents dispatch toVirt [(off, debugSyms)] InsertMap.empty =
        ⟨[((e.dataOffset, e.dataOffset + e.data.length), r)]⟩ := by
      simp only [cacheAfter, cachedApkResolver, C29_map, he, hf, hd, hr, InsertMap.getOrTryInsert, InsertMap.empty,
        InsertMap.find, ht]
    rw [hc]
    simp only [cachedApkResolver, C29_map, he, hf, InsertMap.getOrTryInsert, InsertMap.find, if_true, ht]
  · have := (C27_resolver hlen hm hw hb (dispatch (!debugSyms)) toVirt).2 r' hr'
    rw [this, ht']
    rfl

/-- In the example archive, a request without debug information after one with it. -/
example : Members demoZip [] demoEntry ∧ Within demoEntry 32 ∧
    (cachedApkResolver demoZip (fun d _ _ _ => .ok d) (fun _ o => .ok (some o))
      (cacheAfter demoZip (fun d _ _ _ => .ok d) (fun _ o => .ok (some o)) [(32, true)] InsertMap.empty) 32 false).1 =
        .ok (some (true, 1)) :=
  ⟨⟨[], demo_entries⟩, by decide, by decide +kernel⟩

end Blazesym.Zip
