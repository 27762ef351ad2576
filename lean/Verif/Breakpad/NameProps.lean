import Verif.Breakpad.LookupProps
import Mathlib.Data.List.Forall2
import Mathlib.Tactic.Convert
import Verif.Elf.NameSpec
import Verif.Util.SearchProps

/-! # C56, C45 (Breakpad): finding functions by name, and visiting all of them -/

set_option autoImplicit false

namespace Blazesym.Util
open Blazesym.Spec

/-- In a sorted sequence, the elements with key `k` are those from the first one on, up to one
with another key. -/
theorem takeWhile_eq_filter {α κ : Type} [LinearOrder κ] (l : List α) (key : α → κ) (k : κ)
    (hs : SortedBy l key) (hge : ∀ e ∈ l, k ≤ key e) :
    l.takeWhile (fun e => decide (key e = k)) = l.filter (fun e => decide (key e = k)) := by
  induction l with
  | nil => rfl
  | cons a t ih =>
    have hs' := List.pairwise_cons.mp hs
    by_cases ha : key a = k
    · rw [List.takeWhile_cons_of_pos (by simpa using ha), List.filter_cons_of_pos (by simpa using ha),
        ih hs'.2 (fun e he => hge e (List.mem_cons_of_mem _ he))]
    · rw [List.takeWhile_cons_of_neg (by simpa using ha), List.filter_cons_of_neg (by simpa using ha)]
      symm
      rw [List.filter_eq_nil_iff]
      intro e he
      have h1 := hs'.1 e he
      have h2 := lt_of_le_of_ne (hge a (List.mem_cons_self ..)) (fun h => ha h.symm)
      have h3 : k < key e := lt_of_lt_of_le h2 h1
      simpa using (ne_of_gt h3)

theorem drop_takeWhile_eq_filter {α κ : Type} [LinearOrder κ] (l : List α) (key : α → κ) (k : κ)
    (hs : SortedBy l key) (i : Nat) (hi : IsFirstIdx l (fun e => key e = k) i) :
    (l.drop i).takeWhile (fun e => decide (key e = k)) = l.filter (fun e => decide (key e = k)) := by
  obtain ⟨⟨x, hx, hxk⟩, hfirst⟩ := hi
  obtain ⟨hil, hxe⟩ := List.getElem?_eq_some_iff.mp hx
  have hd : l.drop i = x :: l.drop (i + 1) := by rw [List.drop_eq_getElem_cons hil, hxe]
  have hsd : SortedBy (l.drop i) key := List.Pairwise.sublist (List.drop_sublist i l) hs
  rw [takeWhile_eq_filter _ key k hsd]
  · conv => rhs; rw [← List.take_append_drop i l]
    rw [List.filter_append]
    have : (l.take i).filter (fun e => decide (key e = k)) = [] := by
      rw [List.filter_eq_nil_iff]
      intro e he
      obtain ⟨j, hj⟩ := List.mem_iff_getElem?.mp he
      rw [List.getElem?_take] at hj
      split at hj
      · have := hfirst j e (by assumption) hj
        simpa using this
      · cases hj
    rw [this, List.nil_append]
  · intro e he
    unfold SortedBy at hsd
    rw [hd] at he hsd
    rcases List.mem_cons.mp he with rfl | he
    · rw [hxk]
    · rw [← hxk]; exact (List.pairwise_cons.mp hsd).1 e he

end Blazesym.Util

namespace Blazesym.Breakpad
open Blazesym.Util Blazesym.Spec Blazesym.Spec.Breakpad Blazesym.Symbolize

/-- The indexes are in bounds. -/
theorem byNameIdx_lt {funcs : List Function} {i : Nat} (h : i ∈ createByNameIdx funcs) : i < funcs.length := by
  unfold createByNameIdx at h
  rw [mem_sortByKey] at h
  exact List.mem_range.mp h

theorem nameKey_inj {a b : Bytes} : nameKey a = nameKey b ↔ a = b := by
  constructor
  · intro h
    exact List.map_injective_iff.mpr (fun x y h => UInt8.toNat_inj.mp h) h
  · rintro rfl; rfl

theorem range_filter_map (funcs : List Function) (p : Function → Bool) :
    ((List.range funcs.length).filter (fun i => p (funcAt funcs i))).map (funcAt funcs) = funcs.filter p := by
  rw [show (fun i => p (funcAt funcs i)) = p ∘ funcAt funcs from rfl, ← List.filter_map]
  congr 1
  apply List.ext_getElem?
  intro i
  rw [List.getElem?_map]
  by_cases hi : i < funcs.length
  · rw [List.getElem?_range hi]
    simp [funcAt, hi]
  · rw [List.getElem?_eq_none (by simpa using hi), List.getElem?_eq_none (by simpa using hi)]
    rfl

/-- **C56** (name lookup): looking up a name gives exactly the functions with that name, in
the order of their addresses. -/
theorem findAddr_eq {file : SymbolFile} (hl : Loaded file) (name : Bytes) :
    file.findAddr name = file.functions.filter (fun f => decide (f.name = name)) := by
  have hsf := loaded_functions hl
  have hsorted : SortedBy (createByNameIdx file.functions)
      (fun i => nameKey (funcAt file.functions i).name) := by
    have := sortByKey_sorted (fun idx : Nat => toLex (nameKey (funcAt file.functions idx).name,
      (funcAt file.functions idx).addr)) (List.range file.functions.length)
    refine List.Pairwise.imp ?_ this
    intro a b hab
    rw [Prod.Lex.toLex_le_toLex] at hab
    rcases hab with h | h
    · exact le_of_lt h
    · exact le_of_eq h.1
  have hpred : ∀ i, ((funcAt file.functions i).name == name) =
      decide (nameKey (funcAt file.functions i).name = nameKey name) := by
    intro i
    rw [Bool.eq_iff_iff]
    simp [nameKey_inj]
  -- the part of the index with this name
  have hidx : (createByNameIdx file.functions).filter
        (fun i => decide (nameKey (funcAt file.functions i).name = nameKey name)) =
      (List.range file.functions.length).filter
        (fun i => decide (nameKey (funcAt file.functions i).name = nameKey name)) := by
    have hst : StableSorted (fun idx : Nat => toLex (nameKey (funcAt file.functions idx).name,
        (funcAt file.functions idx).addr))
        ((List.range file.functions.length).filter
          (fun i => decide (nameKey (funcAt file.functions i).name = nameKey name)))
        ((createByNameIdx file.functions).filter
          (fun i => decide (nameKey (funcAt file.functions i).name = nameKey name))) := by
      have h := sortByKey_stable (fun idx : Nat => toLex (nameKey (funcAt file.functions idx).name,
        (funcAt file.functions idx).addr)) (List.range file.functions.length)
      refine ⟨List.Pairwise.sublist List.filter_sublist h.1, ?_⟩
      intro k
      rw [List.filter_filter, List.filter_filter]
      have := congrArg (List.filter (fun i => decide (nameKey (funcAt file.functions i).name = nameKey name)))
        (h.2 k)
      rw [List.filter_filter, List.filter_filter] at this
      simp only [Bool.and_comm] at this ⊢
      exact this
    refine Util.StableSorted.unique hst ⟨?_, fun _ => rfl⟩
    -- the indexes of functions with the same name are ascending in address already
    rw [List.pairwise_filter]
    have hr : (List.range file.functions.length).Pairwise
        (fun a b => (funcAt file.functions a).addr ≤ (funcAt file.functions b).addr) := by
      rw [List.pairwise_iff_getElem]
      intro i j hi hj hij
      simp only [List.getElem_range]
      rw [List.length_range] at hi hj
      have := List.pairwise_iff_getElem.mp (sorted_start hsf) i j hi hj hij
      simpa [funcAt, hi, hj] using this
    refine hr.imp ?_
    intro a b hab ha hb
    rw [Prod.Lex.toLex_le_toLex]
    right
    exact ⟨(of_decide_eq_true ha).trans (of_decide_eq_true hb).symm, hab⟩
  unfold SymbolFile.findAddr
  simp only [hpred]
  obtain ⟨hsome, hnone⟩ := C06_find_lowest_match_by_key _ _ hsorted (nameKey name)
  split
  · rename_i h
    have hn := hnone.mp h
    symm
    rw [List.filter_eq_nil_iff]
    intro f hf hfn
    obtain ⟨j, hj⟩ := List.mem_iff_getElem?.mp hf
    have hjl := (List.getElem?_eq_some_iff.mp hj).1
    have hmem : j ∈ createByNameIdx file.functions := by
      unfold createByNameIdx
      rw [mem_sortByKey]
      exact List.mem_range.mpr hjl
    apply hn j hmem
    have : funcAt file.functions j = f := by
      unfold funcAt; rw [hj]; rfl
    rw [this, nameKey_inj]
    simpa using hfn
  · rename_i i h
    have hi := (hsome i).mp h
    have hd : ((createByNameIdx file.functions).drop i).takeWhile
          (fun i => decide (nameKey (funcAt file.functions i).name = nameKey name)) =
        (createByNameIdx file.functions).filter
          (fun i => decide (nameKey (funcAt file.functions i).name = nameKey name)) := by
      convert drop_takeWhile_eq_filter _ _ (nameKey name) hsorted i hi
    rw [hd, hidx]
    have := range_filter_map file.functions (fun f => decide (nameKey f.name = nameKey name))
    rw [this]
    apply List.filter_congr
    intro f _
    rw [Bool.eq_iff_iff]
    simp [nameKey_inj]

/-- The description of a function that is reported to users. -/
def Describes (f : Function) (r : Elf.SymInfo) : Prop :=
  r.name = f.name ∧ r.addr = f.addr ∧ r.size = some f.size ∧ r.symType = .function ∧ r.fileOffset = none

theorem describes_iff (f : Function) (r : Elf.SymInfo) : Describes f r ↔ r = symInfo f := by
  unfold Describes symInfo
  cases r
  simp

/-- **C56**: looking up a name reports exactly the functions with that name, in the order of
the data (by address), with their address and size; asking for variables is not supported. -/
theorem C56_name_lookup {file : SymbolFile} (hl : Loaded file) (name : Bytes) (ty : Elf.SymType) :
    (ty = .variable → file.lookupName name ty = .error .unsupported) ∧
    (ty ≠ .variable → ∃ res, file.lookupName name ty = .ok res ∧
      List.Forall₂ Describes (file.functions.filter (fun f => decide (f.name = name))) res) := by
  unfold SymbolFile.lookupName
  constructor
  · rintro rfl; rfl
  · intro h
    rw [if_neg h, findAddr_eq hl]
    refine ⟨_, rfl, ?_⟩
    rw [List.forall₂_map_right_iff]
    exact List.forall₂_same.mpr (fun f _ => (describes_iff f _).mpr rfl)

theorem forEachLoop_eq {S : Type} (f : S → Elf.SymInfo → S × Bool) (l : List Function) (s : S) :
    forEachLoop f l s = (Spec.Elf.feed f s (l.map symInfo)).1 := by
  induction l generalizing s with
  | nil => rfl
  | cons a t ih =>
    unfold forEachLoop
    rw [List.map_cons]
    unfold Spec.Elf.feed
    generalize f s (symInfo a) = r
    obtain ⟨s', b⟩ := r
    cases b
    · exact ih s'
    · rfl

/-- **C45** (Breakpad): the callback is given all functions, in the order of the data, until it
asks to stop; asking for variables is not supported. -/
theorem C45_breakpad {S : Type} (file : SymbolFile) (ty : Elf.SymType) (f : S → Elf.SymInfo → S × Bool) (s : S) :
    (ty = .variable → file.forEach ty f s = (.error .unsupported, s)) ∧
    (ty ≠ .variable → ∃ infos, List.Forall₂ Describes file.functions infos ∧
      file.forEach ty f s = (.ok (), (Spec.Elf.feed f s infos).1)) := by
  unfold SymbolFile.forEach
  constructor
  · rintro rfl; rfl
  · intro h
    rw [if_neg h]
    refine ⟨file.functions.map symInfo, ?_, by rw [forEachLoop_eq]⟩
    rw [List.forall₂_map_right_iff]
    exact List.forall₂_same.mpr (fun f _ => (describes_iff f _).mpr rfl)

/-! ### Concrete cases -/

def dups : String := "FUNC 30 8 0 g\nFUNC 10 8 0 f\nFUNC 20 8 0 g\nFUNC 18 8 0 a\n"

example : Loaded (load dups) := loaded_of (by decide +kernel)
example : (load dups).lookupName (ascii "g") .function = .ok
    [⟨ascii "g", 0x20, some 8, .function, none⟩, ⟨ascii "g", 0x30, some 8, .function, none⟩] := by
  decide +kernel
example : (load dups).lookupName (ascii "h") .function = .ok [] := by decide +kernel

-- Stop after the second one.
example : (load dups).forEach (S := List Nat) .function (fun s i => (i.addr :: s, decide (s.length = 1))) [] =
    (.ok (), [0x18, 0x10]) := by decide +kernel

end Blazesym.Breakpad
