import Verif.Gsym.CodeSpec
import Verif.Gsym.LookupProps
import Verif.Gsym.LineProps
import Verif.Gsym.InlineProps
import Mathlib.Data.List.Forall2

set_option autoImplicit false

namespace Blazesym.Gsym
open Blazesym.Util Blazesym.Spec Blazesym.Spec.Gsym Blazesym.Symbolize

theorem le4_value {n : Nat} (hn : n < 2 ^ 32) : leValue (le4 n) = n := by
  simp only [le4, leValue, ofNat_mod]
  omega

theorem step_u32 {α : Type} {n : Nat} (hn : n < 2 ^ 32) (rest : Bytes) (a : Nat) (f : Nat → Rd α) :
    (readU32 >>= f) ⟨a, le4 n ++ rest⟩ = f n ⟨a + 4, rest⟩ := by
  rw [rd_bind_eq]
  unfold readU32
  rw [readUint_ok (by simp [le4_length])]
  simp only [show 4 = (le4 n).length from rfl, List.take_left, List.drop_left, le4_value hn]

theorem u32_short {data : Bytes} (h : data.length < 4) (a : Nat) :
    ∃ c', readU32 ⟨a, data⟩ = (.error .none, c') := by
  unfold readU32
  rw [readUint_none (by exact h)]
  exact ⟨_, rfl⟩

/-- Address and bytes of the items. -/
def place (a : Nat) : List Item → List AddrData
  | [] => []
  | i :: rest => ⟨i.typ, ⟨a + 8, i.payload⟩⟩ :: place (a + 8 + i.payload.length) rest

theorem next_item {i : Item} (hi : i.InRange) (a : Nat) (rest : Bytes) :
    nextAddressData ⟨a, i.bytes ++ rest⟩ =
      (.ok (some ⟨i.typ, ⟨a + 8, i.payload⟩⟩), ⟨a + 8 + i.payload.length, rest⟩) := by
  obtain ⟨h1, h2, h3⟩ := hi
  unfold nextAddressData Item.bytes
  rw [List.append_assoc, List.append_assoc, step_u32 h2,
    if_neg (show ¬ i.typ = INFO_TYPE_END_OF_LIST from h1), step_u32 h3, step_addr, rd_bind_eq]
  rw [readSlice_ok (by simp)]
  simp [pure, Rd.pure]

theorem next_end {tail : Bytes} (ht : ItemsEnd tail) (a : Nat) :
    ∀ d c', nextAddressData ⟨a, tail⟩ ≠ (.ok (some d), c') := by
  intro d c' h
  unfold nextAddressData at h
  rcases ht with ⟨t, rfl⟩ | hs | ⟨t, l, rfl, h1, h2⟩ | ⟨t, n, p, rfl, h1, h2, h3⟩
  · rw [step_u32 (by norm_num), if_pos (show (0 : Nat) = INFO_TYPE_END_OF_LIST from rfl)] at h
    cases h
  · obtain ⟨c'', hc⟩ := u32_short hs a
    rw [rd_bind_eq, hc] at h
    cases h
  · rw [step_u32 h1] at h
    by_cases h0 : t = INFO_TYPE_END_OF_LIST
    · rw [if_pos h0] at h; cases h
    · rw [if_neg h0] at h
      obtain ⟨c'', hc⟩ := u32_short h2 (a + 4)
      rw [rd_bind_eq, hc] at h
      cases h
  · rw [step_u32 h1] at h
    by_cases h0 : t = INFO_TYPE_END_OF_LIST
    · rw [if_pos h0] at h; cases h
    · rw [if_neg h0, step_u32 h2] at h
      rw [step_addr, rd_bind_eq, readSlice_none (by exact h3)] at h
      cases h

theorem loop_end {tail : Bytes} (ht : ItemsEnd tail) (a fuel : Nat) :
    addressDataLoop fuel ⟨a, tail⟩ = [] := by
  cases fuel with
  | zero => rfl
  | succ fuel =>
    unfold addressDataLoop
    split
    · rename_i d c' h; exact absurd h (next_end ht a d c')
    · rfl

theorem loop_items (items : List Item) (hi : ∀ i ∈ items, i.InRange) {tail : Bytes}
    (ht : ItemsEnd tail) (a fuel : Nat)
    (hf : (items.flatMap Item.bytes).length ≤ fuel) :
    addressDataLoop fuel ⟨a, items.flatMap Item.bytes ++ tail⟩ = place a items := by
  induction items generalizing a fuel with
  | nil => exact loop_end ht a fuel
  | cons i t ih =>
    simp only [List.flatMap_cons, List.append_assoc, List.length_append] at hf ⊢
    have hl : 8 ≤ i.bytes.length := by
      simp only [Item.bytes, List.length_append, le4_length]; omega
    obtain ⟨k, rfl⟩ : ∃ k, fuel = k + 1 := ⟨fuel - 1, by omega⟩
    unfold addressDataLoop
    rw [next_item (hi i (by simp))]
    simp only [place]
    rw [ih (fun x hx => hi x (by simp [hx])) _ k (by omega)]

theorem parse_items (items : List Item) (hi : ∀ i ∈ items, i.InRange) {tail : Bytes}
    (ht : ItemsEnd tail) (a : Nat) :
    parseAddressData ⟨a, items.flatMap Item.bytes ++ tail⟩ = place a items := by
  unfold parseAddressData
  exact loop_items items hi ht a _ (by simp)

theorem place_map (a : Nat) (items : List Item) :
    (place a items).map (fun d => (d.typ, d.data.data)) = items.map fun i => (i.typ, i.payload) := by
  induction items generalizing a with
  | nil => rfl
  | cons i t ih => simp only [place, List.map_cons, ih]

/-- The line table row and the inline stack that are used: those of the first line table with
a row and of the first inline information with a function. -/
theorem collect_eq (symAddr addr : Nat) (inl : Bool) (items : List AddrData)
    (ρ : AddrData → Option LineTableRow) (ι : AddrData → List InlineFrame)
    (hρ : ∀ d ∈ items, d.typ = 1 → parseLineTabInfo d.data symAddr addr = .ok (ρ d))
    (hι : ∀ d ∈ items, d.typ = 2 → inl = true →
      parseInlineStack d.data symAddr addr [] = .ok (ι d))
    (row : Option LineTableRow) (stack : List InlineFrame) :
    collectAddrData symAddr addr inl items row stack =
      .ok (row.or ((items.filter fun d => decide (d.typ = 1)).findSome? ρ),
        if stack = [] then
          (((items.filter fun d => decide (d.typ = 2 ∧ inl = true)).map ι).find?
            fun s => decide (s ≠ [])).getD []
        else stack) := by
  induction items generalizing row stack with
  | nil =>
    simp only [collectAddrData, List.filter_nil, List.findSome?_nil, Option.or_none, List.map_nil,
      List.find?_nil, Option.getD_none]
    split_ifs with h
    · rw [h]
    · rfl
  | cons d t ih =>
    have ih := ih (fun x hx => hρ x (by simp [hx])) (fun x hx => hι x (by simp [hx]))
    unfold collectAddrData
    by_cases h1 : d.typ = INFO_TYPE_LINE_TABLE_INFO
    · have h1' : d.typ = 1 := h1
      have h2 : ¬ d.typ = 2 := by omega
      rw [if_pos h1]
      simp only [List.filter_cons, h1', decide_true, if_true, show ¬ (1 = 2) by omega, false_and,
        decide_false, List.findSome?_cons, Bool.false_eq_true, if_false]
      cases row with
      | none =>
        simp only [Option.isNone_none, if_true]
        rw [hρ d (by simp) h1', eok_bind, ih]
        cases hr : ρ d <;> simp [h1', hr]
      | some r =>
        simp only [Option.isNone_some, Bool.false_eq_true, if_false]
        rw [ih]
        simp
    · rw [if_neg h1]
      have h1' : ¬ d.typ = 1 := h1
      by_cases h2 : d.typ = INFO_TYPE_INLINE_INFO ∧ inl = true
      · have h2' : d.typ = 2 := h2.1
        obtain ⟨_, rfl⟩ := h2
        rw [if_pos ⟨h2', rfl⟩]
        simp only [List.filter_cons, h1', h2', decide_false, and_self, decide_true, if_true,
          List.map_cons, List.find?_cons, Bool.false_eq_true, if_false]
        cases stack with
        | nil =>
          simp only [List.isEmpty_nil, if_true]
          rw [hι d (by simp) h2' rfl, eok_bind, ih]
          cases hr : ι d <;> simp [h2']
        | cons s ss =>
          simp only [List.isEmpty_cons, Bool.false_eq_true, if_false]
          rw [ih]
          simp [h2']
      · rw [if_neg h2, ih]
        have h2' : ¬ (d.typ = 2 ∧ inl = true) := h2
        simp only [List.filter_cons, h1', h2', decide_false, Bool.false_eq_true, if_false]

theorem query_eq {ctx : Context} {c : Cursor} {f : GsymFile} (hr : Rep ctx c f) {idx line : Nat}
    {ci : CodeInfo} (h : SiteIs f idx line ci) : queryFrameCodeInfo ctx idx line = .ok ci := by
  obtain ⟨p, dir, file, h1, h2, h3, rfl⟩ := h
  unfold queryFrameCodeInfo Context.fileInfo
  rw [hr.files, List.getElem?_map, h1]
  simp only [Option.map_some, orInvalid]
  rw [eok_bind]
  rw [← hr.strs, ← getStr_iff] at h2 h3
  simp only [h2, h3]
  rfl

theorem setLast_eq (pre : List InlinedFn) (x : InlinedFn) (ci : Option CodeInfo) :
    setLastCodeInfo (pre ++ [x]) ci = pre ++ [{ x with codeInfo := ci }] := by
  unfold setLastCodeInfo
  simp

/-- The frames after the first: locations move up by one. -/
theorem addFrames_more {ctx : Context} (frs : List InlineFrame) (names : List Bytes)
    (sites : List CodeInfo)
    (hn : List.Forall₂ (fun (fr : InlineFrame) n => ctx.getUtf8 fr.name = some n) frs names)
    (hs : List.Forall₂ (fun (fr : InlineFrame) ci =>
      queryFrameCodeInfo ctx fr.callFile fr.callLine = .ok ci) frs sites)
    (lineInfo : CodeInfo) (pre : List InlinedFn) (n : Bytes) (ci : CodeInfo) :
    addFrames ctx frs lineInfo (pre ++ [⟨n, some ci⟩]) =
      .ok (lineInfo, pre ++ List.zipWith (fun n c => ⟨n, some c⟩) (n :: names) (sites ++ [ci])) := by
  induction frs generalizing names sites pre n with
  | nil =>
    cases hn; cases hs
    simp [addFrames]
  | cons fr t ih =>
    cases hn with
    | cons hn1 hn2 =>
      cases hs with
      | cons hs1 hs2 =>
        unfold addFrames
        rw [hn1]
        simp only [orInvalid]
        rw [eok_bind, hs1, eok_bind]
        simp only [List.getLast?_append, List.getLast?_singleton, Option.some_or]
        rw [setLast_eq]
        rw [ih _ _ hn2 hs2]
        simp

theorem addFrames_eq {ctx : Context} (frs : List InlineFrame) (names : List Bytes)
    (sites : List CodeInfo)
    (hn : List.Forall₂ (fun (fr : InlineFrame) n => ctx.getUtf8 fr.name = some n) frs names)
    (hs : List.Forall₂ (fun (fr : InlineFrame) ci =>
      queryFrameCodeInfo ctx fr.callFile fr.callLine = .ok ci) frs sites)
    (lineInfo : CodeInfo) :
    addFrames ctx frs lineInfo [] =
      .ok ((sites ++ [lineInfo]).head (by simp),
        List.zipWith (fun n c => ⟨n, some c⟩) names (sites ++ [lineInfo]).tail) := by
  cases hn with
  | nil => cases hs; simp [addFrames]
  | cons hn1 hn2 =>
    cases hs with
    | cons hs1 hs2 =>
      unfold addFrames
      rw [hn1]
      simp only [orInvalid]
      rw [eok_bind, hs1, eok_bind]
      simp only [List.getLast?_nil, List.nil_append]
      have := addFrames_more _ _ _ hn2 hs2 ‹_› [] ‹Bytes› lineInfo
      simp only [List.nil_append] at this
      rw [this]
      simp

end Blazesym.Gsym
