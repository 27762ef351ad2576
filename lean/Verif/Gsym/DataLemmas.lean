import Verif.Gsym.DataSpec
import Verif.Gsym.CodeProps
import Verif.Gsym.LookupProps

/-! Lemmas about the data of GSYM entries. -/

set_option autoImplicit false

namespace Blazesym.Gsym
open Blazesym.Util Blazesym.Spec Blazesym.Spec.Gsym Blazesym.Symbolize

theorem le4_exists {d : Bytes} (h : 4 ≤ d.length) : ∃ n, n < 2 ^ 32 ∧ d = le4 n ++ d.drop 4 := by
  match d, h with
  | a :: b :: c :: e :: rest, _ =>
    refine ⟨a.toNat + 256 * b.toNat + 65536 * c.toNat + 16777216 * e.toNat, ?_, ?_⟩
    · have := a.toNat_lt; have := b.toNat_lt; have := c.toNat_lt; have := e.toNat_lt
      omega
    · have ha := a.toNat_lt; have hb := b.toNat_lt; have hc := c.toNat_lt; have he := e.toNat_lt
      have key : ∀ (x : UInt8) (n : Nat), n = x.toNat → UInt8.ofNat n = x := by
        rintro x n rfl
        exact UInt8.ofNat_toNat
      unfold le4
      rw [key a _ (by omega), key b _ (by omega), key c _ (by omega), key e _ (by omega)]
      rfl

/-- Every text consists of items and something after the last one. -/
theorem items_exist (d : Bytes) : ∃ (items : List Item) (tail : Bytes), d = items.flatMap Item.bytes ++ tail ∧
    ItemsEnd tail ∧ ∀ i ∈ items, i.InRange := by
  induction hn : d.length using Nat.strong_induction_on generalizing d with
  | _ n ih =>
    by_cases h4 : d.length < 4
    · exact ⟨[], d, rfl, .inr (.inl h4), by simp⟩
    obtain ⟨t, ht, hd⟩ := le4_exists (by omega : 4 ≤ d.length)
    by_cases h0 : t = 0
    · subst h0
      exact ⟨[], d, rfl, .inl ⟨_, hd⟩, by simp⟩
    by_cases h8 : (d.drop 4).length < 4
    · exact ⟨[], d, rfl, .inr (.inr (.inl ⟨t, _, hd, ht, h8⟩)), by simp⟩
    obtain ⟨l, hl, hd'⟩ := le4_exists (by omega : 4 ≤ (d.drop 4).length)
    by_cases hp : ((d.drop 4).drop 4).length < l
    · exact ⟨[], d, rfl, .inr (.inr (.inr ⟨t, l, _, by rw [← hd']; exact hd, ht, hl, hp⟩)), by simp⟩
    obtain ⟨items, tail, h1, h2, h3⟩ := ih (((d.drop 4).drop 4).drop l).length
      (by simp only [List.length_drop] at *; omega) _ rfl
    have hlen : (((d.drop 4).drop 4).take l).length = l := by
      rw [List.length_take]; omega
    refine ⟨⟨t, ((d.drop 4).drop 4).take l⟩ :: items, tail, ?_, h2, ?_⟩
    · rw [List.flatMap_cons, List.append_assoc, ← h1]
      unfold Item.bytes
      rw [hlen, List.append_assoc, List.append_assoc, List.take_append_drop, ← hd', ← hd]
    · intro i hi
      rcases List.mem_cons.mp hi with rfl | hi
      · exact ⟨h0, ht, by rw [hlen]; exact hl⟩
      · exact h3 i hi

/-- What a line table is read as. -/
theorem row_of {payload : Bytes} {start : Nat} {h : LineHdr} {ops : List LineOp} (ht : IsLineTable payload start h ops)
    (addr a : Nat) : ∃ r, RowOf h ops start addr r ∧
      parseLineTabInfo ⟨a, payload⟩ start addr = .ok (r.map ofRow) := by
  obtain ⟨tail, h1, rfl⟩ := ht.text
  by_cases hall : ∀ x ∈ rows h (Gsym.start h start) ops, addr < x.addr
  · exact ⟨none, .none hall, C19_no_row ht.header ops tail h1 start addr a ht.sane hall⟩
  by_cases hle : ∀ x ∈ rows h (Gsym.start h start) ops, x.addr ≤ addr
  · have hne : rows h (Gsym.start h start) ops ≠ [] := by
      intro he
      rw [he] at hall
      exact hall (by simp)
    exact ⟨_, .last hne hle, C19_trailing_operators ht.header ops tail h1 start addr a ht.sane hne hle⟩
  have key : ∀ l : List Row, l.Pairwise (fun x y => x.addr ≤ y.addr) → (¬ ∀ x ∈ l, addr < x.addr) →
      (¬ ∀ x ∈ l, x.addr ≤ addr) → ∃ r later, IsLastNotAbove l addr r later ∧ later ≠ [] := by
    intro l
    induction l with
    | nil => intro _ h1; exact absurd (by simp) h1
    | cons y l ih =>
      intro hp h1 h2
      rw [List.pairwise_cons] at hp
      by_cases hy : addr < y.addr
      · exact absurd (fun x hx => by
          rcases List.mem_cons.mp hx with rfl | hx
          · exact hy
          · exact lt_of_lt_of_le hy (hp.1 x hx)) h1
      by_cases hl : ∀ x ∈ l, addr < x.addr
      · refine ⟨y, l, ⟨[], rfl, by omega, hl⟩, ?_⟩
        rintro rfl
        exact h2 (by simpa using hy)
      · obtain ⟨r, later, ⟨pre, rfl, k1, k2⟩, k3⟩ := ih hp.2 hl (by
          intro h
          exact h2 (fun x hx => by
            rcases List.mem_cons.mp hx with rfl | hx
            · omega
            · exact h x hx))
        exact ⟨r, later, ⟨y :: pre, rfl, k1, k2⟩, k3⟩
  obtain ⟨r, later, h2, h3⟩ := key _ (C19_rows_ascending h ops _) hall hle
  exact ⟨some r, .between r later h2 h3, C19_row ht.header ops tail h1 start addr a ht.sane r later h2 h3⟩

/-- The frame for an inlined function. -/
def frameFor (p : Placed) : InlineFrame := ⟨p.fn.name, p.fn.callFile, min p.fn.callLine (2 ^ 32 - 1)⟩

theorem stack_of {payload : Bytes} {start addr : Nat} {root : Inlined} {children : Forest}
    (ht : IsTree payload start addr root children) (a : Nat) :
    parseInlineStack ⟨a, payload⟩ start addr [] =
      .ok (((Forest.cons root children .nil).named start addr).map frameFor) := by
  obtain ⟨tail, rfl⟩ := ht.text
  rw [C20_inlined addr root children ht.range start a tail [] ht.valid]
  rfl

/-- The row read from an item, and the frames. -/
def rowRead (start addr : Nat) (d : AddrData) : Option LineTableRow :=
  match parseLineTabInfo d.data start addr with | .ok r => r | .error _ => none
def stackRead (start addr : Nat) (d : AddrData) : List InlineFrame :=
  match parseInlineStack d.data start addr [] with | .ok s => s | .error _ => []

theorem readable_tail {i : Item} {items : List Item} {start addr : Nat} (h : ItemsReadable (i :: items) start addr) :
    ItemsReadable items start addr :=
  ⟨fun j hj => h.lines j (List.mem_cons_of_mem _ hj), fun j hj => h.trees j (List.mem_cons_of_mem _ hj)⟩

theorem firstRow_of {items : List Item} {start addr : Nat} (h : ItemsReadable items start addr) (a : Nat) :
    ∃ r, FirstRow start addr items r ∧
      ((place a items).filter fun d => decide (d.typ = 1)).findSome? (rowRead start addr) = r.map ofRow := by
  induction items generalizing a with
  | nil => exact ⟨none, .nil, rfl⟩
  | cons i items ih =>
    obtain ⟨r, h1, h2⟩ := ih (readable_tail h) (a + 8 + i.payload.length)
    by_cases hi : i.typ = 1
    · obtain ⟨hd, ops, ht⟩ := h.lines i (List.mem_cons_self ..) hi
      obtain ⟨r', h3, h4⟩ := row_of ht addr (a + 8)
      have h5 : rowRead start addr ⟨i.typ, ⟨a + 8, i.payload⟩⟩ = r'.map ofRow := by
        unfold rowRead
        rw [h4]
      cases r' with
      | none =>
        refine ⟨r, .next i items hd ops r hi ht h3 h1, ?_⟩
        simp only [place, List.filter_cons, hi, decide_true, if_true, List.findSome?_cons]
        rw [← hi, h5]
        simpa [hi] using h2
      | some row =>
        refine ⟨some row, .found i items hd ops row hi ht h3, ?_⟩
        simp only [place, List.filter_cons, hi, decide_true, if_true, List.findSome?_cons]
        rw [← hi, h5]
        rfl
    · refine ⟨r, .other i items r hi h1, ?_⟩
      simp only [place, List.filter_cons, hi, decide_false, Bool.false_eq_true, if_false]
      exact h2

theorem firstCalls_of {items : List Item} {start addr : Nat} (h : ItemsReadable items start addr) (a : Nat) :
    ∃ calls, FirstCalls start addr items calls ∧
      ((((place a items).filter fun d => decide (d.typ = 2)).map (stackRead start addr)).find?
        fun s => decide (s ≠ [])).getD [] = calls.map frameFor := by
  induction items generalizing a with
  | nil => exact ⟨[], .nil, rfl⟩
  | cons i items ih =>
    obtain ⟨r, h1, h2⟩ := ih (readable_tail h) (a + 8 + i.payload.length)
    by_cases hi : i.typ = 2
    · obtain ⟨root, children, ht⟩ := h.trees i (List.mem_cons_self ..) hi
      have h5 : stackRead start addr ⟨i.typ, ⟨a + 8, i.payload⟩⟩ =
          ((Forest.cons root children .nil).named start addr).map frameFor := by
        unfold stackRead
        rw [stack_of ht]
      by_cases hn : (Forest.cons root children .nil).named start addr = []
      · refine ⟨r, .next i items root children r hi ht hn h1, ?_⟩
        simp only [place, List.filter_cons, hi, decide_true, if_true, List.map_cons, List.find?_cons]
        rw [← hi, h5, hn]
        simpa [hi] using h2
      · refine ⟨_, .found i items root children hi ht hn, ?_⟩
        simp only [place, List.filter_cons, hi, decide_true, if_true, List.map_cons, List.find?_cons]
        rw [← hi, h5]
        simp [hn]
    · refine ⟨r, .other i items r hi h1, ?_⟩
      simp only [place, List.filter_cons, hi, decide_false, Bool.false_eq_true, if_false]
      exact h2

theorem query_ok {ctx : Context} {c : Cursor} {f : GsymFile} (hr : Rep ctx c f) {idx line : Nat} {ci : CodeInfo}
    (h : queryFrameCodeInfo ctx idx line = .ok ci) : SiteIs f idx line ci := by
  unfold queryFrameCodeInfo at h
  obtain ⟨fi, h1, h⟩ := bind_ok h
  obtain ⟨dir, h2, h⟩ := bind_ok h
  obtain ⟨file, h3, h⟩ := bind_ok h
  cases h
  have h1 := orInvalid_ok h1
  have h2 := orInvalid_ok h2
  have h3 := orInvalid_ok h3
  unfold Context.fileInfo at h1
  rw [hr.files, List.getElem?_map] at h1
  cases hp : f.files[idx]? with
  | none => rw [hp] at h1; cases h1
  | some p =>
    rw [hp] at h1
    cases h1
    rw [getStr_iff, hr.strs] at h2 h3
    exact ⟨p, dir, file, hp, h2, h3, rfl⟩

/-- Frames that could be added have names and locations. -/
theorem addFrames_inv {ctx : Context} (frs : List InlineFrame) (li : CodeInfo) (inl : List InlinedFn)
    {r : CodeInfo × List InlinedFn} (h : addFrames ctx frs li inl = .ok r) :
    ∃ (names : List Bytes) (sites : List CodeInfo),
      List.Forall₂ (fun (fr : InlineFrame) n => ctx.getUtf8 fr.name = some n) frs names ∧
      List.Forall₂ (fun (fr : InlineFrame) ci => queryFrameCodeInfo ctx fr.callFile fr.callLine = .ok ci) frs sites := by
  induction frs generalizing li inl with
  | nil => exact ⟨[], [], .nil, .nil⟩
  | cons fr frs ih =>
    unfold addFrames at h
    obtain ⟨n, h1, h⟩ := bind_ok h
    obtain ⟨ci, h2, h⟩ := bind_ok h
    have h1 := orInvalid_ok h1
    split at h
    · obtain ⟨ns, ss, k1, k2⟩ := ih _ _ h
      exact ⟨n :: ns, ci :: ss, .cons h1 k1, .cons h2 k2⟩
    · obtain ⟨ns, ss, k1, k2⟩ := ih _ _ h
      exact ⟨n :: ns, ci :: ss, .cons h1 k1, .cons h2 k2⟩

end Blazesym.Gsym
