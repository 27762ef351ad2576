import Verif.Gsym.DataLemmas

/-!
# C39: the source location and the inlined functions that a GSYM file has for an address, whatever data its entries have
-/

set_option autoImplicit false

namespace Blazesym.Gsym
open Blazesym.Util Blazesym.Spec Blazesym.Spec.Gsym Blazesym.Symbolize

variable {c : Cursor} {ctx : Context} {f : GsymFile}

theorem zip_fst (ns : List Bytes) : ∀ (cs : List CodeInfo), ns.length = cs.length →
    (List.zipWith (fun n c => (⟨n, some c⟩ : InlinedFn)) ns cs).map InlinedFn.name = ns := by
  induction ns with
  | nil => intros; rfl
  | cons n t ih =>
    intro cs hcs
    cases cs with
    | nil => simp at hcs
    | cons x y => simp only [List.zipWith_cons_cons, List.map_cons, ih y (by simpa using hcs)]

theorem zip_snd (ns : List Bytes) : ∀ (cs : List CodeInfo), ns.length = cs.length →
    (List.zipWith (fun n c => (⟨n, some c⟩ : InlinedFn)) ns cs).map InlinedFn.codeInfo = cs.map some := by
  induction ns with
  | nil =>
    intro cs hcs
    cases cs with
    | nil => rfl
    | cons => simp at hcs
  | cons n t ih =>
    intro cs hcs
    cases cs with
    | nil => simp at hcs
    | cons x y => simp only [List.zipWith_cons_cons, List.map_cons, ih y (by simpa using hcs)]

theorem place_cursor {a : Nat} {items : List Item} {d : AddrData} (h : d ∈ place a items) :
    ∃ i ∈ items, d.typ = i.typ ∧ d.data = ⟨d.data.addr, i.payload⟩ := by
  obtain ⟨i, h1, h2, h3⟩ := place_mem h
  exact ⟨i, h1, h2, by rw [← h3]⟩

theorem fill_lang {sym r : ResolvedSym} {addr symAddr : Nat} {opts : FindSymOpts} {info : AddrInfo}
    (h : fillCodeInfo ctx sym addr opts symAddr info = .ok r) : r.lang = sym.lang := by
  unfold fillCodeInfo at h
  split_ifs at h with hc
  · obtain ⟨⟨row, stack⟩, h1, h⟩ := bind_ok h
    simp only at h
    cases row with
    | none => cases h; rfl
    | some row =>
      obtain ⟨li, h2, h⟩ := bind_ok h
      cases stack with
      | nil => cases h; rfl
      | cons first frames =>
        obtain ⟨nm, h3, h⟩ := bind_ok h
        obtain ⟨⟨li', inl⟩, h4, h⟩ := bind_ok h
        cases h; rfl
  · cases h; rfl

/-- The row and the functions that are read from the data of an entry. -/
theorem collect_read {items : List Item} {start addr : Nat} (hread : ItemsReadable items start addr) (inl : Bool) (a : Nat) :
    ∃ row calls, FirstRow start addr items row ∧ FirstCalls start addr items calls ∧
      collectAddrData start addr inl (place a items) none [] =
        .ok (row.map ofRow, if inl = true then calls.map frameFor else []) := by
  have hc := collect_eq start addr inl (place a items) (rowRead start addr) (stackRead start addr)
    (fun d hd h1 => by
      obtain ⟨i, k1, k2, k3⟩ := place_cursor hd
      obtain ⟨hd', ops, ht⟩ := hread.lines i k1 (by omega)
      obtain ⟨r', _, h4⟩ := row_of ht addr d.data.addr
      rw [← k3] at h4
      unfold rowRead
      rw [h4])
    (fun d hd h2 _ => by
      obtain ⟨i, k1, k2, k3⟩ := place_cursor hd
      obtain ⟨root, children, ht⟩ := hread.trees i k1 (by omega)
      have h4 := stack_of ht d.data.addr
      rw [← k3] at h4
      unfold stackRead
      rw [h4]) none []
  obtain ⟨row, hrow, hrow'⟩ := firstRow_of hread a
  obtain ⟨calls, hcalls, hcalls'⟩ := firstCalls_of hread a
  refine ⟨row, calls, hrow, hcalls, ?_⟩
  rw [hc, hrow']
  cases inl with
  | true =>
    simp only [and_true, if_true, Option.none_or]
    rw [hcalls']
  | false => simp

/-- What is added to the symbol of an entry is what its data says. -/
theorem fill_located (hr : Rep ctx c f) {name : Bytes} {start size addr : Nat} {opts : FindSymOpts} {info : AddrInfo}
    {items : List Item} (hdata : parseAddressData info.data = place info.data.addr items)
    (hread : opts ≠ .basic → ItemsReadable items start addr) {r : ResolvedSym}
    (h : fillCodeInfo ctx
      { name, module := none, addr := start, size := some size, lang := .unknown, codeInfo := none,
        inlined := [] } addr opts start info = .ok r) :
    LocatedIn f start addr items name opts r.name r.codeInfo r.inlined := by
  unfold fillCodeInfo at h
  by_cases ho : opts.wantsCodeInfo = true
  swap
  · rw [if_neg ho] at h
    cases h
    cases opts with
    | basic => exact .off
    | codeInfo => exact absurd rfl ho
    | codeInfoAndInlined => exact absurd rfl ho
  rw [if_pos ho, hdata] at h
  have hob : opts ≠ .basic := by rintro rfl; simp [FindSymOpts.wantsCodeInfo] at ho
  have hread := hread hob
  obtain ⟨row, calls, hrow, hcalls, hc⟩ := collect_read hread opts.wantsInlined info.data.addr
  rw [hc, eok_bind] at h
  cases row with
  | none =>
    cases h
    exact .noRow opts hob hrow
  | some row =>
    simp only [Option.map_some] at h
    obtain ⟨here, h1, h⟩ := bind_ok h
    have h1 : SiteIs f row.file row.line.toNat here := query_ok hr h1
    cases opts with
    | basic => exact absurd rfl hob
    | codeInfo =>
      simp only [FindSymOpts.wantsInlined, Bool.false_eq_true, if_false] at h
      cases h
      exact .line row here hrow h1
    | codeInfoAndInlined =>
      simp only [FindSymOpts.wantsInlined, if_true] at h
      cases calls with
      | nil =>
        cases h
        exact .alone row here hrow hcalls h1
      | cons outer inner =>
        simp only [List.map_cons] at h
        obtain ⟨on, h2, h⟩ := bind_ok h
        have h2 := orInvalid_ok h2
        rw [getUtf8_iff, hr.strs] at h2
        obtain ⟨⟨li, inl⟩, h3, h⟩ := bind_ok h
        cases h
        obtain ⟨names, sites, k1, k2⟩ := addFrames_inv _ _ _ h3
        have k3 := addFrames_eq _ names sites k1 k2 here
        rw [k3] at h3
        cases h3
        have hlen : names.length = sites.length := by rw [← k1.length_eq, k2.length_eq]
        rw [List.forall₂_map_left_iff] at k1 k2
        refine .inlined row here outer inner on sites _ _ hrow h1 hcalls h2.1 ?_ ?_ ?_
        · rw [zip_fst _ _ (by simp [hlen])]
          exact k1.imp fun p n hpn => by
            have : ctx.getUtf8 p.fn.name = some n := hpn
            rw [getUtf8_iff, hr.strs] at this
            exact this.1
        · exact k2.imp fun p n hpn => query_ok hr hpn
        · rw [zip_snd _ _ (by simp [hlen])]
          cases sites <;> simp

/-- **C39** (GSYM, every entry; partial: entries whose data is damaged, for which nothing is said about the location) A
symbol that a GSYM file has for an address is the entry with the greatest start not above it, and its source location and
inlined functions are what the data of the entry says: the row for the address of the first line table that has one, and
the functions of the first inline information that has any for the address. -/
theorem C39_gsym_data_partial (ha : c.addr % 8 = 0) (hd : Describes c.data f) (hp : parseHeader c = .ok ctx)
    (hw : f.width = 1 ∨ f.width = 2 ∨ f.width = 4 ∨ f.width = 8) (hs : Ascending f) (addr : Nat)
    (opts : FindSymOpts) (r : ResolvedSym) (h : findSym ctx addr opts = .ok (.ok r)) :
    ∃ i size name items, EntryAt c.data f i r.addr size name items ∧ IsGreatestStart f addr r.addr ∧
      r.size = some size ∧ (size = 0 ∨ addr < r.addr + size) ∧ r.module = none ∧ r.lang = .unknown ∧
      ((opts ≠ .basic → ItemsReadable items r.addr addr) →
        LocatedIn f r.addr addr items name opts r.name r.codeInfo r.inlined) := by
  obtain ⟨ctx', hp', hr⟩ := parseHeader_complete (by omega) hd
  rw [hp] at hp'; cases hp'
  rw [findSym_unfold] at h
  cases hf : ctx.findAddr addr with
  | none => rw [hf] at h; cases h
  | some i =>
    rw [hf] at h
    obtain ⟨o, ho, hg⟩ := findAddr_greatest hr ha hw hs addr i hf
    simp only at h
    obtain ⟨sa, h1, h⟩ := bind_ok h
    have h1 := orInvalid_ok h1
    rw [addrAt_eq hr hw ho] at h1
    unfold checkedAdd at h1
    split_ifs at h1 with hlt
    cases h1
    split_ifs at h with hab
    · cases h
    obtain ⟨info, h2, h⟩ := bind_ok h
    have h2 := orInvalid_ok h2
    obtain ⟨io, hio⟩ : ∃ io, f.infos[i]? = some io :=
      ⟨f.infos[i]'(by rw [hr.infoLen]; exact (List.getElem?_eq_some_iff.mp ho).1),
        List.getElem?_eq_getElem _⟩
    rw [addrInfo_eq hr hio] at h2
    split_ifs at h2 with hlen
    cases h2
    obtain ⟨b, h3, h⟩ := bind_ok h
    have hb := beyond_ok h3
    cases b with
    | true => cases h
    | false =>
      simp only [Bool.false_eq_true, if_false] at h
      obtain ⟨name, h4, h⟩ := bind_ok h
      have h4 := orInvalid_ok h4
      rw [getUtf8_iff, hr.strs] at h4
      obtain ⟨r', h5, h⟩ := bind_ok h
      cases h
      obtain ⟨k1, k2, k3, _⟩ := fill_keeps h5
      simp only at k1 k2 k3
      obtain ⟨items, tail, i1, i2, i3⟩ := items_exist (c.data.drop (io + 8))
      refine ⟨i, _, name, items, ⟨o, io, _, tail, ho, k1, hio, (infoAt_iff _ _ _ _).mpr ⟨hlen, rfl, rfl⟩, h4.1, h4.2, i1,
        i2, i3⟩, by rw [k1]; exact hg, k2, ?_, k3, ?_, ?_⟩
      · rw [k1]; exact hb.mp rfl
      · exact fill_lang h5
      · rw [k1]
        intro hread
        refine fill_located hr ?_ hread h5
        simp only
        rw [i1]
        exact parse_items items i3 i2 _

theorem forall₂_exists {α β : Type} {R : α → β → Prop} {l : List α} (h : ∀ a ∈ l, ∃ b, R a b) : ∃ m, List.Forall₂ R l m := by
  induction l with
  | nil => exact ⟨[], .nil⟩
  | cons a l ih =>
    obtain ⟨b, hb⟩ := h a (List.mem_cons_self ..)
    obtain ⟨m, hm⟩ := ih fun x hx => h x (List.mem_cons_of_mem _ hx)
    exact ⟨b :: m, .cons hb hm⟩

/-- **C39** (GSYM, every entry; partial: entries that end beyond the address space, or that share their start with
others) If the data of an entry is not damaged and what it refers to is known, there is a symbol for every address of
the entry, whatever is asked for. -/
theorem C39_gsym_data_total_partial {addr start size : Nat} {name : Bytes} {items : List Item}
    (ha : c.addr % 8 = 0) (he : Entry c.data f addr start size name items) (hp : parseHeader c = .ok ctx)
    (hread : ItemsReadable items start addr) (hk : AllKnown f start addr items) (opts : FindSymOpts) :
    ∃ r, findSym ctx addr opts = .ok (.ok r) := by
  obtain ⟨hr, info, hdata, hfs⟩ := entry_eq ha he hp opts
  rw [hfs]
  unfold fillCodeInfo
  by_cases ho : opts.wantsCodeInfo = true
  swap
  · rw [if_neg ho]; exact ⟨_, rfl⟩
  rw [if_pos ho, hdata]
  obtain ⟨row, calls, hrow, hcalls, hc⟩ := collect_read hread opts.wantsInlined info.data.addr
  rw [hc, eok_bind]
  cases row with
  | none => exact ⟨_, rfl⟩
  | some row =>
    simp only [Option.map_some]
    obtain ⟨ci, hci⟩ := hk.row row hrow
    rw [show (ofRow row).fileIdx = row.file from rfl, show (ofRow row).fileLine = row.line.toNat from rfl,
      query_eq hr hci, eok_bind]
    split_ifs with hi
    swap
    · exact ⟨_, rfl⟩
    cases calls with
    | nil => exact ⟨_, rfl⟩
    | cons outer inner =>
      simp only [List.map_cons]
      obtain ⟨n, hn⟩ := (hk.calls _ hcalls outer (List.mem_cons_self ..)).1
      rw [← hr.strs, ← getUtf8_iff] at hn
      rw [show (frameFor outer).name = outer.fn.name from rfl, hn]
      simp only [orInvalid]
      rw [eok_bind]
      obtain ⟨names, hns⟩ := forall₂_exists (l := inner.map frameFor)
        (R := fun (fr : InlineFrame) n => ctx.getUtf8 fr.name = some n) (by
          intro fr hfr
          obtain ⟨p, hp, rfl⟩ := List.mem_map.mp hfr
          obtain ⟨n, hn⟩ := (hk.calls _ hcalls p (List.mem_cons_of_mem _ hp)).1
          rw [← hr.strs, ← getUtf8_iff] at hn
          exact ⟨n, hn⟩)
      obtain ⟨sites, hss⟩ := forall₂_exists (l := inner.map frameFor)
        (R := fun (fr : InlineFrame) ci => queryFrameCodeInfo ctx fr.callFile fr.callLine = .ok ci) (by
          intro fr hfr
          obtain ⟨p, hp, rfl⟩ := List.mem_map.mp hfr
          obtain ⟨ci, hci⟩ := (hk.calls _ hcalls p (List.mem_cons_of_mem _ hp)).2
          exact ⟨ci, query_eq hr hci⟩)
      rw [addFrames_eq _ names sites hns hss]
      exact ⟨_, rfl⟩

/-- **C39** (GSYM) If an address is unknown to a GSYM file, all entries start above it, or it is beyond the end of an
entry with the greatest start not above it. -/
theorem C39_gsym_unknown (ha : c.addr % 8 = 0) (hd : Describes c.data f) (hp : parseHeader c = .ok ctx)
    (hw : f.width = 1 ∨ f.width = 2 ∨ f.width = 4 ∨ f.width = 8) (hs : Ascending f) (addr : Nat)
    (opts : FindSymOpts) (reason : Reason) (h : findSym ctx addr opts = .ok (.error reason)) :
    reason = .unknownAddr ∧ ((∀ o ∈ f.offsets, addr < f.base + o) ∨
      ∃ (i o info size nm : Nat), f.offsets[i]? = some o ∧ IsGreatestStart f addr (f.base + o) ∧ f.infos[i]? = some info ∧
        InfoAt c.data info size nm ∧ 0 < size ∧ f.base + o + size ≤ addr) := by
  obtain ⟨ctx', hp', hr⟩ := parseHeader_complete (by omega) hd
  rw [hp] at hp'; cases hp'
  rw [findSym_unfold] at h
  cases hf : ctx.findAddr addr with
  | none =>
    rw [hf] at h; cases h
    exact ⟨rfl, .inl ((findAddr_none hr ha hw hs addr).mp hf)⟩
  | some i =>
    rw [hf] at h
    obtain ⟨o, ho, hg⟩ := findAddr_greatest hr ha hw hs addr i hf
    simp only at h
    obtain ⟨sa, h1, h⟩ := bind_ok h
    have h1 := orInvalid_ok h1
    rw [addrAt_eq hr hw ho] at h1
    unfold checkedAdd at h1
    split_ifs at h1 with hlt
    cases h1
    have hle := hg.1
    rw [if_neg (by omega)] at h
    obtain ⟨info, h2, h⟩ := bind_ok h
    have h2 := orInvalid_ok h2
    obtain ⟨io, hio⟩ : ∃ io, f.infos[i]? = some io :=
      ⟨f.infos[i]'(by rw [hr.infoLen]; exact (List.getElem?_eq_some_iff.mp ho).1),
        List.getElem?_eq_getElem _⟩
    rw [addrInfo_eq hr hio] at h2
    split_ifs at h2 with hlen
    cases h2
    obtain ⟨b, h3, h⟩ := bind_ok h
    have hb := beyond_ok h3
    cases b with
    | true =>
      cases h
      have : ¬ (_ ∨ _) := fun hh => absurd (hb.mpr hh) (by simp)
      simp only at this
      exact ⟨rfl, .inr ⟨i, o, io, _, _, ho, hg, hio, (infoAt_iff _ _ _ _).mpr ⟨hlen, rfl, rfl⟩, by omega, by omega⟩⟩
    | false =>
      simp only [Bool.false_eq_true, if_false] at h
      obtain ⟨name, h4, h⟩ := bind_ok h
      obtain ⟨r', h5, h⟩ := bind_ok h
      cases h

/-! ### Example -/

theorem row_read {payload : Bytes} {start addr : Nat} {h : LineHdr} {ops : List LineOp}
    (ht : IsLineTable payload start h ops) {r : Option Row} (hr : RowOf h ops start addr r) (a : Nat) :
    parseLineTabInfo ⟨a, payload⟩ start addr = .ok (r.map ofRow) := by
  obtain ⟨tail, h1, rfl⟩ := ht.text
  cases hr with
  | none h2 => exact C19_no_row ht.header ops tail h1 start addr a ht.sane h2
  | between r later h2 h3 => exact C19_row ht.header ops tail h1 start addr a ht.sane r later h2 h3
  | last h2 h3 => exact C19_trailing_operators ht.header ops tail h1 start addr a ht.sane h2 h3

/-- The first row is what is read. -/
theorem firstRow_read {items : List Item} {start addr : Nat} {r : Option Row} (h : FirstRow start addr items r) (a : Nat) :
    ((place a items).filter fun d => decide (d.typ = 1)).findSome? (rowRead start addr) = r.map ofRow := by
  induction h generalizing a with
  | nil => rfl
  | other i items row h1 _ ih =>
    simp only [place, List.filter_cons, h1, decide_false, Bool.false_eq_true, if_false]
    exact ih _
  | found i items hd ops row h1 h2 h3 =>
    simp only [place, List.filter_cons, h1, decide_true, if_true, List.findSome?_cons, rowRead, row_read h2 h3,
      Option.map_some]
  | next i items hd ops row h1 h2 h3 _ ih =>
    simp only [place, List.filter_cons, h1, decide_true, if_true, List.findSome?_cons, rowRead, row_read h2 h3,
      Option.map_none]
    exact ih _

/-- The first functions are those that are read. -/
theorem firstCalls_read {items : List Item} {start addr : Nat} {calls : List Placed}
    (h : FirstCalls start addr items calls) (a : Nat) :
    ((((place a items).filter fun d => decide (d.typ = 2)).map (stackRead start addr)).find?
      fun s => decide (s ≠ [])).getD [] = calls.map frameFor := by
  induction h generalizing a with
  | nil => rfl
  | other i items row h1 _ ih =>
    simp only [place, List.filter_cons, h1, decide_false, Bool.false_eq_true, if_false]
    exact ih _
  | found i items root children h1 h2 h3 =>
    simp only [place, List.filter_cons, h1, decide_true, if_true, List.map_cons, List.find?_cons, stackRead, stack_of h2]
    simp [h3]
  | next i items root children calls h1 h2 h3 _ ih =>
    simp only [place, List.filter_cons, h1, decide_true, if_true, List.map_cons, List.find?_cons, stackRead, stack_of h2]
    simp only [h3, List.map_nil, ne_eq, not_true_eq_false, decide_false]
    exact ih _

theorem code_readable : ItemsReadable codeItems 0x1000 0x1005 := by
  constructor
  · intro i hi h1
    simp only [codeItems, List.mem_cons, List.not_mem_nil, or_false] at hi
    rcases hi with rfl | rfl | rfl
    · exact ⟨exHdr, codeOps, ex_sane.1, ⟨[0], .inr (.inl ⟨[], rfl⟩), rfl⟩,
        by simp [Sane, codeOps, exHdr, step, Spec.Gsym.start, LineOp.InRange, LineHdr.range]⟩
    · simp at h1
    · simp at h1
  · intro i hi h1
    simp only [codeItems, List.mem_cons, List.not_mem_nil, or_false] at hi
    rcases hi with rfl | rfl | rfl
    · simp at h1
    · simp at h1
    · exact ⟨⟨[(0, 0x100)], 1, 1, 0, 0⟩, .cons ⟨[(4, 4)], 0, 3, 0, 7⟩ .nil .nil,
        by simp [Forest.InRange, Inlined.InRange], ⟨[], rfl⟩,
        by simp [Forest.placed, Inlined.code, Inlined.base, Placed.Valid]⟩

theorem code_known : AllKnown codeFile 0x1000 0x1005 codeItems := by
  constructor
  · intro row h
    have h1 := firstRow_read h 0
    rw [show ((place 0 codeItems).filter fun d => decide (d.typ = 1)).findSome? (rowRead 0x1000 0x1005) =
      some ⟨0x1004, 1, 10⟩ by decide +kernel] at h1
    simp only [Option.map_some, Option.some.injEq, ofRow, LineTableRow.mk.injEq] at h1
    rw [← h1.2.1, ← h1.2.2]
    exact ⟨_, (0, 1), [], [97], rfl, ⟨[97, 0, 98, 0], rfl, by simp⟩, ⟨[98, 0], rfl, by simp⟩, rfl⟩
  · intro calls h p hp
    have h1 := firstCalls_read h 0
    rw [show ((((place 0 codeItems).filter fun d => decide (d.typ = 2)).map (stackRead 0x1000 0x1005)).find?
      fun s => decide (s ≠ [])).getD [] = [⟨1, 0, 0⟩, ⟨3, 0, 7⟩] by decide +kernel] at h1
    have h2 : frameFor p ∈ calls.map frameFor := List.mem_map_of_mem hp
    rw [← h1] at h2
    simp only [List.mem_cons, List.not_mem_nil, or_false, frameFor, InlineFrame.mk.injEq] at h2
    rcases h2 with ⟨h3, h4, h5⟩ | ⟨h3, h4, h5⟩ <;> rw [h3, h4, h5]
    · exact ⟨⟨[97], ⟨[98, 0], rfl, by simp⟩, by decide +kernel⟩,
        _, (0, 0), [], [], rfl, ⟨[97, 0, 98, 0], rfl, by simp⟩, ⟨[97, 0, 98, 0], rfl, by simp⟩, rfl⟩
    · exact ⟨⟨[98], ⟨[], rfl, by simp⟩, by decide +kernel⟩,
        _, (0, 0), [], [], rfl, ⟨[97, 0, 98, 0], rfl, by simp⟩, ⟨[97, 0, 98, 0], rfl, by simp⟩, rfl⟩

example (opts : FindSymOpts) : ∃ ctx, parseHeader ⟨0, codeSample⟩ = .ok ctx ∧
    ∃ r, findSym ctx 0x1005 opts = .ok (.ok r) := by
  obtain ⟨ctx, h⟩ := ((C18_parse ⟨0, codeSample⟩ rfl).1).mpr ⟨_, code_describes⟩
  exact ⟨ctx, h, C39_gsym_data_total_partial (c := ⟨0, codeSample⟩) rfl code_entry h code_readable code_known opts⟩

end Blazesym.Gsym
