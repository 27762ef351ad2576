import Verif.Gsym.CodeLemmas

/-! # C39 for GSYM: source locations and inlined functions -/

set_option autoImplicit false

namespace Blazesym.Gsym
open Blazesym.Util Blazesym.Spec Blazesym.Spec.Gsym Blazesym.Symbolize

/-- **C18** (data of an entry): the data of an entry is read as the items it consists of, up
to the end marker or the first item that is cut off. -/
theorem C18_entry_data (items : List Item) (hi : ∀ i ∈ items, i.InRange) (tail : Bytes)
    (ht : ItemsEnd tail) (a : Nat) :
    (parseAddressData ⟨a, items.flatMap Item.bytes ++ tail⟩).map
      (fun d => (⟨d.typ, d.data.data⟩ : Item)) = items := by
  rw [parse_items items hi ht]
  have h := place_map a items
  have := congrArg (List.map fun p : Nat × Bytes => (⟨p.1, p.2⟩ : Item)) h
  simpa [List.map_map, Function.comp_def] using this

section
variable {c : Cursor} {ctx : Context} {f : GsymFile}

/-- What a lookup that finds an entry leaves to `fill_code_info`. -/
theorem findSym_entry (ha : c.addr % 8 = 0) (hr : Rep ctx c f)
    (hw : f.width = 1 ∨ f.width = 2 ∨ f.width = 4 ∨ f.width = 8) (hs : Ascending f) {addr : Nat}
    (haddr : addr < 2 ^ 64) {i start size info nm o : Nat} {name : Bytes}
    (e1 : f.offsets[i]? = some o) (e2 : start = f.base + o) (e3 : f.infos[i]? = some info)
    (e4 : InfoAt c.data info size nm) (e5 : NameAt f.strs nm name)
    (hg : IsGreatestStart f addr start) (hone : ∀ j, f.offsets[j]? = f.offsets[i]? → j = i)
    (hcov : size = 0 ∨ (addr < start + size ∧ start + size < 2 ^ 64)) (hu : isUtf8 name = true)
    (opts : FindSymOpts) :
    findSym ctx addr opts = (do
      let sym ← fillCodeInfo ctx
        { name, module := none, addr := start, size := some size, lang := .unknown, codeInfo := none, inlined := [] }
        addr opts start ⟨size, nm, ⟨c.addr + info + 8, c.data.drop (info + 8)⟩⟩
      return .ok sym) := by
  obtain ⟨g1, _, g3⟩ := hg
  have hf : ctx.findAddr addr = some i := by
    cases hf : ctx.findAddr addr with
    | none =>
      have := (findAddr_none hr ha hw hs addr).mp hf o (List.mem_of_getElem? e1)
      omega
    | some j =>
      obtain ⟨o', ho', k1, _, k3⟩ := findAddr_greatest hr ha hw hs addr j hf
      have t1 := k3 o (List.mem_of_getElem? e1) (by omega)
      have t2 := g3 o' (List.mem_of_getElem? ho') k1
      have : o' = o := by omega
      rw [hone j (by rw [ho', e1, this])]
  obtain ⟨i1, i2, i3⟩ := (infoAt_iff _ _ _ _).mp e4
  rw [findSym_unfold, hf]
  simp only
  rw [addrAt_eq hr hw e1]
  unfold checkedAdd
  rw [if_pos (by unfold u64Size; omega), ← e2]
  simp only [orInvalid]
  rw [eok_bind, if_neg (by omega), addrInfo_eq hr e3, if_pos i1]
  simp only
  rw [eok_bind, ← i2, ← i3, beyond_eq (symAddr := start) (size := size) (by omega)]
  have hb : decide (size > 0 ∧ start + size ≤ addr) = false := by
    simp only [decide_eq_false_iff_not]; omega
  rw [hb, eok_bind]
  have hn : ctx.getUtf8 nm = some name := by rw [getUtf8_iff, hr.strs]; exact ⟨e5, hu⟩
  simp only [Bool.false_eq_true, if_false, hn]
  rfl

theorem entry_eq {addr start size : Nat} {name : Bytes} {items : List Item}
    (ha : c.addr % 8 = 0) (he : Entry c.data f addr start size name items) (hp : parseHeader c = .ok ctx)
    (opts : FindSymOpts) :
    Rep ctx c f ∧ ∃ info : AddrInfo, parseAddressData info.data = place info.data.addr items ∧
      findSym ctx addr opts = (do
        let sym ← fillCodeInfo ctx
          { name, module := none, addr := start, size := some size, lang := .unknown, codeInfo := none,
            inlined := [] } addr opts start info
        return .ok sym) := by
  obtain ⟨ctx', hp', hr⟩ := parseHeader_complete (by omega) he.file
  rw [hp] at hp'; cases hp'
  obtain ⟨i, o, info, nm, tail, e1, e2, e3, e4, e5, e6, e7, e8⟩ := he.entry
  refine ⟨hr, ⟨size, nm, ⟨c.addr + info + 8, c.data.drop (info + 8)⟩⟩, ?_,
    findSym_entry ha hr he.width he.sorted he.range e1 e2 e3 e4 e5 he.greatest e6 he.covers
      he.utf8 opts⟩
  simp only
  rw [e7]
  exact parse_items items he.itemRange e8 _

theorem place_mem {a : Nat} {items : List Item} {d : AddrData} (h : d ∈ place a items) :
    ∃ i ∈ items, d.typ = i.typ ∧ d.data.data = i.payload := by
  induction items generalizing a with
  | nil => simp [place] at h
  | cons i t ih =>
    simp only [place, List.mem_cons] at h
    rcases h with rfl | h
    · exact ⟨i, by simp, rfl, rfl⟩
    · obtain ⟨j, h1, h2⟩ := ih h
      exact ⟨j, by simp [h1], h2⟩

theorem filter_single {a : Nat} {items : List Item} {i : Item} (t : Nat)
    (h : items.filter (fun j => decide (j.typ = t)) = [i]) :
    ∃ b, (place a items).filter (fun d => decide (d.typ = t)) = [⟨i.typ, ⟨b, i.payload⟩⟩] := by
  induction items generalizing a with
  | nil => simp at h
  | cons j r ih =>
    simp only [List.filter_cons] at h
    simp only [place, List.filter_cons]
    by_cases hj : j.typ = t
    · simp only [hj, decide_true, if_true, List.cons.injEq] at h ⊢
      obtain ⟨rfl, h2⟩ := h
      have : ∀ b, (place b r).filter (fun d => decide (d.typ = t)) = [] := by
        intro b
        rw [List.filter_eq_nil_iff] at h2 ⊢
        intro d hd
        obtain ⟨k, hk, h3, _⟩ := place_mem hd
        simpa [h3] using h2 k hk
      rw [this]
      exact ⟨a + 8, by rw [hj], rfl⟩
    · simp only [hj, decide_false, Bool.false_eq_true, if_false] at h ⊢
      exact ih h

theorem filter_none {a : Nat} {items : List Item} (t : Nat)
    (h : items.filter (fun j => decide (j.typ = t)) = []) :
    (place a items).filter (fun d => decide (d.typ = t)) = [] := by
  rw [List.filter_eq_nil_iff] at h ⊢
  intro d hd
  obtain ⟨k, hk, h3, _⟩ := place_mem hd
  simpa [h3] using h k hk

/-- **C39** (GSYM): for an address whose entry has one line table and one tree of inlined
functions, the named functions that contain the address are reported, outermost first: the
outermost one as the symbol, the others as inlined functions.  The outermost one is located
where the first inlined function is called, each inlined function where the next one is called,
and the innermost one at the line of the address itself. -/
theorem C39_gsym_inlined {addr start size : Nat} {name : Bytes} {items : List Item}
    (ha : c.addr % 8 = 0) (he : Entry c.data f addr start size name items) (hp : parseHeader c = .ok ctx)
    -- the line table, which has the row `row` for the address
    {line : Item} (hline : items.filter (fun i => decide (i.typ = 1)) = [line])
    {h : LineHdr} (hh : h.InRange) {ops : List LineOp} {tail : Bytes} (ht : EndsWith tail)
    (hpay : line.payload = h.bytes ++ encode ops ++ tail) (hsane : Sane h (Gsym.start h start) ops)
    {row : Row} {later : List Row}
    (hrow : IsLastNotAbove (rows h (Gsym.start h start) ops) addr row later) (hne : later ≠ [])
    -- the inline information
    {inline : Item} (hinl : items.filter (fun i => decide (i.typ = 2)) = [inline])
    {root : Inlined} {children : Forest} (hf : (Forest.cons root children .nil).InRange)
    {tail' : Bytes} (hpay' : inline.payload = (Forest.cons root children .nil).bytes ++ tail')
    (hv : ∀ p ∈ (Forest.cons root children .nil).placed start [], p.Reached addr → p.Valid)
    -- names and locations
    {outer : Placed} {inner : List Placed}
    (hnamed : (Forest.cons root children .nil).named start addr = outer :: inner)
    {outerName : Bytes} (hon : NameAt f.strs outer.fn.name outerName ∧ isUtf8 outerName = true)
    {names : List Bytes} (hns : List.Forall₂ (fun p n => NameAt f.strs p.fn.name n ∧ isUtf8 n = true)
      inner names)
    {sites : List CodeInfo} (hss : List.Forall₂ (fun p ci =>
      SiteIs f p.fn.callFile (min p.fn.callLine (2 ^ 32 - 1)) ci) inner sites)
    {here : CodeInfo} (hhere : SiteIs f row.file row.line.toNat here) :
    ∃ sym, findSym ctx addr .codeInfoAndInlined = .ok (.ok sym) ∧
      sym.name = outerName ∧ sym.addr = start ∧ sym.size = some size ∧ sym.module = none ∧
      sym.inlined.map InlinedFn.name = names ∧
      sym.codeInfo :: sym.inlined.map InlinedFn.codeInfo = (sites ++ [here]).map some := by
  obtain ⟨hr, info, hdata, hfs⟩ := entry_eq ha he hp .codeInfoAndInlined
  rw [hfs]
  unfold fillCodeInfo
  rw [if_pos (show FindSymOpts.codeInfoAndInlined.wantsCodeInfo = true from rfl), hdata]
  have hl : ∀ a, parseLineTabInfo ⟨a, line.payload⟩ start addr = .ok (some (ofRow row)) := by
    intro a
    rw [hpay]
    exact C19_row hh ops tail ht start addr a hsane row later hrow hne
  have hi : ∀ a, parseInlineStack ⟨a, inline.payload⟩ start addr [] =
      .ok ((outer :: inner).map fun p => ⟨p.fn.name, p.fn.callFile, min p.fn.callLine (2 ^ 32 - 1)⟩) := by
    intro a
    rw [hpay', C20_inlined addr root children hf start a tail' [] hv, List.nil_append]
    have : ((Forest.cons root children .nil).at start addr).filter
        (fun p => decide (p.fn.name ≠ 0)) = outer :: inner := hnamed
    rw [this]
  have hmem1 : ∀ i ∈ items, i.typ = 1 → i = line := by
    intro i him h1
    have : i ∈ items.filter (fun i => decide (i.typ = 1)) := List.mem_filter.mpr ⟨him, by simpa using h1⟩
    rw [hline] at this; simpa using this
  have hmem2 : ∀ i ∈ items, i.typ = 2 → i = inline := by
    intro i him h1
    have : i ∈ items.filter (fun i => decide (i.typ = 2)) := List.mem_filter.mpr ⟨him, by simpa using h1⟩
    rw [hinl] at this; simpa using this
  have hc := collect_eq start addr true (place info.data.addr items) (fun _ => some (ofRow row))
    (fun _ => (outer :: inner).map fun p => ⟨p.fn.name, p.fn.callFile, min p.fn.callLine (2 ^ 32 - 1)⟩)
    (fun d hd h1 => by
      obtain ⟨i, k1, k2, k3⟩ := place_mem hd
      have := hmem1 i k1 (by omega)
      have e : d.data = ⟨d.data.addr, line.payload⟩ := by rw [← this, ← k3]
      rw [e]; exact hl _)
    (fun d hd h2 _ => by
      obtain ⟨i, k1, k2, k3⟩ := place_mem hd
      have := hmem2 i k1 (by omega)
      have e : d.data = ⟨d.data.addr, inline.payload⟩ := by rw [← this, ← k3]
      rw [e]; exact hi _) none []
  rw [show FindSymOpts.codeInfoAndInlined.wantsInlined = true from rfl, hc, eok_bind]
  obtain ⟨b1, hb1⟩ := filter_single (a := info.data.addr) 1 hline
  obtain ⟨b2, hb2⟩ := filter_single (a := info.data.addr) 2 hinl
  simp only [and_true, hb1, hb2, List.findSome?_cons, Option.none_or, List.map_cons, List.map_nil,
    List.find?_cons, if_true, Option.getD_some, ne_eq, reduceCtorEq, not_false_eq_true, decide_true]
  rw [show (ofRow row).fileIdx = row.file from rfl, show (ofRow row).fileLine = row.line.toNat from rfl,
    query_eq hr hhere, eok_bind]
  have hon' : ctx.getUtf8 outer.fn.name = some outerName := by
    rw [getUtf8_iff, hr.strs]; exact hon
  simp only [hon', orInvalid]
  rw [eok_bind]
  have hns' : List.Forall₂ (fun (fr : InlineFrame) n => ctx.getUtf8 fr.name = some n)
      (inner.map fun p => ⟨p.fn.name, p.fn.callFile, min p.fn.callLine (2 ^ 32 - 1)⟩) names := by
    rw [List.forall₂_map_left_iff]
    exact hns.imp fun p n hpn => by rw [getUtf8_iff, hr.strs]; exact hpn
  have hss' : List.Forall₂ (fun (fr : InlineFrame) ci =>
      queryFrameCodeInfo ctx fr.callFile fr.callLine = .ok ci)
      (inner.map fun p => ⟨p.fn.name, p.fn.callFile, min p.fn.callLine (2 ^ 32 - 1)⟩) sites := by
    rw [List.forall₂_map_left_iff]
    exact hss.imp fun p n hpn => query_eq hr hpn
  rw [addFrames_eq _ names sites hns' hss']
  have hlen : names.length = sites.length := by
    rw [← hns.length_eq, hss.length_eq]
  refine ⟨_, rfl, rfl, rfl, rfl, rfl, ?_, ?_⟩
  · simp only [List.map_zipWith]
    have : ∀ (ns : List Bytes) (cs : List CodeInfo), ns.length = cs.length →
        List.zipWith (fun n _ => n) ns cs = ns := by
      intro ns
      induction ns with
      | nil => intros; rfl
      | cons n t ih =>
        intro cs hcs
        cases cs with
        | nil => simp at hcs
        | cons x y => simp only [List.zipWith_cons_cons, ih y (by simpa using hcs)]
    exact this _ _ (by simp [hlen])
  · simp only [List.map_zipWith]
    have : ∀ (ns : List Bytes) (cs : List CodeInfo), ns.length = cs.length →
        List.zipWith (fun _ x => some x) ns cs = cs.map some := by
      intro ns
      induction ns with
      | nil =>
        intro cs hcs
        cases cs with
        | nil => rfl
        | cons => simp at hcs
      | cons n t ih =>
        intro cs hcs
        cases cs with
        | nil => simp at hcs
        | cons x y =>
          simp only [List.zipWith_cons_cons, ih y (by simpa using hcs), List.map_cons]
    rw [this _ _ (by simp [hlen])]
    cases sites <;> simp

/-- **C39** (GSYM): without a request for inlined functions, inline information is ignored:
the symbol is the entry and is located at the line of the address. -/
theorem C39_gsym_no_inlined {addr start size : Nat} {name : Bytes} {items : List Item}
    (ha : c.addr % 8 = 0) (he : Entry c.data f addr start size name items) (hp : parseHeader c = .ok ctx)
    {line : Item} (hline : items.filter (fun i => decide (i.typ = 1)) = [line])
    {h : LineHdr} (hh : h.InRange) {ops : List LineOp} {tail : Bytes} (ht : EndsWith tail)
    (hpay : line.payload = h.bytes ++ encode ops ++ tail) (hsane : Sane h (Gsym.start h start) ops)
    {row : Row} {later : List Row}
    (hrow : IsLastNotAbove (rows h (Gsym.start h start) ops) addr row later) (hne : later ≠ [])
    {here : CodeInfo} (hhere : SiteIs f row.file row.line.toNat here) :
    findSym ctx addr .codeInfo = .ok (.ok
      { name, module := none, addr := start, size := some size, lang := .unknown, codeInfo := some here,
        inlined := [] }) := by
  obtain ⟨hr, info, hdata, hfs⟩ := entry_eq ha he hp .codeInfo
  rw [hfs]
  unfold fillCodeInfo
  rw [if_pos (show FindSymOpts.codeInfo.wantsCodeInfo = true from rfl), hdata]
  have hmem1 : ∀ i ∈ items, i.typ = 1 → i = line := by
    intro i him h1
    have : i ∈ items.filter (fun i => decide (i.typ = 1)) := List.mem_filter.mpr ⟨him, by simpa using h1⟩
    rw [hline] at this; simpa using this
  have hc := collect_eq start addr false (place info.data.addr items) (fun _ => some (ofRow row))
    (fun _ => [])
    (fun d hd h1 => by
      obtain ⟨i, k1, k2, k3⟩ := place_mem hd
      have := hmem1 i k1 (by omega)
      have e : d.data = ⟨d.data.addr, line.payload⟩ := by rw [← this, ← k3]
      rw [e, hpay]
      exact C19_row hh ops tail ht start addr _ hsane row later hrow hne)
    (fun d hd _ h => absurd h (by simp)) none []
  rw [show FindSymOpts.codeInfo.wantsInlined = false from rfl, hc, eok_bind]
  obtain ⟨b1, hb1⟩ := filter_single (a := info.data.addr) 1 hline
  simp only [hb1, List.findSome?_cons, Option.none_or, Bool.false_eq_true, and_false, decide_false,
    List.filter_false, List.map_nil, List.find?_nil, Option.getD_none, if_true]
  rw [show (ofRow row).fileIdx = row.file from rfl, show (ofRow row).fileLine = row.line.toNat from rfl,
    query_eq hr hhere, eok_bind]
  rfl

/-- **C39** (GSYM): if the entry has no line table, then it is reported as is, even if it has
inline information (which must be well-formed, though). -/
theorem C39_gsym_no_line {addr start size : Nat} {name : Bytes} {items : List Item}
    (ha : c.addr % 8 = 0) (he : Entry c.data f addr start size name items) (hp : parseHeader c = .ok ctx)
    (hline : items.filter (fun i => decide (i.typ = 1)) = [])
    (hinl : ∀ i ∈ items, i.typ = 2 → ∃ root children tail',
      (Forest.cons root children .nil).InRange ∧
      i.payload = (Forest.cons root children .nil).bytes ++ tail' ∧
      ∀ p ∈ (Forest.cons root children .nil).placed start [], p.Reached addr → p.Valid)
    (opts : FindSymOpts) :
    findSym ctx addr opts = .ok (.ok
      { name, module := none, addr := start, size := some size, lang := .unknown, codeInfo := none,
        inlined := [] }) := by
  obtain ⟨hr, info, hdata, hfs⟩ := entry_eq ha he hp opts
  rw [hfs]
  unfold fillCodeInfo
  by_cases ho : opts.wantsCodeInfo = true
  swap
  · rw [if_neg ho]; rfl
  rw [if_pos ho, hdata]
  have hc := collect_eq start addr opts.wantsInlined (place info.data.addr items) (fun _ => none)
    (fun d => match parseInlineStack d.data start addr [] with | .ok s => s | .error _ => [])
    (fun d hd h1 => by
      have := filter_none (a := info.data.addr) 1 hline
      rw [List.filter_eq_nil_iff] at this
      exact absurd h1 (by simpa using this d hd))
    (fun d hd h2 _ => by
      obtain ⟨i, k1, k2, k3⟩ := place_mem hd
      obtain ⟨root, children, tail', t1, t2, t3⟩ := hinl i k1 (by omega)
      have e : d.data = ⟨d.data.addr, (Forest.cons root children .nil).bytes ++ tail'⟩ := by
        rw [← t2, ← k3]
      rw [e, C20_inlined addr root children t1 start _ tail' [] t3]) none []
  rw [hc, eok_bind]
  simp only [filter_none (a := info.data.addr) 1 hline, List.findSome?_nil, Option.or_none]
  rfl

end

/-! ### Example -/

/-- A function `a` at 0x1000 with line rows at 0x1000, 0x1004 and 0x1008 and a function `b`
inlined at 0x1004. -/
def codeOps : List LineOp := [.special 4, .special 64, .advancePc 4]
def codeTree : Forest :=
  .cons ⟨[(0, 0x100)], 1, 1, 0, 0⟩ (.cons ⟨[(4, 4)], 0, 3, 0, 7⟩ .nil .nil) .nil
def codeItems : List Item :=
  [⟨1, exHdr.bytes ++ encode codeOps ++ [0]⟩, ⟨9, [1, 2]⟩, ⟨2, codeTree.bytes ++ []⟩]

def codeSample : Bytes :=
  [0x4d, 0x59, 0x53, 0x47, 1, 0, 2, 0,  0, 0x10, 0, 0, 0, 0, 0, 0,  1, 0, 0, 0, 76, 0, 0, 0,
   5, 0, 0, 0] ++ List.replicate 20 0 ++
  [0, 0, 0, 0,  84, 0, 0, 0,  2, 0, 0, 0,  0, 0, 0, 0, 0, 0, 0, 0,  0, 0, 0, 0, 1, 0, 0, 0,
   0, 97, 0, 98, 0,  0, 0, 0,  0, 1, 0, 0, 1, 0, 0, 0] ++ (codeItems.flatMap Item.bytes ++ le4 0)

def codeFile : GsymFile :=
  { width := 2, base := 0x1000, offsets := [0], infos := [84], files := [(0, 0), (0, 1)],
    strs := [0, 97, 0, 98, 0] }

theorem code_describes : Describes codeSample codeFile := by
  constructor
  · rw [num_iff]; decide +kernel
  · rw [num_iff]; decide +kernel
  · rw [num_iff]; decide +kernel
  · rw [num_iff]; decide +kernel
  · rw [num_iff]; decide +kernel
  · refine ⟨76, ?_⟩
    rw [num_iff, num_iff, isSlice_iff]; decide +kernel
  · intro i o h
    rw [num_iff]
    rcases i with _ | i
    · cases h; decide +kernel
    · simp [codeFile] at h
  · rfl
  · intro i o h
    rw [num_iff]
    rcases i with _ | i
    · cases h; decide +kernel
    · simp [codeFile] at h
  · rw [num_iff]; decide +kernel
  · intro i o h
    rw [num_iff, num_iff]
    rcases i with _ | _ | i
    · cases h; decide +kernel
    · cases h; decide +kernel
    · simp [codeFile] at h

theorem code_entry : Entry codeSample codeFile 0x1005 0x1000 0x100 [97] codeItems where
  file := code_describes
  width := by decide
  sorted := by simp [Ascending, codeFile]
  range := by norm_num
  entry := ⟨0, 0, 84, 1, le4 0, rfl, rfl, rfl, by rw [infoAt_iff]; decide +kernel, ⟨[98, 0], rfl, by simp⟩,
    fun j hj => by
      rcases j with _ | j
      · rfl
      · simp [codeFile] at hj, by decide +kernel, Or.inl ⟨[], rfl⟩⟩
  utf8 := by decide +kernel
  greatest := ⟨by norm_num, ⟨0, by simp [codeFile], rfl⟩, by simp [codeFile]⟩
  covers := Or.inr (by norm_num)
  itemRange := by
    intro i hi
    simp only [codeItems, List.mem_cons, List.not_mem_nil, or_false] at hi
    rcases hi with rfl | rfl | rfl <;>
      exact ⟨by simp, by norm_num, by decide +kernel⟩

/-- At 0x1005, `a` is reported at line 7 of the first file, where `b` is called, and `b` at
line 10 of the second file. -/
example : ∃ ctx, parseHeader ⟨0, codeSample⟩ = .ok ctx ∧
    ∃ sym, findSym ctx 0x1005 .codeInfoAndInlined = .ok (.ok sym) ∧ sym.name = [97] ∧
      sym.inlined.map InlinedFn.name = [[98]] ∧
      sym.codeInfo = some ⟨some [], [], some 7, none⟩ ∧
      sym.inlined.map InlinedFn.codeInfo = [some ⟨some [], [97], some 10, none⟩] := by
  obtain ⟨ctx, h⟩ := ((C18_parse ⟨0, codeSample⟩ rfl).1).mpr ⟨_, code_describes⟩
  refine ⟨ctx, h, ?_⟩
  obtain ⟨sym, h1, h2, _, _, _, h3, h4⟩ := C39_gsym_inlined (c := ⟨0, codeSample⟩) rfl code_entry h
    (line := ⟨1, exHdr.bytes ++ encode codeOps ++ [0]⟩) (by decide +kernel) ex_sane.1
    (Or.inr (Or.inl ⟨[], rfl⟩)) rfl
    (by simp [Sane, codeOps, exHdr, step, Spec.Gsym.start, LineOp.InRange, LineHdr.range])
    (row := ⟨0x1004, 1, 10⟩) (later := [⟨0x1008, 1, 10⟩])
    ⟨[⟨0x1000, 1, 10⟩], by decide, by norm_num, by simp⟩ (by simp)
    (inline := ⟨2, codeTree.bytes ++ []⟩) (by decide +kernel)
    (root := ⟨[(0, 0x100)], 1, 1, 0, 0⟩) (children := .cons ⟨[(4, 4)], 0, 3, 0, 7⟩ .nil .nil)
    (by simp [Forest.InRange, Inlined.InRange]) (tail' := []) rfl
    (by simp [Forest.placed, Inlined.code, Inlined.base, Placed.Valid])
    (outer := ⟨⟨[(0, 0x100)], 1, 1, 0, 0⟩, [(0x1000, 0x1100)], []⟩)
    (inner := [⟨⟨[(4, 4)], 0, 3, 0, 7⟩, [(0x1004, 0x1008)], [[(0x1000, 0x1100)]]⟩])
    (by decide +kernel)
    (outerName := [97]) ⟨⟨[98, 0], rfl, by simp⟩, by decide +kernel⟩
    (names := [[98]]) (.cons ⟨⟨[], rfl, by simp⟩, by decide +kernel⟩ .nil)
    (sites := [⟨some [], [], some 7, none⟩])
    (.cons ⟨(0, 0), [], [], rfl, ⟨[97, 0, 98, 0], rfl, by simp⟩, ⟨[97, 0, 98, 0], rfl, by simp⟩, rfl⟩
      .nil)
    (here := ⟨some [], [97], some 10, none⟩)
    ⟨(0, 1), [], [97], rfl, ⟨[97, 0, 98, 0], rfl, by simp⟩, ⟨[98, 0], rfl, by simp⟩, rfl⟩
  simp only [List.cons_append, List.nil_append, List.map_cons, List.map_nil, List.cons.injEq] at h4
  exact ⟨sym, h1, h2, h3, h4.1, h4.2⟩

end Blazesym.Gsym
