import Verif.Opened.Spec

/-! # Lemmas about open files -/

set_option autoImplicit false

namespace Blazesym.Opened
open Blazesym.Util Blazesym.Symbolize Blazesym.Cache Blazesym.Gsym

/-- The outcome and the buffer, in the form of the functions without a state. -/
def joined {α : Type} : Except Err (α × Cursor) × List InlineFrame → Except Err ((α × List InlineFrame) × Cursor)
  | (.error e, _) => .error e
  | (.ok (a, c), buf) => .ok ((a, buf), c)

def joined' {α : Type} : Except Err α × List InlineFrame → Except Err (List InlineFrame × α)
  | (.error e, _) => .error e
  | (.ok c, buf) => .ok (buf, c)

theorem parse_joined (addr : Nat) (fuel : Nat) :
    (∀ base c buf, joined (parseNodeOn addr fuel base c buf) = parseNode addr fuel base buf c) ∧
    (∀ base c buf, joined' (parseNodesOn addr fuel base c buf) = parseNodes addr fuel base buf c) := by
  induction fuel with
  | zero => exact ⟨fun _ _ _ => by simp [parseNodeOn, parseNode, joined],
      fun _ _ _ => by simp [parseNodesOn, parseNodes, joined']⟩
  | succ fuel ih =>
    refine ⟨fun base c buf => ?_, fun base c buf => ?_⟩
    · rw [parseNodeOn, parseNode]
      cases h1 : need readU64Leb128 c with
      | error e => rfl
      | ok p =>
        obtain ⟨n, c1⟩ := p
        simp only [bind, Except.bind]
        by_cases hn : n = 0
        · simp [hn, joined, pure, Except.pure]
        simp only [hn, if_false]
        cases h2 : readRanges base addr n false none c1 with
        | error e => rfl
        | ok p =>
          obtain ⟨⟨found, first⟩, c2⟩ := p
          simp only
          cases h3 : readTail c2 with
          | error e => rfl
          | ok p =>
            obtain ⟨⟨kids, name, file, line⟩, c3⟩ := p
            simp only
            by_cases hf : file ≥ u32Size
            · simp [hf, joined]
            simp only [hf, if_false]
            cases found
            · cases kids
              · simp [joined, pure, Except.pure]
              · simp only [Bool.false_eq_true, if_false, if_true]
                cases h4 : skipNodes fuel c3 with
                | error e => rfl
                | ok p => rfl
            · cases kids
              · simp [joined, pure, Except.pure]
              · simp only [if_true]
                rw [← ih.2]
                generalize parseNodesOn addr fuel (first.getD 0) c3 _ = x
                obtain ⟨_ | _, _⟩ := x <;> rfl
    · rw [parseNodesOn, parseNodes, ← ih.1]
      generalize parseNodeOn addr fuel base c buf = x
      obtain ⟨_ | ⟨more, c1⟩, buf⟩ := x
      · rfl
      · cases more
        · rfl
        · simp only [joined, bind, Except.bind, if_true]
          exact ih.2 _ _ _

theorem parseInlineStack_joined (data : Cursor) (base addr : Nat) (buf : List InlineFrame) :
    (joined' (parseInlineStackOn data base addr buf)).map Prod.fst = parseInlineStack data base addr buf := by
  rw [parseInlineStack, ← (parse_joined addr (budget data)).1, parseInlineStackOn]
  generalize parseNodeOn addr (budget data) base data buf = x
  obtain ⟨_ | ⟨more, c1⟩, buf⟩ := x <;> rfl

theorem collect_joined (symAddr addr : Nat) (inl : Bool) (ents : List AddrData) :
    ∀ row buf, (joined' (collectOn symAddr addr inl ents row buf)).map Prod.swap
      = collectAddrData symAddr addr inl ents row buf := by
  induction ents with
  | nil => intro row buf; rfl
  | cons ent rest ih =>
    intro row buf
    rw [collectOn, collectAddrData]
    split
    · split
      · cases parseLineTabInfo ent.data symAddr addr with
        | error e => rfl
        | ok r => exact ih _ _
      · exact ih _ _
    · split
      · split
        · rw [← parseInlineStack_joined]
          generalize parseInlineStackOn ent.data symAddr addr buf = x
          obtain ⟨_ | ⟨⟩, buf⟩ := x
          · rfl
          · exact ih _ _
        · exact ih _ _
      · exact ih _ _

theorem fill_joined (ctx : Context) (sym : ResolvedSym) (addr : Nat) (opts : FindSymOpts) (symAddr : Nat)
    (info : AddrInfo) (buf : List InlineFrame) :
    (fillCodeInfoOn ctx sym addr opts symAddr info buf).1 = fillCodeInfo ctx sym addr opts symAddr info := by
  unfold fillCodeInfoOn fillCodeInfo
  split
  · rw [← collect_joined]
    simp only [List.take_zero]
    generalize collectOn symAddr addr opts.wantsInlined (parseAddressData info.data) none [] = x
    obtain ⟨_ | row, buf⟩ := x
    · rfl
    · cases row with
      | none => rfl
      | some row =>
        simp only [joined', Except.map, Prod.swap, bind, Except.bind]
        cases queryFrameCodeInfo ctx row.fileIdx row.fileLine with
        | error e => rfl
        | ok li => cases buf <;> rfl
  · rfl

theorem gsym_findSym (ctx : Context) (addr : Nat) (opts : FindSymOpts) (buf : List InlineFrame) :
    (gsymFindSymOn ctx addr opts buf).1 = findSym ctx addr opts := by
  unfold gsymFindSymOn findSym
  cases ctx.findAddr addr with
  | none => rfl
  | some idx =>
    simp only
    cases ctx.addrAt idx with
    | none => rfl
    | some symAddr =>
      simp only [orInvalid, bind, Except.bind]
      by_cases h : addr < symAddr
      · simp [h, pure, Except.pure]
      simp only [h, if_false]
      cases ctx.addrInfo idx with
      | none => rfl
      | some info =>
        simp only
        by_cases hs : info.size > 0
        · simp only [hs, true_and, if_true, addU64]
          by_cases ho : symAddr + info.size ≥ u64Size
          · simp [ho, Nat.not_lt.mpr ho]
          · simp only [ho, if_false, Nat.lt_of_not_le ho, if_true, pure, Except.pure, decide_eq_true_eq]
            split
            · rfl
            · cases ctx.getUtf8 info.name with
              | none => rfl
              | some name =>
                simp only
                rw [← fill_joined (buf := buf)]
                generalize fillCodeInfoOn ctx _ addr opts symAddr info buf = x
                obtain ⟨_ | _, _⟩ := x <;> rfl
        · simp only [hs, false_and, if_false, pure, Except.pure, Bool.false_eq_true]
          cases ctx.getUtf8 info.name with
          | none => rfl
          | some name =>
            simp only
            rw [← fill_joined (buf := buf)]
            generalize fillCodeInfoOn ctx _ addr opts symAddr info buf = x
            obtain ⟨_ | _, _⟩ := x <;> rfl

/-! ## Indexes -/

/-- What is kept of an index is the index. -/
def Index (make : List Nat) (cell : Option (List Nat)) : Prop := ∀ idx, cell = some idx → idx = make

theorem indexOn_eq {make : List Nat} {cell : Option (List Nat)} (h : Index make cell) :
    indexOn make cell = (make, some make) := by
  cases cell with
  | none => rfl
  | some idx => rw [h idx rfl]; rfl

theorem index_some (make : List Nat) : Index make (some make) := fun _ h => by simpa using h.symm

theorem breakpad_ask {file : Breakpad.SymbolFile} {cell : Option (List Nat)}
    (h : Index (Breakpad.createByNameIdx file.functions) cell) (r : Ask) :
    (breakpadAsk file r cell).1 = breakpadNow file r
    ∧ Index (Breakpad.createByNameIdx file.functions) (breakpadAsk file r cell).2 := by
  cases r with
  | sym addr opts => exact ⟨rfl, h⟩
  | name name ty =>
    simp only [breakpadAsk, breakpadNow, Act.mapResult, breakpadLookupOn, Breakpad.SymbolFile.lookupName]
    split
    · exact ⟨rfl, h⟩
    · simp only [breakpadFindAddrOn, indexOn_eq h, Breakpad.SymbolFile.findAddr]
      generalize findLowestMatchByKey _ (Breakpad.nameKey name) _ = x
      cases x <;> exact ⟨rfl, index_some _⟩

theorem ksym_ask {lines : Kernel.BpfLines} {syms : List Kernel.Ksym} {cell : Option (List Nat)}
    (h : Index (Kernel.ksymByNameIdx syms) cell) (r : Ask) :
    (ksymAsk lines syms r cell).1 = ksymNow lines syms r
    ∧ Index (Kernel.ksymByNameIdx syms) (ksymAsk lines syms r cell).2 := by
  cases r with
  | sym addr opts => exact ⟨rfl, h⟩
  | name name ty =>
    simp only [ksymAsk, ksymNow, Act.mapResult, ksymLookupOn, Kernel.ksymFindAddr]
    split
    · exact ⟨rfl, h⟩
    · simp only [indexOn_eq h]
      generalize findMatchOrLowerBoundByKey _ (Breakpad.nameKey name) _ = x
      cases x <;> exact ⟨rfl, index_some _⟩

/-! ## Histories -/

section
variable {S R A : Type} {ask : R → Act S A} {now : R → Except Err A} {inv : S → Prop}

theorem askAll_eq (h : ∀ r s, inv s → (ask r s).1 = now r ∧ inv (ask r s).2) (reqs : List R) :
    ∀ s, inv s → (askAll ask reqs s).1 = reqs.map now ∧ inv (askAll ask reqs s).2 := by
  induction reqs with
  | nil => exact fun s hs => ⟨rfl, hs⟩
  | cons r rest ih =>
    intro s hs
    obtain ⟨h1, h2⟩ := h r s hs
    obtain ⟨h3, h4⟩ := ih _ h2
    exact ⟨by simp only [askAll, List.map_cons, h1, h3], h4⟩

theorem visitOn_eq {T I : Type} (h : ∀ r s, inv s → (ask r s).1 = now r ∧ inv (ask r s).2)
    (f : T → I → List (Except Err A) → T × Bool) (asks : T → I → List R) (items : List I) :
    ∀ (t : T) (s : S), inv s → (visitOn ask f asks items (t, s)).1 = visit now f asks items t
      ∧ inv (visitOn ask f asks items (t, s)).2 := by
  induction items with
  | nil => exact fun t s hs => ⟨rfl, hs⟩
  | cons i rest ih =>
    intro t s hs
    obtain ⟨h1, h2⟩ := askAll_eq h (asks t i) s hs
    rw [visitOn, visit]
    generalize askAll ask (asks t i) s = x at h1 h2
    obtain ⟨answers, s'⟩ := x
    simp only at h1 h2
    subst h1
    simp only
    generalize f t i ((asks t i).map now) = y
    obtain ⟨t', _ | _⟩ := y
    · exact ih t' s' h2
    · exact ⟨rfl, h2⟩

theorem kept_inv {new : S} (h : ∀ r s, inv s → (ask r s).1 = now r ∧ inv (ask r s).2) (hn : inv new) {s : S}
    (hs : Kept ask new s) : inv s := by
  induction hs with
  | new => exact hn
  | ask s r _ ih => exact (h r s ih).2

end

end Blazesym.Opened
