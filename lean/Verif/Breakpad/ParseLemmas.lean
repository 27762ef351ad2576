import Verif.Breakpad.LineLemmas

/-! Lemmas about the Breakpad parser: the loop over the lines of a file. -/

set_option autoImplicit false

namespace Blazesym.Breakpad
open Blazesym.Util Blazesym.Spec Blazesym.Spec.Breakpad

/-- The symbol data of a parser, with the item it is at finished, before the functions are sorted. -/
def view (slf : SymbolParser) : SymbolFile :=
  let slf :=
    match slf.curItem with
    | some item => { slf with curItem := none }.finishItem item
    | none => slf
  { module := slf.module, files := slf.files, functions := slf.functions, inlineOrigins := slf.inlineOrigins }

theorem finish_view (slf : SymbolParser) : slf.finish =
    { view slf with functions := sortByKey (fun f => pairKey f.addr f.size) (view slf).functions } := rfl

/-- A function with its records sorted. -/
def sortFn (cur : Function) : Function :=
  { cur with
    lines := sortByKey (fun x => pairKey x.addr x.size) cur.lines
    inlinees := sortByKey (fun x => pairKey x.depth x.addr) cur.inlinees }

/-- What records that belong to a function do to the symbol data. -/
def applySubs (v : SymbolFile) (cur : Function) (subs : List Sub) : SymbolFile :=
  { v with functions := v.functions ++ [sortFn (subs.foldl addSub cur)]
           inlineOrigins := (subOrigins subs).reverse ++ v.inlineOrigins }

/-- What a record does to the symbol data. -/
def apply (v : SymbolFile) : Record → SymbolFile
  | .module name => { v with module := some name }
  | .info => v
  | .file id name => { v with files := (id, name) :: v.files }
  | .origin id name => { v with inlineOrigins := (id, name) :: v.inlineOrigins }
  | .pub _ => v
  | .func addr size parameterSize name subs => applySubs v ⟨addr, size, parameterSize, name, [], []⟩ subs
  | .win => v
  | .cfi _ => v

/-- The line a record starts with. -/
def headLine : Record → Line
  | .module name => .module name
  | .info => .info
  | .file id name => .file id name
  | .origin id name => .inlineOrigin id name
  | .pub p => .pub p
  | .func addr size parameterSize name _ => .function ⟨addr, size, parameterSize, name, [], []⟩
  | .win => .stackWin
  | .cfi _ => .stackCfi

/-- The lines after the first one. -/
def CfiText : Lang := lit "STACK CFI" ∙ Blanks ∙ Rest ∙ Eol

/-- The lines after the first one. -/
def tailText : Record → Lang
  | .func _ _ _ _ subs => Texts Sub.text subs
  | .cfi more => Texts (fun _ => CfiText) more
  | _ => fun t => t = []

theorem seq_nil {L : Lang} {t : Bytes} : L t ↔ (L ∙ fun t => t = []) t := by
  constructor
  · intro h; exact ⟨t, [], by simp, h, rfl⟩
  · rintro ⟨x, _, rfl, h, rfl⟩; simpa using h

theorem record_text (r : Record) (x : Bytes) :
    r.text x ↔ ∃ t w z, x = t ++ (w ++ z) ∧ lineText (headLine r) t ∧ Ws w ∧ tailText r z := by
  have flat : ∀ (L T : Lang) (x : Bytes), (∃ t w z, x = t ++ (w ++ z) ∧ L t ∧ Ws w ∧ T z) ↔ (L ∙ Ws ∙ T) x := by
    intro L T x
    constructor
    · rintro ⟨t, w, z, rfl, h1, h2, h3⟩; exact ⟨t, _, rfl, h1, w, z, rfl, h2, h3⟩
    · rintro ⟨t, _, rfl, h1, w, z, rfl, h2, h3⟩; exact ⟨t, w, z, rfl, h1, h2, h3⟩
  cases r with
  | func a s p n subs =>
    have : ∀ t, lineText (headLine (.func a s p n subs)) t ↔ (lit "FUNC" ∙ Blanks ∙ Multiple ∙ Hex 16 a ∙ Blanks ∙
        Hex 8 s ∙ Blanks ∙ Hex 8 p ∙ Blanks ∙ Name n ∙ Eol) t :=
      fun t => ⟨fun h => h.1, fun h => ⟨h, rfl, rfl⟩⟩
    simp only [this]
    rw [flat]
    simp only [Record.text, tailText, seq_assoc]
  | cfi more => rw [flat]; simp only [Record.text, headLine, tailText, lineText, CfiText, seq_assoc]
  | module name =>
    rw [flat, ← seq_assoc]; unfold tailText; rw [← seq_nil]
    simp only [Record.text, headLine, lineText, seq_assoc]
  | info =>
    rw [flat, ← seq_assoc]; unfold tailText; rw [← seq_nil]
    simp only [Record.text, headLine, lineText, seq_assoc]
  | file id name =>
    rw [flat, ← seq_assoc]; unfold tailText; rw [← seq_nil]
    simp only [Record.text, headLine, lineText, seq_assoc]
  | origin id name =>
    rw [flat, ← seq_assoc]; unfold tailText; rw [← seq_nil]
    simp only [Record.text, headLine, lineText, seq_assoc]
  | pub p =>
    rw [flat, ← seq_assoc]; unfold tailText; rw [← seq_nil]
    simp only [Record.text, headLine, lineText, seq_assoc]
  | win =>
    rw [flat, ← seq_assoc]; unfold tailText; rw [← seq_nil]
    simp only [Record.text, headLine, lineText, seq_assoc]

/-- Not a character that `multispace0` skips. -/
def NoWs (r : Bytes) : Prop := ∀ c, r.head? = some c → ¬ (c = 32 ∨ c = 9 ∨ c = 13 ∨ c = 10)

theorem noWs_lit {s : String} {L : Lang} {t r : Bytes} (h : (lit s ∙ L) t) (hs : s = "MODULE" ∨ s = "INFO" ∨
    s = "FILE" ∨ s = "INLINE_ORIGIN" ∨ s = "PUBLIC" ∨ s = "FUNC" ∨ s = "STACK WIN" ∨ s = "STACK CFI INIT" ∨
    s = "INLINE" ∨ s = "STACK CFI") : NoWs (t ++ r) := by
  obtain ⟨_, y, rfl, rfl, _⟩ := h
  intro c hc
  rcases hs with rfl | rfl | rfl | rfl | rfl | rfl | rfl | rfl | rfl | rfl <;>
    (simp [ascii] at hc; subst hc; decide)

theorem noWs_line {l : Line} {t r : Bytes} (h : lineText l t) : NoWs (t ++ r) := by
  cases l with
  | function f => exact noWs_lit h.1 (by simp)
  | module n => exact noWs_lit h (by simp)
  | info => exact noWs_lit h (by simp)
  | file id n => exact noWs_lit h (by simp)
  | inlineOrigin id n => exact noWs_lit h (by simp)
  | pub p => exact noWs_lit h (by simp)
  | stackWin => exact noWs_lit h (by simp)
  | stackCfi => exact noWs_lit h (by simp)

theorem noWs_sub {s : Sub} {t r : Bytes} (h : s.text t) : NoWs (t ++ r) := by
  cases s with
  | origin id n => exact noWs_lit h (by simp)
  | inline d cl cf o rs => exact noWs_lit h (by simp)
  | line l =>
    obtain ⟨x, y, rfl, hx, _⟩ := h
    intro c hc
    cases x with
    | nil => exact absurd rfl hx.1
    | cons a x =>
      have : a = c := by simpa using hc
      subst this
      have hd := hx.2.2.1 a (by simp)
      rintro (h | h | h | h)
      · exact digit_not_blank (by omega) hd (Or.inl h)
      · exact digit_not_blank (by omega) hd (Or.inr h)
      · exact eol_not_digit (by omega) (Or.inl h) hd
      · exact eol_not_digit (by omega) (Or.inr h) hd

theorem noWs_records {rs : List Record} {t : Bytes} (h : Records rs t) : NoWs t := by
  cases rs with
  | nil =>
    have : t = [] := h
    subst this
    intro c hc; simp at hc
  | cons r rs =>
    obtain ⟨x, y, rfl, hx, _, _⟩ := h
    obtain ⟨t, w, z, rfl, ht, _⟩ := (record_text r x).mp hx
    rw [List.append_assoc]
    exact noWs_line ht

theorem noWs_subs {subs : List Sub} {x y : Bytes} (h : Texts Sub.text subs x) (hy : NoWs y) : NoWs (x ++ y) := by
  cases subs with
  | nil =>
    have : x = [] := h
    subst this
    exact hy
  | cons s ss =>
    obtain ⟨a, b, rfl, ha, _⟩ := h
    rw [List.append_assoc]
    exact noWs_sub ha

theorem noWs_cfis {more : List Unit} {x y : Bytes} (h : Texts (fun _ => CfiText) more x) (hy : NoWs y) :
    NoWs (x ++ y) := by
  cases more with
  | nil =>
    have : x = [] := h
    subst this
    exact hy
  | cons s ss =>
    obtain ⟨a, b, rfl, ha, _⟩ := h
    rw [List.append_assoc]
    exact noWs_lit ha (by simp)

theorem lineText_ne {l : Line} {t : Bytes} (h : lineText l t) : t ≠ [] := by
  rintro rfl
  have gen : ∀ {s : String} {L : Lang}, (lit s ∙ L) [] → ascii s = [] := by
    rintro s L ⟨x, y, h, hx, _⟩
    have hx' : x = ascii s := hx
    rw [← hx']
    exact (List.append_eq_nil_iff.mp h.symm).1
  cases l with
  | function f => exact absurd (gen h.1) (by decide +kernel)
  | module n => exact absurd (gen h) (by decide +kernel)
  | info => exact absurd (gen h) (by decide +kernel)
  | file id n => exact absurd (gen h) (by decide +kernel)
  | inlineOrigin id n => exact absurd (gen h) (by decide +kernel)
  | pub p => exact absurd (gen h) (by decide +kernel)
  | stackWin => exact absurd (gen h) (by decide +kernel)
  | stackCfi => exact absurd (gen h) (by decide +kernel)

theorem subText_ne {s : Sub} {t : Bytes} (h : s.text t) : t ≠ [] := by
  rintro rfl
  cases s with
  | origin id n =>
    obtain ⟨x, y, h, hx, _⟩ := h
    have hx' : x = ascii "INLINE_ORIGIN" := hx
    rw [hx'] at h
    exact absurd (List.append_eq_nil_iff.mp h.symm).1 (by decide +kernel)
  | inline d cl cf o rs =>
    obtain ⟨x, y, h, hx, _⟩ := h
    have hx' : x = ascii "INLINE" := hx
    rw [hx'] at h
    exact absurd (List.append_eq_nil_iff.mp h.symm).1 (by decide +kernel)
  | line l =>
    obtain ⟨x, y, h, hx, _⟩ := h
    exact hx.1 (List.append_eq_nil_iff.mp h.symm).1

/-! ### The end of what belongs to a record -/

/-- An origin record of its own could belong to the function before it. -/
theorem origin_is_sub {l : Line} {t r : Bytes} (h : lineText l t) (hp : ascii "INLINE_ORIGIN " <+: t ++ r) :
    ∃ s : Sub, s.text t := by
  have no : ∀ {s : String} {L : Lang}, (lit s ∙ L) t → clash (ascii "INLINE_ORIGIN ") (ascii s) = true →
      ∃ s : Sub, s.text t := fun h hc => absurd hp (stops_at_keyword h hc)
  cases l with
  | function f => exact no h.1 (by decide +kernel)
  | module n => exact no h (by decide +kernel)
  | info => exact no h (by decide +kernel)
  | file id n => exact no h (by decide +kernel)
  | pub p => exact no h (by decide +kernel)
  | stackWin => exact no h (by decide +kernel)
  | stackCfi => exact no h (by decide +kernel)
  | inlineOrigin id n =>
    obtain ⟨_, _, rfl, rfl, b, u, rfl, hb, hu⟩ := h
    have hO : ascii "INLINE_ORIGIN " = ascii "INLINE_ORIGIN" ++ [32] := by decide +kernel
    rw [hO] at hp
    simp only [List.append_assoc] at hp
    exact ⟨.origin id n, _, _, rfl, rfl, b, u, rfl, blanks_sp hp hb, hu⟩

theorem cfi_prefix_iff {y : Bytes} :
    (ascii "STACK CFI " <+: y ∨ ascii "STACK CFI\t" <+: y) ↔ ∃ c u, Blank c ∧ y = ascii "STACK CFI" ++ c :: u := by
  have h1 : ascii "STACK CFI " = ascii "STACK CFI" ++ [32] := by decide +kernel
  have h2 : ascii "STACK CFI\t" = ascii "STACK CFI" ++ [9] := by decide +kernel
  rw [h1, h2]
  constructor
  · rintro (⟨u, rfl⟩ | ⟨u, rfl⟩)
    · exact ⟨32, u, Or.inl rfl, by simp⟩
    · exact ⟨9, u, Or.inr rfl, by simp⟩
  · rintro ⟨c, u, rfl | rfl, rfl⟩
    · exact Or.inl ⟨u, by simp⟩
    · exact Or.inr ⟨u, by simp⟩

theorem cfi_is_more {l : Line} {t r : Bytes} (h : lineText l t)
    (hp : ascii "STACK CFI " <+: t ++ r ∨ ascii "STACK CFI\t" <+: t ++ r) : CfiText t := by
  have no : ∀ {s : String} {L : Lang}, (lit s ∙ L) t → clash (ascii "STACK CFI ") (ascii s) = true →
      clash (ascii "STACK CFI\t") (ascii s) = true → CfiText t := fun h hc hc' =>
        hp.elim (fun hp => absurd hp (stops_at_keyword h hc)) (fun hp => absurd hp (stops_at_keyword h hc'))
  cases l with
  | function f => exact no h.1 (by decide +kernel) (by decide +kernel)
  | module n => exact no h (by decide +kernel) (by decide +kernel)
  | info => exact no h (by decide +kernel) (by decide +kernel)
  | file id n => exact no h (by decide +kernel) (by decide +kernel)
  | inlineOrigin id n => exact no h (by decide +kernel) (by decide +kernel)
  | pub p => exact no h (by decide +kernel) (by decide +kernel)
  | stackWin => exact no h (by decide +kernel) (by decide +kernel)
  | stackCfi =>
    obtain ⟨_, _, rfl, rfl, b, _, rfl, hb, s, e, rfl, hs, he⟩ := h
    have hI : ascii "STACK CFI INIT" = ascii "STACK CFI" ++ ([32] ++ ascii "INIT") := by decide +kernel
    refine ⟨ascii "STACK CFI", [32] ++ (ascii "INIT" ++ (b ++ s) ++ e), by rw [hI]; simp, rfl, [32], _, rfl,
      ⟨by simp, by intro c hc; simp at hc; exact Or.inl hc⟩, _, e, rfl, ?_, he⟩
    intro c hc
    rcases List.mem_append.mp hc with hc | hc
    · have : ∀ c ∈ ascii "INIT", c ≠ 13 ∧ c ≠ 10 := by decide +kernel
      exact this c hc
    · rcases List.mem_append.mp hc with hc | hc
      · rcases hb.2 c hc with rfl | rfl <;> decide
      · exact hs c hc

theorem stackCfi_iff {i r : Bytes} {u : Unit} : stackCfi i = .ok (r, u) ↔ ∃ t, i = t ++ r ∧ CfiText t := by
  rw [stackCfi_ok]; exact kw_iff

/-! ### The loop -/

/-- What the parser can be at. -/
def Inv (slf : SymbolParser) : Prop := slf.lines = 0 → slf.curItem = none ∧ slf.module = none

/-- The symbol data is what is left of the input adds to that of the parser. -/
def Out (slf : SymbolParser) (input : Bytes) (v : SymbolFile) : Prop :=
  match slf.curItem with
  | none => ∃ rs, Records rs input ∧ (slf.lines = 0 → ∀ r ∈ rs.tail, ¬ r.IsModule) ∧
      (slf.lines ≠ 0 → ∀ r ∈ rs, ¬ r.IsModule) ∧ v = rs.foldl apply (view slf)
  | some (.function cur) => ∃ subs x y rs, input = x ++ y ∧ Texts Sub.text subs x ∧
      ¬ ascii "INLINE_ORIGIN " <+: y ∧ Records rs y ∧ (∀ r ∈ rs, ¬ r.IsModule) ∧
      v = rs.foldl apply (applySubs (view { slf with curItem := none }) cur subs)
  | some .stackCfi => ∃ (more : List Unit) (x y : Bytes) (rs : List Record), input = x ++ y ∧ Texts (fun _ => CfiText) more x ∧
      ¬ (ascii "STACK CFI " <+: y ∨ ascii "STACK CFI\t" <+: y) ∧ Records rs y ∧ (∀ r ∈ rs, ¬ r.IsModule) ∧
      v = rs.foldl apply (view { slf with curItem := none })

/-- What the lines of a file do. -/
def Step (slf slf' : SymbolParser) (l : Line) : Prop :=
  slf'.lines ≠ 0 ∧
  match l with
  | .function f => slf'.curItem = some (.function f) ∧ view { slf' with curItem := none } = view slf
  | .stackCfi => slf'.curItem = some .stackCfi ∧ view { slf' with curItem := none } = view slf
  | .module name => slf'.curItem = none ∧ view slf' = { view slf with module := some name } ∧ slf.lines = 0
  | .info => slf'.curItem = none ∧ view slf' = view slf
  | .file id name => slf'.curItem = none ∧ view slf' = { view slf with files := (id, name) :: (view slf).files }
  | .inlineOrigin id name => slf'.curItem = none ∧
      view slf' = { view slf with inlineOrigins := (id, name) :: (view slf).inlineOrigins }
  | .pub _ => slf'.curItem = none ∧ view slf' = view slf
  | .stackWin => slf'.curItem = none ∧ view slf' = view slf

theorem addLine_spec {slf : SymbolParser} (hc : slf.curItem = none) (hi : Inv slf) (l : Line) :
    (∃ slf', slf.addLine l = .ok slf' ∧ Step slf slf' l) ∨
    (slf.addLine l = .error .lateModule ∧ slf.lines ≠ 0 ∧ ∃ name, l = .module name) := by
  obtain ⟨m, fi, o, p, fn, n, c⟩ := slf
  simp only at hc
  subst hc
  cases l with
  | module name =>
    by_cases h0 : n = 0
    · left
      subst h0
      have hm : m = none := (hi rfl).2
      subst hm
      exact ⟨_, rfl, by simp [Step, view]⟩
    · right
      exact ⟨by simp [SymbolParser.addLine, h0], h0, name, rfl⟩
  | info => left; exact ⟨_, rfl, by simp [Step, view]⟩
  | file id name => left; exact ⟨_, rfl, by simp [Step, view]⟩
  | inlineOrigin id name => left; exact ⟨_, rfl, by simp [Step, view]⟩
  | pub p => left; exact ⟨_, rfl, by simp [Step, view]⟩
  | stackWin => left; exact ⟨_, rfl, by simp [Step, view]⟩
  | function f => left; exact ⟨_, rfl, by simp [Step, view]⟩
  | stackCfi => left; exact ⟨_, rfl, by simp [Step, view]⟩

theorem inv_of_lines {slf : SymbolParser} (h : slf.lines ≠ 0) : Inv slf := fun h0 => absurd h0 h

theorem subs_cons (s : Sub) (subs : List Sub) (v : SymbolFile) (cur : Function) :
    applySubs v cur (s :: subs) =
      applySubs { v with inlineOrigins := (subOrigins [s]).reverse ++ v.inlineOrigins } (addSub cur s) subs := by
  cases s <;> simp [applySubs, subOrigins]

theorem view_noteSub (slf : SymbolParser) (s : Sub) : view { noteSub { slf with curItem := none } s with curItem := none } =
    { view { slf with curItem := none } with
        inlineOrigins := (subOrigins [s]).reverse ++ (view { slf with curItem := none }).inlineOrigins } := by
  cases s <;> rfl

theorem loop_sound (fuel : Nat) (slf out : SymbolParser) (input : Bytes) (hinv : Inv slf)
    (h : slf.parseLoop fuel input = .ok out) : Out slf input (view out) := by
  induction fuel generalizing slf input with
  | zero => exact absurd h (by simp [SymbolParser.parseLoop])
  | succ n ih =>
    unfold SymbolParser.parseLoop at h
    by_cases h0 : input = []
    · subst h0
      rw [if_pos rfl] at h
      have h' : slf = out := by simpa using h
      subst h'
      unfold Out
      rcases hc : slf.curItem with _ | (f | _)
      · exact ⟨[], rfl, by simp, by simp, rfl⟩
      · refine ⟨[], [], [], [], rfl, rfl, by decide +kernel, rfl, by simp, ?_⟩
        obtain ⟨m, fi, o, p, fn, k, c⟩ := slf
        simp only at hc
        subst hc
        rfl
      · refine ⟨[], [], [], [], rfl, rfl, by decide +kernel, rfl, by simp, ?_⟩
        obtain ⟨m, fi, o, p, fn, k, c⟩ := slf
        simp only at hc
        subst hc
        rfl
    rw [if_neg h0] at h
    rcases hc : slf.curItem with _ | (cur | _)
    · -- a top level line
      rw [hc] at h
      simp only at h
      cases hl : line input with
      | error e => rw [hl] at h; exact absurd h (by simp)
      | ok x =>
        obtain ⟨rest, l⟩ := x
        rw [hl] at h
        simp only at h
        obtain ⟨t, w, rfl, ht, hw, hs⟩ := line_ok.mp hl
        rcases addLine_spec hc hinv l with ⟨slf', ha, hl', hstep⟩ | ⟨ha, _⟩
        · rw [ha] at h
          have hrec := ih slf' rest (inv_of_lines hl') h
          unfold Out at hrec ⊢
          rw [hc]
          simp only
          cases l with
          | function f =>
            obtain ⟨hc', hv⟩ := hstep
            rw [hc'] at hrec
            obtain ⟨subs, x, y, rs, rfl, h1, h2, h3, h4, h5⟩ := hrec
            obtain ⟨hft, hfl, hfi⟩ := id ht
            obtain ⟨f1, f2, f3, f4, f5, f6⟩ := f
            simp only at hfl hfi
            subst hfl; subst hfi
            refine ⟨.func f1 f2 f3 f4 subs :: rs, ⟨t ++ (w ++ x), y, by simp, ?_, h2, h3⟩, ?_, ?_, ?_⟩
            · exact (record_text _ _).mpr ⟨t, w, x, rfl, ht, hw, h1⟩
            · intro _; exact h4
            · intro _ r hr
              rcases List.mem_cons.mp hr with rfl | hr
              · exact id
              · exact h4 r hr
            · rw [h5, List.foldl_cons, hv]; rfl
          | stackCfi =>
            obtain ⟨hc', hv⟩ := hstep
            rw [hc'] at hrec
            obtain ⟨more, x, y, rs, rfl, h1, h2, h3, h4, h5⟩ := hrec
            refine ⟨.cfi more :: rs, ⟨t ++ (w ++ x), y, by simp, ?_, h2, h3⟩, ?_, ?_, ?_⟩
            · exact (record_text _ _).mpr ⟨t, w, x, rfl, ht, hw, h1⟩
            · intro _; exact h4
            · intro _ r hr
              rcases List.mem_cons.mp hr with rfl | hr
              · exact id
              · exact h4 r hr
            · rw [h5, List.foldl_cons, hv]; rfl
          | module name =>
            obtain ⟨hc', hv, hz⟩ := hstep
            rw [hc'] at hrec
            obtain ⟨rs, h1, _, h3, h4⟩ := hrec
            refine ⟨.module name :: rs, ⟨t ++ (w ++ []), rest, by simp, ?_, trivial, h1⟩, fun _ => h3 hl',
              fun h => absurd hz h, ?_⟩
            · exact (record_text _ _).mpr ⟨t, w, [], rfl, ht, hw, rfl⟩
            · rw [h4, List.foldl_cons, hv]; rfl
          | info =>
            obtain ⟨hc', hv⟩ := hstep
            rw [hc'] at hrec
            obtain ⟨rs, h1, _, h3, h4⟩ := hrec
            refine ⟨.info :: rs, ⟨t ++ (w ++ []), rest, by simp, ?_, trivial, h1⟩, fun _ => h3 hl', ?_, ?_⟩
            · exact (record_text _ _).mpr ⟨t, w, [], rfl, ht, hw, rfl⟩
            · intro _ r hr
              rcases List.mem_cons.mp hr with rfl | hr
              · exact id
              · exact h3 hl' r hr
            · rw [h4, List.foldl_cons, hv]; rfl
          | file id name =>
            obtain ⟨hc', hv⟩ := hstep
            rw [hc'] at hrec
            obtain ⟨rs, h1, _, h3, h4⟩ := hrec
            refine ⟨.file id name :: rs, ⟨t ++ (w ++ []), rest, by simp, ?_, trivial, h1⟩, fun _ => h3 hl', ?_, ?_⟩
            · exact (record_text _ _).mpr ⟨t, w, [], rfl, ht, hw, rfl⟩
            · intro _ r hr
              rcases List.mem_cons.mp hr with rfl | hr
              · exact fun h => h
              · exact h3 hl' r hr
            · rw [h4, List.foldl_cons, hv]; rfl
          | inlineOrigin id name =>
            obtain ⟨hc', hv⟩ := hstep
            rw [hc'] at hrec
            obtain ⟨rs, h1, _, h3, h4⟩ := hrec
            refine ⟨.origin id name :: rs, ⟨t ++ (w ++ []), rest, by simp, ?_, trivial, h1⟩, fun _ => h3 hl', ?_, ?_⟩
            · exact (record_text _ _).mpr ⟨t, w, [], rfl, ht, hw, rfl⟩
            · intro _ r hr
              rcases List.mem_cons.mp hr with rfl | hr
              · exact fun h => h
              · exact h3 hl' r hr
            · rw [h4, List.foldl_cons, hv]; rfl
          | pub p =>
            obtain ⟨hc', hv⟩ := hstep
            rw [hc'] at hrec
            obtain ⟨rs, h1, _, h3, h4⟩ := hrec
            refine ⟨.pub p :: rs, ⟨t ++ (w ++ []), rest, by simp, ?_, trivial, h1⟩, fun _ => h3 hl', ?_, ?_⟩
            · exact (record_text _ _).mpr ⟨t, w, [], rfl, ht, hw, rfl⟩
            · intro _ r hr
              rcases List.mem_cons.mp hr with rfl | hr
              · exact id
              · exact h3 hl' r hr
            · rw [h4, List.foldl_cons, hv]; rfl
          | stackWin =>
            obtain ⟨hc', hv⟩ := hstep
            rw [hc'] at hrec
            obtain ⟨rs, h1, _, h3, h4⟩ := hrec
            refine ⟨.win :: rs, ⟨t ++ (w ++ []), rest, by simp, ?_, trivial, h1⟩, fun _ => h3 hl', ?_, ?_⟩
            · exact (record_text _ _).mpr ⟨t, w, [], rfl, ht, hw, rfl⟩
            · intro _ r hr
              rcases List.mem_cons.mp hr with rfl | hr
              · exact id
              · exact h3 hl' r hr
            · rw [h4, List.foldl_cons, hv]; rfl
        · rw [ha] at h; exact absurd h (by simp)
    · -- in a function
      have hl0 : slf.lines ≠ 0 := fun h => by rw [(hinv h).1] at hc; cases hc
      rw [hc] at h
      simp only at h
      cases hp : parseFuncSubline { slf with curItem := none } cur input with
      | ok x =>
        obtain ⟨rest, slf', cur'⟩ := x
        rw [hp] at h
        simp only at h
        obtain ⟨s, t, rfl, ht, rfl, rfl⟩ := sub_ok.mp hp
        have hrec := ih _ rest (inv_of_lines (by simp)) h
        unfold Out at hrec ⊢
        rw [hc]
        simp only at hrec ⊢
        obtain ⟨subs, x, y, rs, rfl, h1, h2, h3, h4, h5⟩ := hrec
        refine ⟨s :: subs, t ++ x, y, rs, by simp, ⟨t, x, rfl, ht, h1⟩, h2, h3, h4, ?_⟩
        rw [h5, subs_cons, ← view_noteSub]
        rfl
      | error e =>
        rw [hp] at h
        simp only at h
        have hrec := ih _ input (inv_of_lines (by exact hl0)) h
        unfold Out at hrec ⊢
        rw [hc]
        simp only at hrec ⊢
        have hci : (SymbolParser.finishItem { slf with curItem := none } (.function cur)).curItem = none := rfl
        rw [hci] at hrec
        obtain ⟨rs, h1, _, h3, h4⟩ := hrec
        refine ⟨[], [], input, rs, rfl, rfl, ?_, h1, h3 hl0, h4⟩
        intro hpre
        cases rs with
        | nil =>
          have : input = [] := h1
          exact h0 this
        | cons r rs =>
          obtain ⟨x, y, rfl, hx, _, _⟩ := h1
          obtain ⟨t, w, z, rfl, ht, _⟩ := (record_text r x).mp hx
          rw [List.append_assoc] at hpre
          obtain ⟨s, hs⟩ := origin_is_sub ht hpre
          rw [sub_ok.mpr ⟨s, t, List.append_assoc .., hs, rfl, rfl⟩] at hp
          exact absurd hp (by simp)
    · -- in stack unwinding data
      have hl0 : slf.lines ≠ 0 := fun h => by rw [(hinv h).1] at hc; cases hc
      rw [hc] at h
      simp only at h
      cases hp : stackCfi input with
      | ok x =>
        obtain ⟨rest, u⟩ := x
        rw [hp] at h
        simp only at h
        obtain ⟨t, rfl, ht⟩ := stackCfi_iff.mp hp
        have hrec := ih _ rest (inv_of_lines (by simp)) h
        unfold Out at hrec ⊢
        rw [hc]
        simp only at hrec ⊢
        obtain ⟨more, x, y, rs, rfl, h1, h2, h3, h4, h5⟩ := hrec
        exact ⟨() :: more, t ++ x, y, rs, by simp, ⟨t, x, rfl, ht, h1⟩, h2, h3, h4, h5⟩
      | error e =>
        rw [hp] at h
        simp only at h
        have hrec := ih _ input (inv_of_lines (by exact hl0)) h
        unfold Out at hrec ⊢
        rw [hc]
        simp only at hrec ⊢
        have hci : (SymbolParser.finishItem { slf with curItem := none } .stackCfi).curItem = none := rfl
        rw [hci] at hrec
        obtain ⟨rs, h1, _, h3, h4⟩ := hrec
        refine ⟨[], [], input, rs, rfl, rfl, ?_, h1, h3 hl0, h4⟩
        intro hpre
        cases rs with
        | nil =>
          have : input = [] := h1
          exact h0 this
        | cons r rs =>
          obtain ⟨x, y, rfl, hx, _, _⟩ := h1
          obtain ⟨t, w, z, rfl, ht, _⟩ := (record_text r x).mp hx
          rw [List.append_assoc] at hpre
          rw [(stackCfi_iff (u := ())).mpr ⟨t, List.append_assoc .., cfi_is_more ht hpre⟩] at hp
          exact absurd hp (by simp)

/-- Enough iterations. -/
def enough (slf : SymbolParser) (input : Bytes) (fuel : Nat) : Prop :=
  2 * input.length + (if slf.curItem = none then 0 else 1) < fuel

theorem loop_complete (fuel : Nat) (slf : SymbolParser) (input : Bytes) (v : SymbolFile) (hinv : Inv slf)
    (hf : enough slf input fuel) (h : Out slf input v) :
    ∃ out, slf.parseLoop fuel input = .ok out ∧ view out = v := by
  induction fuel generalizing slf input with
  | zero => exact absurd hf (by unfold enough; omega)
  | succ n ih =>
    unfold SymbolParser.parseLoop
    by_cases h0 : input = []
    · subst h0
      rw [if_pos rfl]
      refine ⟨slf, rfl, ?_⟩
      unfold Out at h
      have hrs : ∀ {rs : List Record}, Records rs [] → rs = [] := by
        intro rs h
        cases rs with
        | nil => rfl
        | cons r rs =>
          obtain ⟨x, y, h, hx, _⟩ := h
          obtain ⟨t, w, z, rfl, ht, _⟩ := (record_text r x).mp hx
          have := (List.append_eq_nil_iff.mp h.symm).1
          exact absurd (List.append_eq_nil_iff.mp this).1 (lineText_ne ht)
      rcases hc : slf.curItem with _ | (cur | _)
      · rw [hc] at h
        obtain ⟨rs, h1, _, _, rfl⟩ := h
        rw [hrs h1]; rfl
      · rw [hc] at h
        obtain ⟨subs, x, y, rs, h1, h2, _, h3, _, rfl⟩ := h
        obtain ⟨rfl, rfl⟩ := List.append_eq_nil_iff.mp h1.symm
        have : subs = [] := by
          cases subs with
          | nil => rfl
          | cons s ss =>
            obtain ⟨a, b, hab, ha, _⟩ := h2
            exact absurd (List.append_eq_nil_iff.mp hab.symm).1 (subText_ne ha)
        subst this
        rw [hrs h3]
        obtain ⟨m, fi, o, p, fn, k, c⟩ := slf
        simp only at hc
        subst hc
        rfl
      · rw [hc] at h
        obtain ⟨more, x, y, rs, h1, h2, _, h3, _, rfl⟩ := h
        obtain ⟨rfl, rfl⟩ := List.append_eq_nil_iff.mp h1.symm
        rw [hrs h3]
        obtain ⟨m, fi, o, p, fn, k, c⟩ := slf
        simp only at hc
        subst hc
        rfl
    rw [if_neg h0]
    unfold Out at h
    rcases hc : slf.curItem with _ | (cur | _)
    · rw [hc] at h
      simp only at h ⊢
      obtain ⟨rs, h1, h2, h3, rfl⟩ := h
      cases rs with
      | nil => exact absurd (show input = [] from h1) h0
      | cons r rs =>
        obtain ⟨x, y, rfl, hx, hends, hy⟩ := h1
        obtain ⟨t, w, z, rfl, ht, hw, hz⟩ := (record_text r x).mp hx
        have htl : 0 < t.length := List.length_pos_iff.mpr (lineText_ne ht)
        have hnz : NoWs (z ++ y) := by
          cases r with
          | func a s p nm subs => exact noWs_subs hz (noWs_records hy)
          | cfi more => exact noWs_cfis hz (noWs_records hy)
          | module n => have : z = [] := hz; subst this; exact noWs_records hy
          | info => have : z = [] := hz; subst this; exact noWs_records hy
          | file id n => have : z = [] := hz; subst this; exact noWs_records hy
          | origin id n => have : z = [] := hz; subst this; exact noWs_records hy
          | pub p => have : z = [] := hz; subst this; exact noWs_records hy
          | win => have : z = [] := hz; subst this; exact noWs_records hy
        have hline : line (t ++ (w ++ z) ++ y) = .ok (z ++ y, headLine r) :=
          line_ok.mpr ⟨t, w, by simp, ht, hw, hnz⟩
        rw [hline]
        simp only
        have hlen : 2 * (z ++ y).length + 1 < n := by
          unfold enough at hf
          simp at hf ⊢; omega
        rcases addLine_spec hc hinv (headLine r) with ⟨slf', ha, hl', hstep⟩ | ⟨ha, hl0, nm, hm⟩
        · rw [ha]
          simp only
          have hen : enough slf' (z ++ y) n := by unfold enough; split <;> omega
          have hmods : ∀ r' ∈ rs, ¬ r'.IsModule := by
            intro r' hr'
            by_cases h0 : slf.lines = 0
            · exact h2 h0 r' hr'
            · exact h3 h0 r' (List.mem_cons_of_mem _ hr')
          have plain : z = [] → slf'.curItem = none → view slf' = apply (view slf) r →
              ∃ out, slf'.parseLoop n (z ++ y) = .ok out ∧ view out = (r :: rs).foldl apply (view slf) := by
            intro hz' hc' hv
            subst hz'
            refine ih slf' y (inv_of_lines hl') hen ?_
            unfold Out
            rw [hc']
            exact ⟨rs, hy, fun h => absurd h hl', fun _ => hmods, by rw [List.foldl_cons, hv]⟩
          cases r with
          | func a s p nm subs =>
            obtain ⟨hc', hv⟩ := hstep
            refine ih slf' (z ++ y) (inv_of_lines hl') hen ?_
            unfold Out
            rw [hc']
            exact ⟨subs, z, y, rs, rfl, hz, hends, hy, hmods, by rw [hv]; rfl⟩
          | cfi more =>
            obtain ⟨hc', hv⟩ := hstep
            refine ih slf' (z ++ y) (inv_of_lines hl') hen ?_
            unfold Out
            rw [hc']
            exact ⟨more, z, y, rs, rfl, hz, hends, hy, hmods, by rw [hv]; rfl⟩
          | module n => exact plain hz hstep.1 hstep.2.1
          | info => exact plain hz hstep.1 hstep.2
          | file id n => exact plain hz hstep.1 hstep.2
          | origin id n => exact plain hz hstep.1 hstep.2
          | pub p => exact plain hz hstep.1 hstep.2
          | win => exact plain hz hstep.1 hstep.2
        · exfalso
          cases r <;> simp only [headLine, reduceCtorEq] at hm
          exact h3 hl0 _ (List.mem_cons_self ..) trivial
    · have hl0 : slf.lines ≠ 0 := fun h => by rw [(hinv h).1] at hc; cases hc
      rw [hc] at h
      simp only at h ⊢
      obtain ⟨subs, x, y, rs, rfl, h1, h2, h3, h4, rfl⟩ := h
      have hlen : 2 * (x ++ y).length + 1 < n + 1 := by
        unfold enough at hf
        rw [hc] at hf
        simpa using hf
      cases subs with
      | nil =>
        have : x = [] := h1
        subst this
        have herr : ∃ e, parseFuncSubline { slf with curItem := none } cur ([] ++ y) = .error e := by
          cases rs with
          | nil => exact absurd (show y = [] from h3) h0
          | cons r rs =>
            obtain ⟨x, y', rfl, hx, _, _⟩ := h3
            obtain ⟨t, w, z, rfl, ht, _⟩ := (record_text r x).mp hx
            rw [List.append_assoc] at h2
            rw [List.nil_append, List.append_assoc]
            exact sub_fails_on_line ht h2
        obtain ⟨e, herr⟩ := herr
        rw [herr]
        simp only
        refine ih _ y (inv_of_lines (by exact hl0)) ?_ ?_
        · have hci : (SymbolParser.finishItem { slf with curItem := none } (.function cur)).curItem = none := rfl
          unfold enough
          rw [hci]
          simp at hlen ⊢; omega
        · unfold Out
          have hci : (SymbolParser.finishItem { slf with curItem := none } (.function cur)).curItem = none := rfl
          rw [hci]
          exact ⟨rs, h3, fun h => absurd h hl0, fun _ => h4, rfl⟩
      | cons s ss =>
        obtain ⟨a, b, rfl, ha, hb⟩ := h1
        have hal : 0 < a.length := List.length_pos_iff.mpr (subText_ne ha)
        rw [sub_ok.mpr ⟨s, a, List.append_assoc .., ha, rfl, rfl⟩]
        simp only
        refine ih _ (b ++ y) (inv_of_lines (by simp)) ?_ ?_
        · unfold enough
          simp at hlen ⊢; omega
        · unfold Out
          refine ⟨ss, b, y, rs, rfl, hb, h2, h3, h4, ?_⟩
          rw [subs_cons, ← view_noteSub]
          rfl
    · have hl0 : slf.lines ≠ 0 := fun h => by rw [(hinv h).1] at hc; cases hc
      rw [hc] at h
      simp only at h ⊢
      obtain ⟨more, x, y, rs, rfl, h1, h2, h3, h4, rfl⟩ := h
      have hlen : 2 * (x ++ y).length + 1 < n + 1 := by
        unfold enough at hf
        rw [hc] at hf
        simpa using hf
      cases more with
      | nil =>
        have : x = [] := h1
        subst this
        have herr : ∃ e, stackCfi ([] ++ y) = .error e := by
          cases hs : stackCfi ([] ++ y) with
          | error e => exact ⟨e, rfl⟩
          | ok z =>
            exfalso
            apply h2
            obtain ⟨t, ht, _, _, rfl, rfl, b, u, rfl, hb, _⟩ := stackCfi_iff.mp (show stackCfi ([] ++ y) = .ok (z.1, z.2) from hs)
            rw [List.nil_append] at ht
            rw [cfi_prefix_iff, ht]
            cases b with
            | nil => exact absurd rfl hb.1
            | cons c b => exact ⟨c, b ++ u ++ z.1, hb.2 c (by simp), by simp⟩
        obtain ⟨e, herr⟩ := herr
        rw [herr]
        simp only
        refine ih _ y (inv_of_lines (by exact hl0)) ?_ ?_
        · have hci : (SymbolParser.finishItem { slf with curItem := none } .stackCfi).curItem = none := rfl
          unfold enough
          rw [hci]
          simp at hlen ⊢; omega
        · unfold Out
          have hci : (SymbolParser.finishItem { slf with curItem := none } .stackCfi).curItem = none := rfl
          rw [hci]
          exact ⟨rs, h3, fun h => absurd h hl0, fun _ => h4, rfl⟩
      | cons s ss =>
        obtain ⟨a, b, rfl, ha, hb⟩ := h1
        have hal : 0 < a.length := by
          obtain ⟨_, _, rfl, rfl, _⟩ := ha
          have : 0 < (ascii "STACK CFI").length := by decide +kernel
          simp; omega
        rw [(stackCfi_iff (u := ())).mpr ⟨a, List.append_assoc .., ha⟩]
        simp only
        refine ih _ (b ++ y) (inv_of_lines (by simp)) ?_ ?_
        · unfold enough
          simp at hlen ⊢; omega
        · unfold Out
          exact ⟨ss, b, y, rs, rfl, hb, h2, h3, h4, rfl⟩

theorem lineText_line {l : Line} {t r : Bytes} (h : lineText l t) : ∃ x, line (t ++ r) = .ok x := by
  let ws : UInt8 → Bool := fun c => c == 32 || c == 9 || c == 13 || c == 10
  refine ⟨(r.dropWhile ws, l), line_ok.mpr ⟨t, r.takeWhile ws, ?_, h, ?_, ?_⟩⟩
  · rw [List.takeWhile_append_dropWhile]
  · intro c hc
    have := List.all_eq_true.mp (List.all_takeWhile (p := ws) (l := r)) c hc
    simpa [ws, or_assoc] using this
  · intro c hc
    have := List.head?_dropWhile_not ws r
    rw [hc] at this
    simpa [ws, not_or, and_assoc] using this

/-- What is not allowed where it is: what is no line, or a `MODULE` record. -/
def Bad (rest : Bytes) (e : Fail) : Prop :=
  (∃ err, line rest = .error err ∧ e = convertNomErr rest err) ∨
  ∃ r name, line rest = .ok (r, .module name) ∧ e = .lateModule

/-- What the loop fails with: a late `MODULE` record, or what is no line, before which all is well. -/
theorem loop_fails (fuel : Nat) (slf : SymbolParser) (input : Bytes) (e : Fail) (hinv : Inv slf)
    (hf : enough slf input fuel) (h : slf.parseLoop fuel input = .error e) :
    ∃ done rest, input = done ++ rest ∧ rest ≠ [] ∧ Bad rest e ∧
      (e = .lateModule → slf.lines = 0 → done ≠ []) ∧ ∃ out, slf.parseLoop fuel done = .ok out := by
  induction fuel generalizing slf input with
  | zero => exact absurd hf (by unfold enough; omega)
  | succ n ih =>
    unfold SymbolParser.parseLoop at h
    by_cases h0 : input = []
    · rw [if_pos h0] at h; exact absurd h (by simp)
    rw [if_neg h0] at h
    have stop : ∀ s : SymbolParser, ∃ out, s.parseLoop (n + 1) [] = .ok out := fun s =>
      ⟨s, by unfold SymbolParser.parseLoop; rw [if_pos rfl]⟩
    rcases hc : slf.curItem with _ | (cur | _)
    · rw [hc] at h
      simp only at h
      cases hl : line input with
      | error e' =>
        rw [hl] at h
        simp only [Except.error.injEq] at h
        refine ⟨[], input, rfl, h0, Or.inl ⟨e', hl, h.symm⟩, ?_, stop slf⟩
        intro hlate
        rw [← h] at hlate
        unfold convertNomErr at hlate
        split at hlate <;> cases hlate
      | ok x =>
        obtain ⟨rest, l⟩ := x
        rw [hl] at h
        simp only at h
        obtain ⟨t, w, rfl, ht, hw, hs⟩ := line_ok.mp hl
        have htl : 0 < t.length := List.length_pos_iff.mpr (lineText_ne ht)
        rcases addLine_spec hc hinv l with ⟨slf', ha, hl', _⟩ | ⟨ha, hm0, name, rfl⟩
        · rw [ha] at h
          rcases ih slf' rest (inv_of_lines hl') (by
            unfold enough at hf ⊢
            rw [if_pos hc] at hf
            simp at hf
            split <;> omega) h with ⟨done, rest', rfl, h1, h2, h3, out, h4⟩
          · have hne : t ++ (w ++ done) ≠ [] := by
              intro hh
              rw [List.append_eq_nil_iff] at hh
              exact lineText_ne ht hh.1
            refine ⟨t ++ (w ++ done), rest', by simp, h1, h2, fun _ _ => hne, out, ?_⟩
            have hld : line (t ++ (w ++ done)) = .ok (done, l) := by
              refine line_ok.mpr ⟨t, w, rfl, ht, hw, ?_⟩
              intro c hc
              refine hs c ?_
              cases done with
              | nil => simp at hc
              | cons a b => simpa using hc
            unfold SymbolParser.parseLoop
            rw [if_neg hne, hc]
            simp only
            rw [hld]
            simp only
            rw [ha]
            exact h4
        · rw [ha] at h
          simp only [Except.error.injEq] at h
          exact ⟨[], _, rfl, h0, Or.inr ⟨rest, name, hl, h.symm⟩, fun _ h => absurd h hm0, stop slf⟩
    · have hl0 : slf.lines ≠ 0 := fun h => by rw [(hinv h).1] at hc; cases hc
      have hlen : 2 * input.length + 1 < n + 1 := by
        unfold enough at hf
        rw [hc] at hf
        simpa using hf
      rw [hc] at h
      simp only at h
      cases hp : parseFuncSubline { slf with curItem := none } cur input with
      | ok x =>
        obtain ⟨rest, slf', cur'⟩ := x
        rw [hp] at h
        obtain ⟨s, t, rfl, ht, rfl, rfl⟩ := sub_ok.mp hp
        have hal : 0 < t.length := List.length_pos_iff.mpr (subText_ne ht)
        rcases ih _ rest (inv_of_lines (by simp)) (by
          unfold enough
          simp at hlen ⊢; omega) h with ⟨done, rest', rfl, h1, h2, h3, out, h4⟩
        · refine ⟨t ++ done, rest', by simp, h1, h2, fun _ h => absurd h hl0, out, ?_⟩
          have hne : t ++ done ≠ [] := by
            intro hh
            rw [List.append_eq_nil_iff] at hh
            exact subText_ne ht hh.1
          unfold SymbolParser.parseLoop
          rw [if_neg hne, hc]
          simp only
          rw [sub_ok.mpr ⟨s, t, rfl, ht, rfl, rfl⟩]
          exact h4
      | error e' =>
        rw [hp] at h
        have hci : (SymbolParser.finishItem { slf with curItem := none } (.function cur)).curItem = none := rfl
        rcases ih _ input (inv_of_lines (by exact hl0)) (by
          unfold enough
          rw [hci]
          simp; omega) h with ⟨done, rest', rfl, h1, h2, h3, out, h4⟩
        · by_cases hd : done = []
          · subst hd
            exact ⟨[], rest', rfl, h1, h2, fun _ h => absurd h hl0, stop slf⟩
          · refine ⟨done, rest', rfl, h1, h2, fun _ h => absurd h hl0, out, ?_⟩
            unfold SymbolParser.parseLoop
            rw [if_neg hd, hc]
            simp only
            cases hp' : parseFuncSubline { slf with curItem := none } cur done with
            | ok x =>
              obtain ⟨r, slf', cur'⟩ := x
              obtain ⟨s, t, rfl, ht, rfl, rfl⟩ := sub_ok.mp hp'
              rw [List.append_assoc, sub_ok.mpr ⟨s, t, rfl, ht, rfl, rfl⟩] at hp
              cases hp
            | error e'' => exact h4
    · have hl0 : slf.lines ≠ 0 := fun h => by rw [(hinv h).1] at hc; cases hc
      have hlen : 2 * input.length + 1 < n + 1 := by
        unfold enough at hf
        rw [hc] at hf
        simpa using hf
      rw [hc] at h
      simp only at h
      cases hp : stackCfi input with
      | ok x =>
        obtain ⟨rest, u⟩ := x
        rw [hp] at h
        obtain ⟨t, rfl, ht⟩ := stackCfi_iff.mp hp
        have hal : 0 < t.length := by
          obtain ⟨_, _, rfl, rfl, _⟩ := ht
          have : 0 < (ascii "STACK CFI").length := by decide +kernel
          simp; omega
        rcases ih _ rest (inv_of_lines (by simp)) (by
          unfold enough
          simp at hlen ⊢; omega) h with ⟨done, rest', rfl, h1, h2, h3, out, h4⟩
        · refine ⟨t ++ done, rest', by simp, h1, h2, fun _ h => absurd h hl0, out, ?_⟩
          have hne : t ++ done ≠ [] := by
            intro hh
            rw [List.append_eq_nil_iff] at hh
            rw [hh.1] at hal
            exact absurd hal (by simp)
          unfold SymbolParser.parseLoop
          rw [if_neg hne, hc]
          simp only
          rw [(stackCfi_iff (u := ())).mpr ⟨t, rfl, ht⟩]
          exact h4
      | error e' =>
        rw [hp] at h
        have hci : (SymbolParser.finishItem { slf with curItem := none } .stackCfi).curItem = none := rfl
        rcases ih _ input (inv_of_lines (by exact hl0)) (by
          unfold enough
          rw [hci]
          simp; omega) h with ⟨done, rest', rfl, h1, h2, h3, out, h4⟩
        · by_cases hd : done = []
          · subst hd
            exact ⟨[], rest', rfl, h1, h2, fun _ h => absurd h hl0, stop slf⟩
          · refine ⟨done, rest', rfl, h1, h2, fun _ h => absurd h hl0, out, ?_⟩
            unfold SymbolParser.parseLoop
            rw [if_neg hd, hc]
            simp only
            cases hp' : stackCfi done with
            | ok x =>
              obtain ⟨r, u⟩ := x
              obtain ⟨t, rfl, ht⟩ := stackCfi_iff.mp hp'
              rw [List.append_assoc, (stackCfi_iff (u := ())).mpr ⟨t, rfl, ht⟩] at hp
              cases hp
            | error e'' => exact h4

end Blazesym.Breakpad
