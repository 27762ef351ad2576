import Verif.Breakpad.ErrorLemmas
import Mathlib.Data.List.Forall2

/-!
# C24: a Breakpad symbol file is accepted exactly if it has the documented form, and the data it
is read as is what its records say
-/

set_option autoImplicit false

namespace Blazesym.Breakpad
open Blazesym.Util Blazesym.Spec Blazesym.Spec.Breakpad

theorem trim_length {t : Bytes} (h : (trimPartialLine t).length = t.length) (h0 : t ≠ []) :
    t.getLast? = some 10 := by
  unfold trimPartialLine at h
  rw [List.length_reverse, ← List.length_reverse (as := t)] at h
  have h1 : t.reverse ≠ [] := by simpa using h0
  rw [← List.head?_reverse]
  cases hr : t.reverse with
  | nil => exact absurd hr h1
  | cons a l =>
    rw [hr] at h
    rw [List.dropWhile_cons] at h
    split at h
    · have := (List.dropWhile_sublist (l := l) (fun b => b != 10)).length_le
      simp at h; omega
    · rename_i hn
      simp at hn
      simp [hn]

theorem trim_eq {t : Bytes} (h : t.getLast? = some 10) : trimPartialLine t = t := by
  unfold trimPartialLine
  rw [← List.head?_reverse] at h
  cases hr : t.reverse with
  | nil => rw [hr] at h; simp at h
  | cons a l =>
    rw [hr] at h
    simp at h
    subst h
    rw [List.dropWhile_cons_of_neg (by simp), ← hr, List.reverse_reverse]

theorem trim_split (t : Bytes) : ∃ part, t = trimPartialLine t ++ part ∧ 10 ∉ part := by
  refine ⟨(t.reverse.takeWhile (fun b => b != 10)).reverse, ?_, ?_⟩
  · unfold trimPartialLine
    rw [← List.reverse_append, List.takeWhile_append_dropWhile, List.reverse_reverse]
  · intro hm
    rw [List.mem_reverse] at hm
    have := List.all_eq_true.mp (List.all_takeWhile (p := fun b : UInt8 => b != 10) (l := t.reverse)) 10 hm
    simp at this

theorem trim_length_le (t : Bytes) : (trimPartialLine t).length ≤ t.length := by
  unfold trimPartialLine
  rw [List.length_reverse]
  have := (List.dropWhile_sublist (l := t.reverse) (fun b => b != 10)).length_le
  simpa using this

theorem foldl_addSub (subs : List Sub) (cur : Function) : subs.foldl addSub cur =
    { cur with lines := cur.lines ++ lines subs, inlinees := cur.inlinees ++ inlinees subs } := by
  induction subs generalizing cur with
  | nil => simp [lines, inlinees]
  | cons s ss ih =>
    rw [List.foldl_cons, ih]
    cases s <;> simp [addSub, lines, inlinees]

theorem foldl_apply (rs : List Record) (v : SymbolFile) :
    (rs.foldl apply v).files = (files rs).reverse ++ v.files ∧
    (rs.foldl apply v).inlineOrigins = (origins rs).reverse ++ v.inlineOrigins ∧
    (rs.foldl apply v).functions = v.functions ++ (functions rs).map sortFn := by
  induction rs generalizing v with
  | nil => simp [files, origins, functions]
  | cons r rs ih =>
    rw [List.foldl_cons]
    obtain ⟨h1, h2, h3⟩ := ih (apply v r)
    rw [h1, h2, h3]
    cases r <;> simp [apply, files, origins, functions, applySubs, foldl_addSub]

theorem foldl_module (rs : List Record) (v : SymbolFile) (h : ∀ r ∈ rs, ¬ r.IsModule) :
    (rs.foldl apply v).module = v.module := by
  induction rs generalizing v with
  | nil => rfl
  | cons r rs ih =>
    rw [List.foldl_cons, ih _ (fun r hr => h r (List.mem_cons_of_mem _ hr))]
    cases r <;> first | rfl | exact absurd trivial (h _ (List.mem_cons_self ..))

theorem sortFn_sorted (f : Function) : Sorted f (sortFn f) :=
  ⟨rfl, rfl, rfl, rfl, sortByKey_stable _ _, sortByKey_stable _ _⟩

theorem describes_finish {rs : List Record} {out : SymbolParser}
    (hm : ∀ r ∈ rs.tail, ¬ r.IsModule) (hv : view out = rs.foldl apply (view {})) :
    Describes rs out.finish := by
  rw [finish_view]
  obtain ⟨h1, h2, h3⟩ := foldl_apply rs (view {})
  refine ⟨?_, ?_, ?_, ?_⟩
  · simp only [hv]
    cases rs with
    | nil => rfl
    | cons r rs =>
      rw [List.foldl_cons, foldl_module rs _ hm]
      cases r <;> rfl
  · intro id; simp only [hv, h1]; simp [view, latest]
  · intro id; simp only [hv, h2]; simp [view, latest]
  · refine ⟨(functions rs).map sortFn, ?_, ?_⟩
    · rw [List.forall₂_map_right_iff, List.forall₂_same]
      exact fun f _ => sortFn_sorted f
    · simp only [hv, h3]
      exact sortByKey_stable _ _

theorem init_inv : Inv {} := fun _ => ⟨rfl, rfl⟩

theorem init_enough (t : Bytes) : enough {} t (2 * t.length + 2) := by
  unfold enough; simp

/-- Everything that is read, and what does not end in a newline. -/
theorem readSymbols_ok {t : Bytes} {f : SymbolFile} : readSymbols t = .ok f ↔
    t.getLast? = some 10 ∧ ∃ out, SymbolParser.parseLoop (2 * t.length + 2) {} t = .ok out ∧ f = out.finish := by
  unfold readSymbols SymbolParser.parse
  simp only
  constructor
  · intro h
    cases ht : trimPartialLine t with
    | nil => rw [ht] at h; simp at h
    | cons a l =>
      rw [ht] at h
      simp only at h
      cases hl : SymbolParser.parseLoop (2 * (a :: l).length + 2) {} (a :: l) with
      | error e => rw [hl] at h; exact absurd h (by simp)
      | ok out =>
        rw [hl] at h
        simp only at h
        rw [if_neg (by simp)] at h
        by_cases hlen : (a :: l).length = t.length
        · rw [if_neg (by simpa using hlen)] at h
          cases h
          have h0 : t ≠ [] := by rintro rfl; simp at hlen
          have hlast := trim_length (by rw [ht]; exact hlen) h0
          rw [← ht, trim_eq hlast] at hl
          exact ⟨hlast, out, hl, rfl⟩
        · rw [if_pos hlen] at h; exact absurd h (by simp)
  · rintro ⟨h3, out, ho, rfl⟩
    rw [trim_eq h3]
    cases ht : t with
    | nil => rw [ht] at h3; simp at h3
    | cons a l =>
      rw [ht] at ho
      simp only
      rw [ho]
      simp

/-- Why a file is not read. -/
theorem readSymbols_error {t : Bytes} {e : Fail} (h : readSymbols t = .error e) :
    (e = .empty ∧ 10 ∉ t) ∨
    (e = .unfinished ∧ ∃ rs done part, t = done ++ part ∧ part ≠ [] ∧ 10 ∉ part ∧ IsSymbolFile rs done) ∨
    ∃ rs done rest part, t = done ++ rest ++ part ∧ 10 ∉ part ∧ rest ≠ [] ∧ Bad rest e ∧
      (e = .lateModule → done ≠ []) ∧ Records rs done ∧ ∀ r ∈ rs.tail, ¬ r.IsModule := by
  unfold readSymbols SymbolParser.parse at h
  simp only at h
  obtain ⟨part, hpart, h10⟩ := trim_split t
  cases ht : trimPartialLine t with
  | nil =>
    rw [ht] at h
    simp at h
    rw [ht, List.nil_append] at hpart
    exact Or.inl ⟨h.symm, by rw [hpart]; exact h10⟩
  | cons a l =>
    rw [ht] at h hpart
    simp only at h
    cases hl : SymbolParser.parseLoop (2 * (a :: l).length + 2) {} (a :: l) with
    | error e' =>
      rw [hl] at h
      simp only [Except.error.injEq] at h
      subst h
      obtain ⟨done, rest, h1, h2, h3, h4, out, h5⟩ := loop_fails _ _ _ _ init_inv (init_enough (a :: l)) hl
      obtain ⟨rs, g1, g2, _⟩ := loop_sound _ _ _ _ init_inv h5
      exact Or.inr (Or.inr ⟨rs, done, rest, part, by rw [hpart, h1], h10, h2, h3, fun h => h4 h rfl, g1, g2 rfl⟩)
    | ok out =>
      rw [hl] at h
      simp only at h
      rw [if_neg (by simp)] at h
      by_cases hlen : (a :: l).length = t.length
      · rw [if_neg (by simpa using hlen)] at h; exact absurd h (by simp)
      · rw [if_pos hlen] at h
        cases h
        have hp0 : part ≠ [] := by
          rintro rfl
          rw [List.append_nil] at hpart
          exact hlen (by rw [hpart])
        have hlast : (a :: l).getLast? = some 10 := by
          rw [← ht]
          unfold trimPartialLine at ht ⊢
          rw [List.getLast?_reverse]
          have h1 := List.head?_dropWhile_not (fun b : UInt8 => b != 10) t.reverse
          cases hh : (t.reverse.dropWhile (fun b => b != 10)).head? with
          | none =>
            rw [List.head?_eq_none_iff] at hh
            rw [hh] at ht
            cases ht
          | some c =>
            rw [hh] at h1
            simp at h1
            rw [h1]
        obtain ⟨rs, g1, g2, _⟩ := loop_sound _ _ _ _ init_inv hl
        refine Or.inr (Or.inl ⟨rfl, rs, a :: l, part, hpart, hp0, h10, ?_, g1, g2 rfl, hlast⟩)
        rintro rfl
        exact List.cons_ne_nil a l g1

/-- What is read has the documented form, and the data is what the records say. -/
theorem C24_parse_sound {t : Bytes} {f : SymbolFile} (h : fromBytes t = .ok f) :
    ∃ rs, IsSymbolFile rs t ∧ Describes rs f := by
  have h' : readSymbols t = .ok f := by
    unfold fromBytes at h
    cases hr : readSymbols t with
    | error e => rw [hr] at h; cases h
    | ok g => rw [hr] at h; cases h; rfl
  obtain ⟨hlast, out, hl, rfl⟩ := readSymbols_ok.mp h'
  obtain ⟨rs, h1, h2, _, h4⟩ := loop_sound _ _ _ _ init_inv hl
  refine ⟨rs, ⟨?_, h1, h2 rfl, hlast⟩, describes_finish (h2 rfl) h4⟩
  rintro rfl
  rw [show t = [] from h1] at hlast
  cases hlast

/-- What has the documented form is read, and the data is what the records say. -/
theorem C24_parse_complete {t : Bytes} {rs : List Record} (h : IsSymbolFile rs t) :
    ∃ f, fromBytes t = .ok f ∧ Describes rs f := by
  obtain ⟨_, h1, h2, h3⟩ := h
  obtain ⟨out, ho, hv⟩ := loop_complete _ {} t _ init_inv (init_enough t)
    (⟨rs, h1, fun _ => h2, fun h => absurd rfl h, rfl⟩ : Out {} t (rs.foldl apply (view {})))
  refine ⟨out.finish, ?_, describes_finish h2 hv⟩
  unfold fromBytes
  rw [readSymbols_ok.mpr ⟨h3, out, ho, rfl⟩]

/-- The column of no place is too large if no line is too long. -/
theorem bad_short {t rest : Bytes} {e : Fail} (hs : ShortLines t) (h : ∃ a b, t = a ++ rest ++ b)
    (hb : Bad rest e) : e ≠ .panic := by
  rcases hb with ⟨err, h1, h2⟩ | ⟨_, _, _, rfl⟩
  · rw [h2]
    unfold convertNomErr
    rcases stringify_spec rest err.trail with ⟨h3, _⟩ | ⟨_, x, h4, h5⟩
    · rw [h3]; exact fun h => by cases h
    · have := short_column h hs (placeOf_pointsAt x.2 (((ends_line rest).2 err h1).2 x h4)).1
      omega
  · exact fun h => by cases h

/-- What does not have the documented form is rejected as invalid input, if no line has 65535 bytes or more;
what is missing is `C24_long_line_panics`. -/
theorem C24_parse_rejects_partial {t : Bytes} (hs : ShortLines t) (h : ¬ ∃ rs, IsSymbolFile rs t) :
    fromBytes t = .error .invalidInput := by
  cases hf : fromBytes t with
  | ok f =>
    obtain ⟨rs, h1, _⟩ := C24_parse_sound hf
    exact absurd ⟨rs, h1⟩ h
  | error e =>
    unfold fromBytes at hf
    cases hr : readSymbols t with
    | ok g => rw [hr] at hf; cases hf
    | error e' =>
      rw [hr] at hf
      simp only [Except.error.injEq] at hf
      subst hf
      have hne : e' ≠ .panic := by
        rcases readSymbols_error hr with ⟨rfl, _⟩ | ⟨rfl, _⟩ | ⟨rs, done, rest, part, h1, _, _, h2, _⟩
        · exact fun h => by cases h
        · exact fun h => by cases h
        · exact bad_short hs ⟨done, part, h1⟩ h2
      cases e' <;> first | rfl | exact absurd rfl hne

/-- What does not have the documented form is never read, however long its lines. -/
theorem C24_parse_rejects {t : Bytes} (h : ¬ ∃ rs, IsSymbolFile rs t) :
    fromBytes t = .error .invalidInput ∨ fromBytes t = .error .panic := by
  cases hf : fromBytes t with
  | ok f =>
    obtain ⟨rs, h1, _⟩ := C24_parse_sound hf
    exact absurd ⟨rs, h1⟩ h
  | error e =>
    unfold fromBytes at hf
    cases hr : readSymbols t with
    | ok g => rw [hr] at hf; cases hf
    | error e' =>
      rw [hr] at hf
      simp only [Except.error.injEq] at hf
      subst hf
      cases e' <;> simp [Fail.err]

/-- Reading does not panic, whatever the bytes, if no line has 65535 bytes or more; what is missing is
`C24_long_line_panics`. -/
theorem C24_parse_total_partial {t : Bytes} (ht : ShortLines t) : fromBytes t ≠ .error .panic := by
  intro h
  by_cases hs : ∃ rs, IsSymbolFile rs t
  · obtain ⟨rs, hs⟩ := hs
    obtain ⟨f, hf, _⟩ := C24_parse_complete hs
    rw [hf] at h; cases h
  · rw [C24_parse_rejects_partial ht hs] at h; cases h

/-- A file that is read is read however long its lines, but one that is not makes the library panic if what is
wrong is beyond column 65535 of a line: the message is to show a caret there, and a width of `format!` is at most
65535 since Rust 1.87.  Here, `FUNC` is followed by that many spaces and no address. -/
theorem C24_long_line_panics (n : Nat) (hn : 65531 ≤ n) :
    fromBytes (ascii "FUNC" ++ (List.replicate n 32 ++ ascii "z\n")) = .error .panic := by
  generalize hrest : ascii "FUNC" ++ (List.replicate n 32 ++ ascii "z\n") = rest
  have hz : ascii "z\n" = [122, 10] := by decide +kernel
  have hlast : rest.getLast? = some 10 := by
    rw [← hrest, hz, List.getLast?_append_of_ne_nil _ (by simp), List.getLast?_append_of_ne_nil _ (by simp)]
    rfl
  have hspace : space1 (List.replicate n 32 ++ ascii "z\n") = .ok (ascii "z\n", ()) := by
    unfold space1
    have h1 : (List.replicate n 32 ++ ascii "z\n").takeWhile isBlank = List.replicate n 32 := by
      rw [List.takeWhile_append_of_pos (by intro c hc; rw [(List.mem_replicate.mp hc).2]; decide), hz]
      simp [isBlank]
    have h2 : (List.replicate n 32 ++ ascii "z\n").dropWhile isBlank = ascii "z\n" := by
      rw [List.dropWhile_append_of_pos (by intro c hc; rw [(List.mem_replicate.mp hc).2]; decide), hz]
      simp [isBlank]
    rw [h1, h2]
    obtain ⟨m, rfl⟩ : ∃ m, n = m + 1 := ⟨n - 1, by omega⟩
    rw [List.replicate_succ]
  have hkey : keyword (ascii "FUNC") rest = .ok (ascii "z\n", ()) := by
    have ht : tag (ascii "FUNC") rest = .ok (List.replicate n 32 ++ ascii "z\n", ()) := by
      unfold tag
      rw [if_pos (by rw [← hrest, List.isPrefixOf_iff_prefix]; exact List.prefix_append _ _), ← hrest,
        List.drop_left']
      rfl
    unfold keyword terminated
    change Nom.bind _ _ _ = _
    unfold Nom.bind
    rw [ht]
    change Nom.bind _ _ _ = _
    unfold Nom.bind
    rw [hspace]
    rfl
  have hfunc : funcLine rest = .error (.failure [(ascii "z\n", .hexDigit)]) := by
    unfold funcLine
    change Nom.bind _ _ _ = _
    unfold Nom.bind
    rw [hkey]
    decide +kernel
  have no : ∀ k : Bytes, k.head? ≠ some 70 → k ≠ [] → ¬ k <+: rest := by
    rintro k hk h0 ⟨s, hs⟩
    rw [← hrest] at hs
    cases k with
    | nil => exact h0 rfl
    | cons c k =>
      refine hk ?_
      have := congrArg List.head? hs
      rw [show ascii "FUNC" = [70, 85, 78, 67] from by decide +kernel] at this
      simpa using this
  have noFile : ¬ ascii "FILE" <+: rest := by
    rintro ⟨s, hs⟩
    rw [← hrest, show ascii "FUNC" = [70, 85, 78, 67] from by decide +kernel,
      show ascii "FILE" = [70, 73, 76, 69] from by decide +kernel] at hs
    simp at hs
  have hline : line rest = .error (.failure [(ascii "z\n", .hexDigit)]) := by
    unfold line terminated
    change Nom.bind _ _ _ = _
    unfold Nom.bind alt
    rw [orElse_fail (mapTo_fail (infoUrl_fail (no _ (by decide +kernel) (by decide +kernel)))),
      orElse_fail (mapTo_fail (infoLine_fail (no _ (by decide +kernel) (by decide +kernel)))),
      orElse_fail (mapTo_fail (fileLine_fail noFile)),
      orElse_fail (mapTo_fail (inlineOriginLine_fail (no _ (by decide +kernel) (by decide +kernel)))),
      orElse_fail (mapTo_fail (publicLine_fail (no _ (by decide +kernel) (by decide +kernel))))]
    unfold orElse
    rw [mapTo_fail hfunc]
  have hsuffix : ascii "z\n" <:+ rest := ⟨ascii "FUNC" ++ List.replicate n 32, by rw [← hrest]; simp⟩
  have hcol : 65536 ≤ (placeOf rest (ascii "z\n") .hexDigit).column := by
    obtain ⟨above, before, after, h1, h2, _, _, h3, _⟩ := (placeOf_pointsAt .hexDigit hsuffix).1
    rw [h3]
    have hpre : ascii "FUNC" ++ List.replicate n 32 = above ++ before := by
      have h4 : (ascii "FUNC" ++ List.replicate n 32) ++ ascii "z\n" = (above ++ before) ++ ascii "z\n" := by
        rw [← h1, ← hrest]; simp
      exact List.append_cancel_right h4
    have habove : above = [] := by
      rcases h2 with h2 | h2
      · exact h2
      · exfalso
        have : (10 : UInt8) ∈ ascii "FUNC" ++ List.replicate n 32 := by
          rw [hpre]
          exact List.mem_append_left _ (List.mem_of_getLast? h2)
        rcases List.mem_append.mp this with h | h
        · revert h; decide +kernel
        · exact absurd (List.mem_replicate.mp h).2 (by decide)
    rw [habove] at hpre
    have := congrArg List.length hpre
    have h4 : (ascii "FUNC").length = 4 := by decide +kernel
    simp [h4] at this
    omega
  have hconv : convertNomErr rest (.failure [(ascii "z\n", .hexDigit)]) = .panic := by
    unfold convertNomErr
    rcases stringify_spec rest [(ascii "z\n", .hexDigit)] with ⟨_, h⟩ | ⟨h, _⟩
    · have := h _ (List.mem_singleton.mpr rfl)
      simp only at this
      omega
    · rw [show (NErr.failure [(ascii "z\n", ErrorKind.hexDigit)]).trail = [(ascii "z\n", .hexDigit)] from rfl, h]
  unfold fromBytes readSymbols SymbolParser.parse
  rw [trim_eq hlast]
  cases hr : rest with
  | nil => rw [hr] at hlast; cases hlast
  | cons a l =>
    simp only
    unfold SymbolParser.parseLoop
    rw [if_neg (by simp)]
    simp only
    rw [← hr, hline]
    simp only
    rw [hconv]
    rfl

theorem sorted_unique {raw f g : Function} (hf : Sorted raw f) (hg : Sorted raw g) : f = g := by
  obtain ⟨a1, a2, a3, a4, a5, a6⟩ := hf
  obtain ⟨b1, b2, b3, b4, b5, b6⟩ := hg
  obtain ⟨f1, f2, f3, f4, f5, f6⟩ := f
  obtain ⟨g1, g2, g3, g4, g5, g6⟩ := g
  simp only at *
  subst a1 a2 a3 a4 b1 b2 b3 b4
  rw [Util.StableSorted.unique a5 b5, Util.StableSorted.unique a6 b6]

/-- The records determine the data: nothing else in the text (spaces, line breaks, records
that do not matter) does. -/
theorem C24_data_of_records {rs : List Record} {f g : SymbolFile} (hf : Describes rs f) (hg : Describes rs g) :
    f.module = g.module ∧ f.functions = g.functions ∧ (∀ id, f.files.lookup id = g.files.lookup id) ∧
      ∀ id, f.inlineOrigins.lookup id = g.inlineOrigins.lookup id := by
  refine ⟨hf.module.trans hg.module.symm, ?_, fun id => (hf.files id).trans (hg.files id).symm,
    fun id => (hf.origins id).trans (hg.origins id).symm⟩
  obtain ⟨fs, h1, h2⟩ := hf.functions
  obtain ⟨gs, h3, h4⟩ := hg.functions
  have hfg : fs = gs := by
    clear h2 h4 hf hg
    generalize functions rs = l at h1 h3
    induction h1 generalizing gs with
    | nil => cases h3; rfl
    | cons hab _ ih =>
      cases h3 with
      | cons hac h3 => rw [sorted_unique hab hac, ih _ h3]
  subst hfg
  exact Util.StableSorted.unique h2 h4

/-! ### Concrete cases -/

/-- A file with functions out of order, lines, an inlined call, and records that are skipped. -/
def sample : Bytes := ascii "MODULE Linux x86_64 4BF1 prog\nINFO CODE_ID X\nFILE 0 a.c\nFILE 1 b.c\nINLINE_ORIGIN 0 inl\nPUBLIC 5 0 pub\nFUNC m 20 8 0 g\nFUNC 10 8 4 f x\nINLINE 0 7 1 0 12 2 16 1\n14 4 9 1\n10 4 3 0\nSTACK CFI INIT 10 8 x\nSTACK CFI 11 y\n"

example : fromBytes sample = .ok
    { module := some (ascii "prog")
      files := [(1, ascii "b.c"), (0, ascii "a.c")]
      functions := [
        { addr := 0x10, size := 8, parameterSize := 4, name := ascii "f x"
          lines := [⟨0x10, 4, 0, 3⟩, ⟨0x14, 4, 1, 9⟩]
          inlinees := [⟨0, 0x12, 2, 1, 7, 0⟩, ⟨0, 0x16, 1, 1, 7, 0⟩] },
        { addr := 0x20, size := 8, parameterSize := 0, name := ascii "g", lines := [], inlinees := [] }]
      inlineOrigins := [(0, ascii "inl")] } := by decide +kernel

example : ∃ rs f, IsSymbolFile rs sample ∧ Describes rs f := by
  obtain ⟨rs, h1, h2⟩ := C24_parse_sound (t := sample) (f := _) (by
    show fromBytes sample = .ok ((fromBytes sample).toOption.getD ⟨none, [], [], []⟩)
    decide +kernel)
  exact ⟨rs, _, h1, h2⟩

-- No newline at the end, or nothing at all.
example : fromBytes (ascii "MODULE a b c d") = .error .invalidInput := by decide +kernel
example : ¬ ∃ rs, IsSymbolFile rs [] := by
  rintro ⟨rs, _, _, _, h⟩; simp at h
example : ShortLines sample := by
  rintro a l b h _
  have h1 := congrArg List.length h
  have h2 : sample.length < 65535 := by decide +kernel
  simp at h1
  omega
-- A number out of range.
example : fromBytes (ascii "FILE 4294967296 a\n") = .error .invalidInput := by decide +kernel
example : fromBytes (ascii "FILE 4294967295 a\n") = .ok ⟨none, [(4294967295, ascii "a")], [], []⟩ := by decide +kernel

/-! ### What the documented form allows or excludes, surprisingly -/

/-- The words of a `MODULE` record can contain line breaks: a record that lacks words takes them
from the line after it, which then does not count as a record (here, the file's name is lost and
the module gets it). -/
theorem C24_module_takes_next_line :
    fromBytes (ascii "MODULE Linux x86_64\nFILE 0 foo.c\n") =
      .ok { module := some (ascii "foo.c"), files := [], functions := [], inlineOrigins := [] } := by
  decide +kernel

/-- An empty line is fine after a record of its own, but not after one that belongs to a
function, where it makes the whole file invalid. -/
theorem C24_empty_line_in_function :
    (∃ f, fromBytes (ascii "FILE 0 a\n\nFUNC 0 1 0 f\n\n0 1 1 0\n") = .ok f) ∧
    fromBytes (ascii "FUNC 0 1 0 f\n0 1 1 0\n\nFILE 0 a\n") = .error .invalidInput := by
  refine ⟨⟨⟨none, [(0, ascii "a")], [⟨0, 1, 0, ascii "f", [⟨0, 1, 0, 1⟩], []⟩], []⟩, ?_⟩, ?_⟩ <;> decide +kernel

end Blazesym.Breakpad
