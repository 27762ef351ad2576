import Verif.Breakpad.ParserProps

/-! # C80: what the error says about a Breakpad file that cannot be read -/

set_option autoImplicit false

namespace Blazesym.Breakpad
open Blazesym.Util Blazesym.Spec Blazesym.Spec.Breakpad

theorem startsRecord_line {rest : Bytes} {err : NErr} (h : line rest = .error err) : ¬ StartsRecord rest := by
  rintro ⟨r, x, y, rfl, hx⟩
  obtain ⟨t, w, z, rfl, ht, _⟩ := (record_text r x).mp hx
  rw [List.append_assoc] at h
  obtain ⟨v, hv⟩ := lineText_line (r := (w ++ z) ++ y) ht
  rw [hv] at h
  cases h

theorem trim_append {done part : Bytes} (hd : done.getLast? = some 10) (hp : 10 ∉ part) :
    trimPartialLine (done ++ part) = done := by
  unfold trimPartialLine
  rw [List.reverse_append, List.dropWhile_append_of_pos (by
    intro c hc
    rw [List.mem_reverse] at hc
    simp only [bne_iff_ne, ne_eq]
    rintro rfl
    exact hp hc)]
  exact trim_eq hd

theorem trim_nil {t : Bytes} (h : 10 ∉ t) : trimPartialLine t = [] := by
  unfold trimPartialLine
  rw [← List.append_nil t.reverse, List.dropWhile_append_of_pos (by
    intro c hc
    rw [List.mem_reverse] at hc
    simp only [bne_iff_ne, ne_eq]
    rintro rfl
    exact h hc)]
  rfl

/-- If what is wrong is a record, the message shows lines of what begins with that record, which is after all
the records that can be read, and the caret is below where reading stopped; but the lines are numbered from
that record (`C80_line_wrong`), where the property asks for the number in the file. -/
theorem C80_places_partial {t : Bytes} {places : List Place} (h : readSymbols t = .error (.corrupt places)) :
    ∃ (rs : List Record) (done rest part : Bytes),
      t = done ++ rest ++ part ∧ 10 ∉ part ∧ Records rs done ∧ rest ≠ [] ∧ ¬ StartsRecord rest ∧
      places ≠ [] ∧ ∀ p ∈ places, ∃ s, s <:+ rest ∧ PointsAt rest s p := by
  rcases readSymbols_error h with ⟨he, _⟩ | ⟨he, _⟩ | ⟨rs, done, rest, part, h1, h2, h3, h4, _, h5, _⟩
  · cases he
  · cases he
  · rcases h4 with ⟨err, hl, hc⟩ | ⟨_, _, _, he⟩
    · refine ⟨rs, done, rest, part, h1, h2, h5, h3, startsRecord_line hl, ?_⟩
      obtain ⟨hne, hends⟩ := (ends_line rest).2 err hl
      unfold convertNomErr at hc
      rcases stringify_spec rest err.trail with ⟨hs, _⟩ | ⟨hs, _⟩
      · rw [hs] at hc
        cases hc
        refine ⟨by simpa using hne, ?_⟩
        intro p hp
        obtain ⟨x, hx, rfl⟩ := List.mem_map.mp hp
        exact ⟨x.1, hends x hx, (placeOf_pointsAt x.2 (hends x hx)).1⟩
      · rw [hs] at hc
        cases hc
    · cases he

/-- If the first record is what is wrong, the numbers are those in the file. -/
theorem C80_first_record {t : Bytes} {places : List Place} (h : readSymbols t = .error (.corrupt places))
    (h0 : ¬ StartsRecord t) :
    ∃ rest part, t = rest ++ part ∧ 10 ∉ part ∧ places ≠ [] ∧ ∀ p ∈ places, ∃ s, s <:+ rest ∧ PointsAt rest s p := by
  obtain ⟨rs, done, rest, part, rfl, h2, h3, _, _, h4, h5⟩ := C80_places_partial h
  cases rs with
  | nil =>
    rw [show done = [] from h3] at h0 ⊢
    exact ⟨rest, part, rfl, h2, h4, h5⟩
  | cons r rs =>
    obtain ⟨x, y, rfl, hx, _⟩ := h3
    exact absurd ⟨r, x, y ++ rest ++ part, by simp, hx⟩ h0

/-- What begins with none of the words records begin with is reported as such: at line 1 and column 1, with the
line's text. -/
theorem C80_unknown_record {t : Bytes} (h10 : 10 ∈ t)
    (hk : ∀ k ∈ ["INFO", "FILE", "INLINE_ORIGIN", "PUBLIC", "FUNC", "STACK WIN", "STACK CFI INIT", "MODULE"],
      ¬ ascii k <+: t) :
    readSymbols t = .error (.corrupt [⟨1, t.takeWhile (fun b => b != 10), 1, .tag⟩,
      ⟨1, t.takeWhile (fun b => b != 10), 1, .alt⟩]) := by
  obtain ⟨part, hpart, hp10⟩ := trim_split t
  generalize hrest : trimPartialLine t = rest at hpart
  have no : ∀ k ∈ ["INFO", "FILE", "INLINE_ORIGIN", "PUBLIC", "FUNC", "STACK WIN", "STACK CFI INIT", "MODULE"],
      ¬ ascii k <+: rest := fun k hm hp => hk k hm (hp.trans (by rw [hpart]; exact List.prefix_append _ _))
  have noUrl : ¬ ascii "INFO URL" <+: rest := fun hp =>
    no "INFO" (by simp) (List.IsPrefix.trans (by decide +kernel) hp)
  have h10r : 10 ∈ rest := by
    rw [hpart] at h10
    exact (List.mem_append.mp h10).resolve_right hp10
  have hline : line rest = .error (.error [(rest, .tag), (rest, .alt)]) := by
    unfold line terminated
    change Nom.bind _ _ _ = _
    unfold Nom.bind alt
    rw [orElse_fail (mapTo_fail (infoUrl_fail noUrl)),
      orElse_fail (mapTo_fail (infoLine_fail (no _ (by simp)))),
      orElse_fail (mapTo_fail (fileLine_fail (no _ (by simp)))),
      orElse_fail (mapTo_fail (inlineOriginLine_fail (no _ (by simp)))),
      orElse_fail (mapTo_fail (publicLine_fail (no _ (by simp)))),
      orElse_fail (mapTo_fail (funcLine_fail (no _ (by simp)))),
      orElse_fail (mapTo_fail (stackWinLine_fail (no _ (by simp)))),
      orElse_fail (mapTo_fail (stackCfiInit_fail (no _ (by simp)))),
      mapTo_fail (show moduleLine rest = .error (.error [(rest, .tag)]) from keyword_fail (no _ (by simp)))]
    rfl
  have htake : t.takeWhile (fun b => b != 10) = rest.takeWhile (fun b => b != 10) := by
    rw [hpart, List.takeWhile_append, if_neg]
    intro hlen
    have h1 : rest.takeWhile (fun b => b != 10) = rest :=
      (List.takeWhile_prefix _).eq_of_length hlen
    have h2 := List.all_eq_true.mp (List.all_takeWhile (p := fun b : UInt8 => b != 10) (l := rest)) 10
      (by rw [h1]; exact h10r)
    simp at h2
  have hplace : ∀ k, placeOf rest rest k = ⟨1, t.takeWhile (fun b => b != 10), 1, k⟩ := by
    intro k
    rw [htake]
    simp [placeOf, lineBegin]
  have hconv : convertNomErr rest (.error [(rest, .tag), (rest, .alt)]) =
      .corrupt [⟨1, t.takeWhile (fun b => b != 10), 1, .tag⟩, ⟨1, t.takeWhile (fun b => b != 10), 1, .alt⟩] := by
    simp [convertNomErr, NErr.trail, stringifyError, hplace]
  unfold readSymbols SymbolParser.parse
  rw [hrest]
  cases hr : rest with
  | nil => rw [hr] at h10r; cases h10r
  | cons a l =>
    simp only
    unfold SymbolParser.parseLoop
    rw [if_neg (by simp)]
    simp only
    rw [← hr, hline]
    simp only
    rw [hconv]

/-- A file is reported as empty exactly if it has no complete line. -/
theorem C80_empty {t : Bytes} : readSymbols t = .error .empty ↔ 10 ∉ t := by
  constructor
  · intro h
    rcases readSymbols_error h with ⟨_, h⟩ | ⟨he, _⟩ | ⟨_, _, _, _, _, _, _, h4, _⟩
    · exact h
    · cases he
    · rcases h4 with ⟨err, _, hc⟩ | ⟨_, _, _, he⟩
      · unfold convertNomErr at hc
        split at hc <;> cases hc
      · cases he
  · intro h
    unfold readSymbols SymbolParser.parse
    rw [trim_nil h]
    rfl

/-- More data is asked for exactly if what is wrong is only that the last line has no end. -/
theorem C80_unfinished {t : Bytes} : readSymbols t = .error .unfinished ↔
    ∃ (rs : List Record) (done part : Bytes), t = done ++ part ∧ part ≠ [] ∧ 10 ∉ part ∧ IsSymbolFile rs done := by
  constructor
  · intro h
    rcases readSymbols_error h with ⟨he, _⟩ | ⟨_, h⟩ | ⟨_, _, _, _, _, _, _, h4, _⟩
    · cases he
    · exact h
    · rcases h4 with ⟨err, _, hc⟩ | ⟨_, _, _, he⟩
      · unfold convertNomErr at hc
        split at hc <;> cases hc
      · cases he
  · rintro ⟨rs, done, part, rfl, hp, h10, _, h1, h2, h3⟩
    obtain ⟨out, ho, _⟩ := loop_complete _ {} done _ init_inv (init_enough done)
      (⟨rs, h1, fun _ => h2, fun h => absurd rfl h, rfl⟩ : Out {} done (rs.foldl apply (view {})))
    unfold readSymbols SymbolParser.parse
    rw [trim_append h3 h10]
    cases hd : done with
    | nil => rw [hd] at h3; cases h3
    | cons a l =>
      rw [hd] at ho
      simp only
      rw [ho]
      simp [hp]

/-- The message about a late `MODULE` record means that there is one after other records. -/
theorem C80_late_module {t : Bytes} (h : readSymbols t = .error .lateModule) :
    ∃ (rs : List Record) (done x rest : Bytes) (name : Bytes),
      t = done ++ x ++ rest ∧ rs ≠ [] ∧ Records rs done ∧ (Record.module name).text x := by
  rcases readSymbols_error h with ⟨he, _⟩ | ⟨he, _⟩ | ⟨rs, done, rest, part, h1, _, _, h4, h5, h6, _⟩
  · cases he
  · cases he
  · rcases h4 with ⟨err, _, hc⟩ | ⟨r, name, hl, _⟩
    · unfold convertNomErr at hc
      split at hc <;> cases hc
    · obtain ⟨u, w, rfl, hu, hw, _⟩ := line_ok.mp hl
      refine ⟨rs, done, u ++ (w ++ []), r ++ part, name, by rw [h1]; simp, ?_, h6,
        (record_text (.module name) _).mpr ⟨u, w, [], rfl, hu, hw, rfl⟩⟩
      rintro rfl
      exact h5 rfl h6

/-- The number of the line is wrong unless the first record is what is wrong: here, it is the third line that is,
and the message says line 1. -/
theorem C80_line_wrong :
    readSymbols (ascii "FILE 0 a.c\nFILE 1 b.c\nFILE x c.c\n") =
      .error (.corrupt [{ line := 1, text := ascii "FILE x c.c", column := 6, kind := .digit }]) := by
  decide +kernel

/-! ### Concrete cases -/

-- The word of the record is unknown, at the beginning and in a function.
example : readSymbols (ascii "FUNK 0\nFILE 0 a\n") =
    .error (.corrupt [⟨1, ascii "FUNK 0", 1, .tag⟩, ⟨1, ascii "FUNK 0", 1, .alt⟩]) := by decide +kernel
example : readSymbols (ascii "FUNC 0 1 0 f\n0 1 x 0\n") =
    .error (.corrupt [⟨1, ascii "0 1 x 0", 1, .tag⟩, ⟨1, ascii "0 1 x 0", 1, .alt⟩]) := by decide +kernel
-- Words without spaces after them.
example : readSymbols (ascii "MODULE\n") =
    .error (.corrupt [⟨1, ascii "MODULE", 7, .space⟩, ⟨1, ascii "MODULE", 1, .alt⟩]) := by decide +kernel
-- A record that goes on at the next line.
example : readSymbols (ascii "MODULE a\nb c\n") = .error (.corrupt [⟨3, [], 1, .space⟩]) := by decide +kernel
example : readSymbols (ascii "MODULE a\nb\n") = .error (.corrupt [⟨3, [], 1, .space⟩]) := by decide +kernel
-- Numbers.
example : readSymbols (ascii "FUNC 0 1 g f\n") = .error (.corrupt [⟨1, ascii "FUNC 0 1 g f", 10, .hexDigit⟩]) := by
  decide +kernel
example : readSymbols (ascii "FILE 4294967296 a\n") =
    .error (.corrupt [⟨1, ascii "FILE 4294967296 a", 6, .tooLarge⟩]) := by decide +kernel
-- A name that is not UTF-8.
example : readSymbols (ascii "FILE 1 " ++ [0xff, 10]) =
    .error (.corrupt [⟨1, ascii "FILE 1 " ++ [0xff], 8, .mapRes⟩]) := by decide +kernel
example : readSymbols (ascii "PUBLIC 1 2 a\rb\n") = .error (.corrupt [⟨1, ascii "PUBLIC 1 2 a\rb", 14, .tag⟩]) := by
  decide +kernel
-- Something else.
example : readSymbols (ascii "FILE 0 a\nFILE") = .error .unfinished := by decide +kernel
example : readSymbols (ascii "FILE 0 a\nMODULE a b c d\n") = .error .lateModule := by decide +kernel
example : readSymbols (ascii "FILE") = .error .empty := by decide +kernel

end Blazesym.Breakpad
