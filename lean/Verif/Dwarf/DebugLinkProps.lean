import Verif.Dwarf.DebugLink
import Verif.Dwarf.DebugLinkSpec

/-! Property theorem C40: where separate debug files are searched. -/

set_option autoImplicit false

namespace Blazesym.Dwarf
open Blazesym.Util Blazesym.Spec Blazesym.Spec.Dwarf

variable (d : DebugSearch)

/-- One transition, as seen by the sequence of candidates. -/
theorem collect_step (s : SearchState) :
    (d.step s = .done → d.collect s = []) ∧
    (∀ s', d.step s = .skip s' → d.collect s = d.collect s') ∧
    (∀ p s', d.step s = .report p s' →
      d.collect s = if d.isLinker p then d.collect s' else p :: d.collect s') := by
  have key : ∀ s s' : SearchState, d.next s = d.next s' → d.collect s = d.collect s' := by
    intro s s' h
    rw [DebugSearch.collect, DebugSearch.collect]
    generalize hx : d.next s = x at h
    generalize hy : d.next s' = y at h
    subst h
    split <;> rfl
  refine ⟨fun h => ?_, fun s' h => ?_, fun p s' h => ?_⟩
  · have hn : d.next s = none := by
      rw [DebugSearch.next]
      split <;> simp_all
    rw [DebugSearch.collect]
    split <;> simp_all
  · apply key
    conv_lhs => rw [DebugSearch.next]
    split <;> simp_all
  · by_cases hl : d.isLinker p = true
    · rw [if_pos hl]
      apply key
      conv_lhs => rw [DebugSearch.next]
      split <;> simp_all
    · rw [if_neg hl]
      have hn : d.next s = some (p, s') := by
        rw [DebugSearch.next]
        split <;> simp_all
      rw [DebugSearch.collect]
      split
      · rename_i p1 s1 h1
        rw [hn] at h1
        cases h1
        rfl
      · simp_all

/-- Not the file with the link. -/
def other (linker : Option Bytes) (cs : List Bytes) : Bool := decide (linker.map components ≠ some cs)

theorem isLinker_iff (p : Bytes) : d.isLinker p = !other d.canonicalLinker (components p) := by
  unfold DebugSearch.isLinker other
  cases d.canonicalLinker with
  | none => simp
  | some l =>
    simp only [Option.map_some]
    rw [Bool.eq_iff_iff, C55_path_eq]
    simp [eq_comm]

theorem collect_report {s s' : SearchState} {p : Bytes} (h : d.step s = .report p s') :
    (d.collect s).map components =
      [components p].filter (other d.canonicalLinker) ++ (d.collect s').map components := by
  rw [(collect_step d s).2.2 p s' h, isLinker_iff]
  cases ho : other d.canonicalLinker (components p) <;> simp [ho]

/-! ### Path components -/

theorem plain_components {n : Bytes} (h : PlainName n) :
    components n = [n] ∧ n.head? ≠ some 47 ∧ (pieces n).head? ≠ some [46] := by
  obtain ⟨h1, h2, h3⟩ := h
  have hp : pieces n = [n] := pieces_noslash (fun b hb hc => h2 (hc ▸ hb))
  have h47 : n.head? ≠ some 47 := by
    intro hh
    cases n with
    | nil => simp at hh
    | cons a t => simp at hh; subst hh; simp at h2
  have h46 : (pieces n).head? ≠ some [46] := by rw [hp]; simpa using h3
  refine ⟨?_, h47, h46⟩
  unfold components
  rw [if_neg h47, if_neg h46, hp]
  simp [h1, h3]

theorem join_plain {n : Bytes} (h : PlainName n) (base : Bytes) :
    components (pathJoin base n) = components base ++ [n] := by
  obtain ⟨h1, h2, h3⟩ := plain_components h
  rw [components_join _ _ h2 h3, h1]

/-- Components that only name directories. -/
def Names (cs : List Bytes) : Prop := ∀ c ∈ cs, c ≠ [47] ∧ c ≠ [46]

theorem names_relative {p : Bytes} (h : Names (components p)) :
    p.head? ≠ some 47 ∧ (pieces p).head? ≠ some [46] := by
  unfold components at h
  constructor
  · intro h47
    rw [if_pos h47] at h
    exact (h [47] (by simp)).1 rfl
  · intro h46
    simp only [h46, if_true] at h
    split at h
    · exact (h [47] (by simp)).1 rfl
    · exact (h [46] (by simp)).2 rfl

theorem mem_pieces {c b : Bytes} (h : c ∈ pieces b) : 47 ∉ c := by
  induction b generalizing c with
  | nil =>
    simp [pieces] at h
    subst h; simp
  | cons a t ih =>
    unfold pieces at h
    split at h
    · simp at h
      rcases h with rfl | h
      · simp
      · exact ih h
    · rename_i ha
      cases hp : pieces t with
      | nil => exact absurd hp (pieces_ne_nil t)
      | cons q qs =>
        rw [hp] at h
        simp at h
        rcases h with rfl | h
        · have := ih (c := q) (by rw [hp]; simp)
          simp [this, eq_comm, ha]
        · exact ih (by rw [hp]; simp [h])

theorem middle_names (p : Bytes) : Names (components (middle p)) := by
  obtain ⟨_, h2, h3⟩ := C55_middle p
  intro c hc
  unfold components at hc
  rw [if_neg h2, if_neg h3] at hc
  simp only [List.nil_append, List.mem_filter, decide_eq_true_eq] at hc
  refine ⟨?_, hc.2.2⟩
  rintro rfl
  exact mem_pieces hc.1 (by simp)

/-- The parent of a path of directory names, in the way the search uses it. -/
theorem parent_cases {p : Bytes} {cs : List Bytes} (h : components p = cs) (hn : Names cs) :
    (cs.length ≤ 1 → parent p = none ∨ parent p = some []) ∧
    (∀ (ini : List Bytes) (c : Bytes), ini ≠ [] → cs = ini ++ [c] →
      ∃ q, parent p = some q ∧ q ≠ [] ∧ components q = ini) := by
  refine ⟨fun hl => ?_, fun ini c hi hc => ?_⟩
  · match cs, hl with
    | [], _ => left; exact (C55_parent p).2 (Or.inl h)
    | [c], _ =>
      right
      unfold parent
      obtain ⟨dir, h1, h2⟩ := splitLast_of_components (cs := []) (c := c) (by simpa using h)
      rw [h1]
      simp only
      rw [if_neg (hn c (by simp)).1]
      obtain ⟨_, _, ht⟩ := C55_split_last _ _ _ h1
      rcases ht with rfl | rfl | rfl | ⟨x, hx, hne, hd⟩
      · rfl
      · exact absurd h2 (by decide)
      · exact absurd h2 (by decide)
      · exfalso
        have hm : x ∈ components dir := by
          unfold components
          rw [List.mem_append]
          right
          rw [List.mem_filter]
          exact ⟨List.mem_of_getLast? hx, by simp [hne, hd]⟩
        rw [h2] at hm
        simp at hm
  · subst hc
    obtain ⟨q, h1, h2⟩ := (C55_parent p).1 ini c h (hn c (by simp)).1
    refine ⟨q, h1, ?_, h2⟩
    rintro rfl
    rw [components_nil] at h2
    exact hi h2.symm

/-! ### The phases of the search -/

theorem lineage_append (ini : List Bytes) (c : Bytes) (h : ini ≠ []) :
    lineage (ini ++ [c]) = (ini ++ [c]) :: lineage ini := by
  unfold lineage
  rw [if_neg (by simp), if_neg h]
  rw [List.length_append, List.length_singleton, List.range_succ_eq_map]
  simp only [List.map_cons, List.map_map]
  congr 1
  · rw [List.take_of_length_le (by simp)]
  · apply List.map_congr_left
    intro k hk
    simp only [Function.comp_apply]
    rw [show ini.length + 1 - Nat.succ k = ini.length - k by omega, List.take_append_of_le_length (by omega)]

theorem collect_lineage (hp : PlainName d.linkee) {idx : Nat} {fixed rel : Bytes}
    (hg : d.fixedDirs[idx]? = some fixed) :
    ∀ (n : Nat) (dir : Bytes) (cs : List Bytes), cs.length = n → components dir = cs → Names cs →
      (d.collect (.dynamicDirs idx rel dir)).map components =
        ((lineage cs).map fun a => components fixed ++ a ++ [d.linkee]).filter
          (other d.canonicalLinker) ++
        (d.collect (.dynamicDirs (idx + 1) rel rel)).map components := by
  intro n
  induction n with
  | zero =>
    intro dir cs hl hc hn
    have hcs : cs = [] := List.length_eq_zero_iff.mp hl
    subst hcs
    have hnone : parent dir = none := (C55_parent dir).2 (Or.inl hc)
    obtain ⟨r1, r2⟩ := names_relative (p := dir) (by rw [hc]; exact hn)
    have hs : d.step (.dynamicDirs idx rel dir) =
        .report (pathJoin (pathJoin fixed dir) d.linkee) (.dynamicDirs (idx + 1) rel rel) := by
      simp only [DebugSearch.step, hg, hnone]
    rw [collect_report d hs, join_plain hp, components_join _ _ r1 r2, hc]
    rfl
  | succ n ih =>
    intro dir cs hl hc hn
    obtain ⟨r1, r2⟩ := names_relative (p := dir) (by rw [hc]; exact hn)
    have hne : cs ≠ [] := by rintro rfl; simp at hl
    obtain ⟨ini, c, rfl⟩ : ∃ ini c, cs = ini ++ [c] :=
      ⟨cs.dropLast, cs.getLast hne, (List.dropLast_concat_getLast hne).symm⟩
    by_cases hi : ini = []
    · subst hi
      have hpar := (parent_cases hc hn).1 (by simp)
      have hs : d.step (.dynamicDirs idx rel dir) =
          .report (pathJoin (pathJoin fixed dir) d.linkee) (.dynamicDirs (idx + 1) rel rel) := by
        rcases hpar with hpar | hpar <;> simp [DebugSearch.step, hg, hpar]
      rw [collect_report d hs, join_plain hp, components_join _ _ r1 r2, hc]
      rfl
    · obtain ⟨q, q1, q2, q3⟩ := (parent_cases hc hn).2 ini c hi rfl
      have hs : d.step (.dynamicDirs idx rel dir) =
          .report (pathJoin (pathJoin fixed dir) d.linkee) (.dynamicDirs idx rel q) := by
        simp [DebugSearch.step, hg, q1, q2]
      rw [collect_report d hs, join_plain hp, components_join _ _ r1 r2, hc, lineage_append ini c hi,
        ih q ini (by simp at hl; omega) q3 (fun x hx => hn x (by simp [hx]))]
      rw [List.map_cons, List.filter_cons, List.filter_cons]
      simp only [List.filter_nil]
      split <;> simp

theorem collect_dynamic (hp : PlainName d.linkee) {rel : Bytes} (hn : Names (components rel)) :
    ∀ (n idx : Nat), idx + n = d.fixedDirs.length →
      (d.collect (.dynamicDirs idx rel rel)).map components =
        ((d.fixedDirs.drop idx).flatMap fun f =>
          (lineage (components rel)).map fun a => components f ++ a ++ [d.linkee]).filter
            (other d.canonicalLinker) := by
  intro n
  induction n with
  | zero =>
    intro idx h
    have hs : d.step (.dynamicDirs idx rel rel) = .done := by
      simp only [DebugSearch.step]
      rw [List.getElem?_eq_none (by omega)]
    rw [(collect_step d _).1 hs, List.drop_eq_nil_of_le (by omega)]
    rfl
  | succ n ih =>
    intro idx h
    have hlt : idx < d.fixedDirs.length := by omega
    rw [collect_lineage d hp (List.getElem?_eq_getElem hlt) _ rel _ rfl rfl hn, ih (idx + 1) (by omega),
      List.drop_eq_getElem_cons hlt, List.flatMap_cons, List.filter_append]

theorem collect_target (hp : PlainName d.linkee) {l : Bytes} {dir : List Bytes}
    (hl : components l = dir ++ [d.linkee]) :
    (d.collect (.canonicalTarget l)).map components =
      ((dir ++ [d.linkee]) :: d.fixedDirs.flatMap fun f =>
        (lineage (dir.drop 1)).map fun a => components f ++ a ++ [d.linkee]).filter
          (other d.canonicalLinker) := by
  have hm : components (middle l) = dir.drop 1 := by
    rw [(C55_middle l).1, hl]
    cases dir with
    | nil => rfl
    | cons x t => simp
  have hs : d.step (.canonicalTarget l) = .report l (.dynamicDirs 0 (middle l) (middle l)) := rfl
  rw [collect_report d hs, hl, collect_dynamic d hp (middle_names l) _ 0 (Nat.zero_add _), hm,
    List.drop_zero, List.filter_cons, List.filter_cons]
  simp only [List.filter_nil]
  split <;> simp

/-- What follows the fixed directories. -/
def nearby (linkee : Bytes) (dirs : List Bytes) : Option (List Bytes) → List (List Bytes)
  | none => []
  | some dir => (dir ++ [linkee]) :: dirs.flatMap fun f =>
      (lineage (dir.drop 1)).map fun a => components f ++ a ++ [linkee]

/-- The directory of the file with the link. -/
def LinkerDir (linker : Option Bytes) (dir : Option (List Bytes)) : Prop :=
  match linker, dir with
  | none, none => True
  | some l, some ds => ∃ name, components l = ds ++ [name] ∧ name ≠ [47] ∧ name ≠ [46] ∧ name ≠ [46, 46]
  | _, _ => False

theorem collect_fixed (hp : PlainName d.linkee) {dir : Option (List Bytes)}
    (hd : LinkerDir d.canonicalLinker dir) :
    ∀ (n idx : Nat), idx + n = d.fixedDirs.length →
      (d.collect (.fixedDir idx)).map components =
        (inDirs (d.fixedDirs.drop idx) d.linkee ++ nearby d.linkee d.fixedDirs dir).filter
          (other d.canonicalLinker) := by
  intro n
  induction n with
  | zero =>
    intro idx h
    rw [List.drop_eq_nil_of_le (by omega)]
    have hg : d.fixedDirs[idx]? = none := List.getElem?_eq_none (by omega)
    cases hc : d.canonicalLinker with
    | none =>
      rw [hc] at hd
      cases dir with
      | some ds => exact absurd hd (by simp [LinkerDir])
      | none =>
        have hs : d.step (.fixedDir idx) = .done := by simp only [DebugSearch.step, hg, hc]
        rw [(collect_step d _).1 hs]
        rfl
    | some l =>
      rw [hc] at hd
      cases dir with
      | none => exact absurd hd (by simp [LinkerDir])
      | some ds =>
        obtain ⟨name, h1, h2, h3, h4⟩ := hd
        have hs : d.step (.fixedDir idx) = .skip (.canonicalTarget (setFileName l d.linkee)) := by
          simp only [DebugSearch.step, hg, hc]
        obtain ⟨q1, q2, q3⟩ := plain_components hp
        have hl := (C55_set_file_name l d.linkee q2 q3).1 ds name h1 h2 h3 h4
        rw [q1] at hl
        rw [(collect_step d _).2.1 _ hs, collect_target d hp hl, hc]
        rfl
  | succ n ih =>
    intro idx h
    have hlt : idx < d.fixedDirs.length := by omega
    have hs : d.step (.fixedDir idx) =
        .report (pathJoin d.fixedDirs[idx] d.linkee) (.fixedDir (idx + 1)) := by
      simp only [DebugSearch.step, List.getElem?_eq_getElem hlt]
    rw [collect_report d hs, ih (idx + 1) (by omega), join_plain hp, List.drop_eq_getElem_cons hlt]
    simp only [inDirs, List.map_cons, List.cons_append]
    rw [List.filter_cons, List.filter_cons]
    simp only [List.filter_nil]
    split <;> simp

theorem hexByte_eq (b : UInt8) : hexByte b = twoHex b := by
  have h : ∀ n : Nat, n < 16 → digitChar n = (ascii "0123456789abcdef").getD n 0 := by
    decide +kernel
  unfold hexByte twoHex
  have := b.toNat_lt
  simp only
  rw [h _ (by omega), h _ (by omega)]

theorem hex_no_slash (b : UInt8) : ∀ x ∈ twoHex b, x ≠ 47 ∧ x ≠ 46 := by
  have h : ∀ n : Nat, n < 16 → (ascii "0123456789abcdef").getD n 0 ≠ 47 ∧
      (ascii "0123456789abcdef").getD n 0 ≠ 46 := by decide +kernel
  have := b.toNat_lt
  intro x hx
  unfold twoHex at hx
  simp only [List.mem_cons, List.not_mem_nil, or_false] at hx
  rcases hx with rfl | rfl
  · exact h _ (by omega)
  · exact h _ (by omega)

theorem buildIdPath_components (first : UInt8) (rest : Bytes) :
    components (buildIdPath first rest) = [[47], ascii "usr", ascii "lib", ascii "debug",
      ascii ".build-id", twoHex first, rest.flatMap twoHex ++ ascii ".debug"] := by
  have h1 : PlainName (twoHex first) := by
    refine ⟨by simp [twoHex], fun h => (hex_no_slash first 47 h).1 rfl, fun h => ?_⟩
    have := (hex_no_slash first 46 (by rw [h]; simp)).2
    exact this rfl
  have h2 : PlainName (rest.flatMap twoHex ++ ascii ".debug") := by
    refine ⟨?_, fun h => ?_, fun h => ?_⟩
    · intro h
      have := congrArg List.length h
      have h6 : (ascii ".debug").length = 6 := by decide +kernel
      rw [List.length_append, h6, List.length_nil] at this
      omega
    · rw [List.mem_append] at h
      rcases h with h | h
      · obtain ⟨b, _, hb⟩ := List.mem_flatMap.mp h
        exact (hex_no_slash b 47 hb).1 rfl
      · exact absurd h (by decide +kernel)
    · have := congrArg List.length h
      have h6 : (ascii ".debug").length = 6 := by decide +kernel
      rw [List.length_append, h6] at this
      simp at this
  have hf : rest.flatMap hexByte = rest.flatMap twoHex := by
    congr 1; funext b; exact hexByte_eq b
  unfold buildIdPath
  rw [hf, show dotDebug = ascii ".debug" from rfl, join_plain h2, hexByte_eq, join_plain h1,
    show components buildIdDebugDir =
      [[47], ascii "usr", ascii "lib", ascii "debug", ascii ".build-id"] by decide +kernel]
  rfl

theorem candidates_eq (hp : PlainName d.linkee) {dir : Option (List Bytes)}
    (hd : LinkerDir d.canonicalLinker dir) :
    d.candidates.map components =
      (buildIdPlaces d.buildId ++ (inDirs d.fixedDirs d.linkee ++
        nearby d.linkee d.fixedDirs dir)).filter (other d.canonicalLinker) := by
  have hf := collect_fixed d hp hd _ 0 (Nat.zero_add _)
  rw [List.drop_zero] at hf
  unfold DebugSearch.candidates
  rw [List.filter_append, ← hf]
  cases hb : d.buildId with
  | none =>
    have hs : d.step .buildId = .skip (.fixedDir 0) := by simp only [DebugSearch.step, hb]
    rw [(collect_step d _).2.1 _ hs]
    rfl
  | some id =>
    by_cases hl : id.length < 8
    · have hs : d.step .buildId = .skip (.fixedDir 0) := by
        simp only [DebugSearch.step, hb]
        rw [if_pos hl]
      rw [(collect_step d _).2.1 _ hs]
      cases id with
      | nil => rfl
      | cons a t =>
        simp only [List.length_cons] at hl
        simp only [buildIdPlaces]
        rw [if_neg (by omega)]
        rfl
    · cases id with
      | nil => simp at hl
      | cons a t =>
        have hs : d.step .buildId = .report (buildIdPath a t) (.fixedDir 0) := by
          simp only [DebugSearch.step, hb]
          rw [if_neg hl]
        simp only [List.length_cons] at hl
        rw [collect_report d hs, buildIdPath_components]
        simp only [buildIdPlaces]
        rw [if_pos (by omega)]

/-- **C40** the candidates of a search for the debug file `name` of a file in the directory `/dir`, in
order: the place for the build ID, the given directories, the file's own directory, the
directories of that name and the names of its ancestors below the given directories; the file with
the link itself is left out.
Partial: relative paths, for which it is false (`C40_relative_wrong`). -/
theorem C40_candidates_partial (dirs : List Bytes) (linker name : Bytes) (id : Option Bytes)
    (dir : List Bytes) (file : Bytes) (hl : components linker = [47] :: dir ++ [file])
    (hf : file ≠ [46, 46]) (hf' : file ≠ [46]) (hf'' : file ≠ [47]) (hp : PlainName name) :
    (DebugSearch.candidates ⟨dirs, some linker, name, id⟩).map components =
      (buildIdPlaces id ++ inDirs dirs name ++ nearLinker dirs dir name).filter
        (fun p => decide (p ≠ components linker)) := by
  have h := candidates_eq ⟨dirs, some linker, name, id⟩ hp (dir := some ([47] :: dir))
    ⟨file, hl, hf'', hf', hf⟩
  rw [h, List.append_assoc]
  have : other (some linker) = fun p => decide (p ≠ components linker) := by
    funext p; unfold other; simp [eq_comm]
  simp only [this]
  rfl

/-- **C40** if the file with the link is not known, only the build ID and the given directories are
searched. -/
theorem C40_candidates_unknown (dirs : List Bytes) (name : Bytes) (id : Option Bytes)
    (hp : PlainName name) :
    (DebugSearch.candidates ⟨dirs, none, name, id⟩).map components =
      buildIdPlaces id ++ inDirs dirs name := by
  have h := candidates_eq ⟨dirs, none, name, id⟩ hp (dir := none) trivial
  rw [h]
  have : other none = fun _ => true := by funext p; unfold other; simp
  rw [this]
  simp only [nearby, List.append_nil]
  exact List.filter_eq_self.mpr fun _ _ => rfl

/-- **C40** whatever the link says, the search never proposes the file that contains it. -/
theorem C40_not_itself (d : DebugSearch) (linker p : Bytes) (hl : d.canonicalLinker = some linker)
    (h : p ∈ d.candidates) : components p ≠ components linker := by
  unfold DebugSearch.candidates at h
  revert h
  generalize SearchState.buildId = s
  induction hn : d.rank s using Nat.strong_induction_on generalizing s with
  | _ n ih =>
    intro h
    obtain ⟨c1, c2, c3⟩ := collect_step d s
    cases hs : d.step s with
    | done => rw [c1 hs] at h; simp at h
    | skip s' =>
      rw [c2 s' hs] at h
      have := (d.rank_lt s s').1 hs
      exact ih _ (by omega) s' rfl h
    | report q s' =>
      rw [c3 q s' hs] at h
      have := (d.rank_lt s s').2 q hs
      split at h
      · exact ih _ (by omega) s' rfl h
      · rename_i hq
        rw [List.mem_cons] at h
        rcases h with rfl | h
        · intro hc
          apply hq
          unfold DebugSearch.isLinker
          rw [hl]
          exact (C55_path_eq _ _).mpr hc
        · exact ih _ (by omega) s' rfl h

/-- **C40** the file found is the first of the candidates that exists; none if none does. -/
theorem C40_find (fs : Files) (name linker : Bytes) (dirs : List Bytes) (dir : List Bytes)
    (file : Bytes) (canonical : Bytes)
    (hc : fs.canonicalize linker = .ok canonical ∨
      (fs.canonicalize linker = .error true ∧ canonical = linker))
    (hl : components canonical = [47] :: dir ++ [file])
    (hf : file ≠ [46, 46]) (hf' : file ≠ [46]) (hf'' : file ≠ [47]) (hp : PlainName name) :
    ∃ paths : List Bytes,
      paths.map components = (buildIdPlaces (fs.buildId canonical) ++ inDirs dirs name ++
        nearLinker dirs dir name).filter (fun p => decide (p ≠ components canonical)) ∧
      (findDebugFile fs name (some linker) dirs = none → ∀ p ∈ paths, fs.exists_ p = false) ∧
      ∀ p, findDebugFile fs name (some linker) dirs = some p →
        ∃ before after, paths = before ++ p :: after ∧ fs.exists_ p = true ∧
          ∀ q ∈ before, fs.exists_ q = false := by
  have e : debugSearch fs name (some linker) dirs =
      ⟨dirs, some canonical, name, fs.buildId canonical⟩ := by
    have : tryCanonicalize fs linker = some canonical := by
      unfold tryCanonicalize
      rcases hc with hc | ⟨hc, rfl⟩ <;> rw [hc]
      rfl
    simp [debugSearch, this]
  refine ⟨(debugSearch fs name (some linker) dirs).candidates, ?_, fun h => ?_, fun p h => ?_⟩
  · rw [e]
    exact C40_candidates_partial dirs canonical name _ dir file hl hf hf' hf'' hp
  · intro p hpm
    have := List.find?_eq_none.mp h p hpm
    simpa using this
  · obtain ⟨h1, before, after, h2, h3⟩ := List.find?_eq_some_iff_append.mp h
    exact ⟨before, after, h2, h1, fun q hq => by simpa using h3 q hq⟩

/-- **C40** the same if the file with the link is not known or its path cannot be resolved for
another reason than that the file does not exist. -/
theorem C40_find_unknown (fs : Files) (name : Bytes) (linker : Option Bytes) (dirs : List Bytes)
    (hc : ∀ l, linker = some l → fs.canonicalize l = .error false) (hp : PlainName name) :
    ∃ paths : List Bytes, paths.map components = inDirs dirs name ∧
      (findDebugFile fs name linker dirs = none → ∀ p ∈ paths, fs.exists_ p = false) ∧
      ∀ p, findDebugFile fs name linker dirs = some p →
        ∃ before after, paths = before ++ p :: after ∧ fs.exists_ p = true ∧
          ∀ q ∈ before, fs.exists_ q = false := by
  have e : debugSearch fs name linker dirs = ⟨dirs, none, name, none⟩ := by
    cases linker with
    | none => rfl
    | some l => simp [debugSearch, tryCanonicalize, hc l rfl]
  refine ⟨(debugSearch fs name linker dirs).candidates, ?_, fun h => ?_, fun p h => ?_⟩
  · rw [e, C40_candidates_unknown dirs name none hp]
    rfl
  · intro p hpm
    have := List.find?_eq_none.mp h p hpm
    simpa using this
  · obtain ⟨h1, before, after, h2, h3⟩ := List.find?_eq_some_iff_append.mp h
    exact ⟨before, after, h2, h1, fun q hq => by simpa using h3 q hq⟩

/-- **C40** a search is over after finitely many candidates: each is found from the remaining ones
in at most as many steps as there are places left. -/
theorem C40_finite (d : DebugSearch) (s s' : SearchState) (p : Bytes)
    (h : d.next s = some (p, s')) : d.rank s' < d.rank s := d.next_lt s p s' h

/-- **C40** does not hold in the form given by the documentation of `set_debug_dirs`, which says
that the directory of the file itself has the highest precedence: with a debug file there and
another one in one of the given directories, the latter is used. -/
theorem C40_precedence_wrong :
    ∃ (fs : Files) (dirs : List Bytes),
      fs.canonicalize (ascii "/bin/ls") = .ok (ascii "/bin/ls") ∧
      fs.exists_ (ascii "/bin/ls.dbg") = true ∧
      findDebugFile fs (ascii "ls.dbg") (some (ascii "/bin/ls")) dirs = some (ascii "/lib/debug/ls.dbg") := by
  refine ⟨⟨.ok, fun p => p == ascii "/bin/ls.dbg" || p == ascii "/lib/debug/ls.dbg", fun _ => none⟩,
    [ascii "/lib/debug"], rfl, by decide +kernel, ?_⟩
  have e : debugSearch ⟨.ok, fun p => p == ascii "/bin/ls.dbg" || p == ascii "/lib/debug/ls.dbg",
      fun _ => none⟩ (ascii "ls.dbg") (some (ascii "/bin/ls")) [ascii "/lib/debug"] =
      ⟨[ascii "/lib/debug"], some (ascii "/bin/ls"), ascii "ls.dbg", none⟩ := rfl
  unfold findDebugFile
  rw [e]
  unfold DebugSearch.candidates
  rw [(collect_step _ _).2.1 (.fixedDir 0) rfl,
    (collect_step _ _).2.2 (ascii "/lib/debug/ls.dbg") (.fixedDir 1) (by rfl),
    if_neg (by decide +kernel)]
  rw [List.find?_cons_of_pos (by decide +kernel)]

/-- **C40** does not hold for a relative path of a file that no longer exists (only such paths are
used without resolving them): instead of the root, the first directory of the path is dropped, so
that the directory `/lib/debug/a` is not searched. -/
theorem C40_relative_wrong :
    (DebugSearch.candidates ⟨[ascii "/lib/debug"], some (ascii "a/ls"), ascii "ls.dbg", none⟩).map
      components = [[[47], ascii "lib", ascii "debug", ascii "ls.dbg"], [ascii "a", ascii "ls.dbg"],
        [[47], ascii "lib", ascii "debug", ascii "ls.dbg"]] := by
  have h := candidates_eq ⟨[ascii "/lib/debug"], some (ascii "a/ls"), ascii "ls.dbg", none⟩
    (by refine ⟨?_, ?_, ?_⟩ <;> decide +kernel) (dir := some [ascii "a"])
    ⟨ascii "ls", by decide +kernel, by decide +kernel, by decide +kernel, by decide +kernel⟩
  rw [h]
  decide +kernel

/-! ### Examples -/

/-- The search for `ls.debug` of `/usr/bin/ls`. -/
example : (buildIdPlaces (some [0xab, 1, 2, 3, 4, 5, 6, 0xff]) ++
      inDirs [ascii "/usr/lib/debug", ascii "/lib/debug/"] (ascii "ls.debug") ++
      nearLinker [ascii "/usr/lib/debug", ascii "/lib/debug/"] [ascii "usr", ascii "bin"] (ascii "ls.debug")) =
    [ascii "/usr/lib/debug/.build-id/ab/010203040506ff.debug", ascii "/usr/lib/debug/ls.debug",
      ascii "/lib/debug/ls.debug", ascii "/usr/bin/ls.debug", ascii "/usr/lib/debug/usr/bin/ls.debug",
      ascii "/usr/lib/debug/usr/ls.debug", ascii "/lib/debug/usr/bin/ls.debug",
      ascii "/lib/debug/usr/ls.debug"].map components := by decide +kernel

/-- It meets the hypotheses of `C40_candidates_partial`. -/
example : components (ascii "/usr/bin/ls") = [47] :: [ascii "usr", ascii "bin"] ++ [ascii "ls"] ∧
    PlainName (ascii "ls.debug") := by
  refine ⟨by decide +kernel, ?_, ?_, ?_⟩ <;> decide +kernel

end Blazesym.Dwarf
