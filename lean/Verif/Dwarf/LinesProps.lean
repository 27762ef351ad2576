import Verif.Dwarf.LinesLemmas

/-! # C37: source locations of addresses -/

set_option autoImplicit false

namespace Blazesym.Dwarf
open Blazesym.Util Blazesym.Spec.Dwarf

theorem renderFile_iff (compDir : Option Bytes) (f : FileEntry) (dir name : Bytes) :
    renderFile compDir f = .ok (dir, name) ↔ DirIs compDir f dir ∧ f.pathName = .ok name := by
  have hpush : ∀ a b, pathPush a b = resolved a b := by
    intro a b
    unfold pathPush resolved pathJoin
    split <;> rfl
  unfold renderFile DirIs
  simp only
  by_cases h0 : f.directoryIndex = 0
  · rw [if_neg (by simpa using h0), if_pos h0]
    cases hn : f.pathName with
    | error e => simp [bind, Except.bind, pure, Except.pure]
    | ok n =>
      simp only [bind, Except.bind, pure, Except.pure, Except.ok.injEq, Prod.mk.injEq]
      exact ⟨fun h => ⟨h.1.symm, h.2⟩, fun h => ⟨h.1.symm, h.2⟩⟩
  · rw [if_pos h0, if_neg h0]
    cases hd : f.directory with
    | none =>
      cases hn : f.pathName with
      | error e => simp [bind, Except.bind, pure, Except.pure]
      | ok n =>
        simp only [bind, Except.bind, pure, Except.pure, Except.ok.injEq, Prod.mk.injEq]
        exact ⟨fun h => ⟨h.1.symm, h.2⟩, fun h => ⟨h.1.symm, h.2⟩⟩
    | some d =>
      cases d with
      | error e => simp [bind, Except.bind]
      | ok d =>
        cases hn : f.pathName with
        | error e => simp [bind, Except.bind, pure, Except.pure]
        | ok n =>
          simp only [bind, Except.bind, pure, Except.pure, Except.ok.injEq, Prod.mk.injEq, hpush]
          exact ⟨fun h => ⟨h.1.symm, h.2⟩, fun h => ⟨h.1.symm, h.2⟩⟩

theorem mapM_ok {α β : Type} (f : α → Except Err β) : ∀ (l : List α) (r : List β), l.mapM f = .ok r →
    r.length = l.length ∧ ∀ (i : Nat) (a : α), l[i]? = some a → ∃ b, f a = .ok b ∧ r[i]? = some b := by
  intro l
  induction l with
  | nil =>
    intro r h
    simp only [List.mapM_nil, pure, Except.pure, Except.ok.injEq] at h
    subst h; simp
  | cons a t ih =>
    intro r h
    rw [List.mapM_cons] at h
    obtain ⟨b, h1, h2⟩ := bind_ok h
    obtain ⟨bs, h3, h4⟩ := bind_ok h2
    simp only [pure, Except.pure, Except.ok.injEq] at h4
    subst h4
    obtain ⟨i1, i2⟩ := ih bs h3
    refine ⟨by simp [i1], ?_⟩
    intro i x hx
    cases i with
    | zero => simp only [List.getElem?_cons_zero, Option.some.injEq] at hx; subst hx; exact ⟨b, h1, rfl⟩
    | succ i => exact i2 i x (by simpa using hx)

theorem mapM_complete {α β : Type} (f : α → Except Err β) : ∀ (l : List α),
    (∀ a ∈ l, ∃ b, f a = .ok b) → ∃ r, l.mapM f = .ok r := by
  intro l
  induction l with
  | nil => intro _; exact ⟨[], rfl⟩
  | cons a t ih =>
    intro h
    obtain ⟨b, hb⟩ := h a List.mem_cons_self
    obtain ⟨r, hr⟩ := ih (fun x hx => h x (List.mem_cons_of_mem _ hx))
    exact ⟨b :: r, by rw [List.mapM_cons, hb, hr]; rfl⟩

/-- What a parsed line table consists of. -/
theorem parseLines_ok {σ : Sorter} {compDir : Option Bytes} {prog : LineProgram} {lines : Lines}
    (h : parseLines σ compDir prog = .ok lines) :
    prog.fail = none ∧ lines.sequences.Perm ((runs 0 [] prog.rows).map seqOf) ∧
    lines.sequences.Pairwise (fun a b => a.start ≤ b.start) ∧
    lines.files.length = prog.files.length + 1 ∧
    ∀ (i : Nat) (dir name : Bytes), lines.files[i]? = some (dir, name) ↔ FileIs compDir prog i dir name := by
  unfold parseLines at h
  obtain ⟨seqs, h1, h⟩ := bind_ok h
  obtain ⟨first, h2, h⟩ := bind_ok h
  obtain ⟨files, h3, h⟩ := bind_ok h
  simp only [pure, Except.pure, Except.ok.injEq] at h
  subst h
  have hf : prog.fail = none ∧ seqs = sequenceLoop prog.rows [] [] := by
    unfold finish at h1
    cases hp : prog.fail with
    | some e => rw [hp] at h1; simp at h1
    | none => rw [hp] at h1; simp only [Except.ok.injEq] at h1; exact ⟨rfl, h1.symm⟩
  have hseq : sequenceLoop prog.rows [] [] = (runs 0 [] prog.rows).map seqOf := by
    have := sequenceLoop_eq prog.rows 0 [] []
    simpa [kept] using this
  obtain ⟨m1, m2⟩ := mapM_ok _ _ _ h3
  refine ⟨hf.1, ?_, ?_, by simp [m1], ?_⟩
  · simp only; rw [hf.2, hseq]; exact σ.perm _ _
  · have := σ.sorted (fun a b : LineSequence => decide (a.start ≤ b.start))
      (fun a b c h1 h2 => by simp only [decide_eq_true_eq] at *; omega)
      (fun a b => by simp only [Bool.or_eq_true, decide_eq_true_eq]; omega) seqs
    exact this.imp (fun h => by simpa using h)
  · intro i dir name
    cases i with
    | zero =>
      simp only [List.getElem?_cons_zero, Option.some.injEq]
      cases h0 : prog.file0 with
      | none =>
        rw [h0] at h2
        simp only [firstFile, Except.ok.injEq] at h2
        rw [← h2]
        unfold FileIs
        simp only [h0, Prod.mk.injEq]
        exact ⟨fun h => ⟨h.1.symm, h.2.symm⟩, fun h => ⟨h.1.symm, h.2.symm⟩⟩
      | some f =>
        rw [h0] at h2
        simp only [firstFile] at h2
        unfold FileIs
        simp only [h0]
        rw [← renderFile_iff, h2, Except.ok.injEq]
    | succ i =>
      simp only [List.getElem?_cons_succ]
      unfold FileIs
      simp only
      constructor
      · intro hi
        have hil : i < prog.files.length := by
          have := (List.getElem?_eq_some_iff.mp hi).1; omega
        obtain ⟨b, k1, k2⟩ := m2 i prog.files[i] (by simp [hil])
        rw [hi] at k2
        rw [← Option.some.inj k2] at k1
        exact ⟨prog.files[i], by simp [hil], (renderFile_iff _ _ _ _).mp k1⟩
      · rintro ⟨f, k1, k2⟩
        obtain ⟨b, k3, k4⟩ := m2 i f k1
        rw [(renderFile_iff _ _ _ _).mpr k2] at k3
        rw [k4, ← Except.ok.inj k3]

/-- **C37** (which programs are accepted): a line table is available exactly if the program, the file
names and the directories in use can be decoded. -/
theorem C37_accepted (σ : Sorter) (compDir : Option Bytes) (prog : LineProgram) :
    (∃ lines, parseLines σ compDir prog = .ok lines) ↔ prog.fail = none ∧ FilesOk prog := by
  have hr : ∀ f : FileEntry, (∃ x, renderFile compDir f = .ok x) ↔ (∃ n, f.pathName = .ok n) ∧
      (f.directoryIndex ≠ 0 → ∀ d, f.directory = some d → ∃ b, d = .ok b) := by
    intro f
    constructor
    · rintro ⟨⟨dir, name⟩, h⟩
      obtain ⟨h1, h2⟩ := (renderFile_iff _ _ _ _).mp h
      refine ⟨⟨name, h2⟩, ?_⟩
      intro h0 d hd
      unfold DirIs at h1
      rw [if_neg h0, hd] at h1
      cases d with
      | ok b => exact ⟨b, rfl⟩
      | error e => exact absurd h1 (by simp)
    · rintro ⟨⟨n, hn⟩, h2⟩
      have : ∃ dir, DirIs compDir f dir := by
        unfold DirIs
        by_cases h0 : f.directoryIndex = 0
        · simp only [if_pos h0]; exact ⟨_, rfl⟩
        · simp only [if_neg h0]
          cases hd : f.directory with
          | none => exact ⟨_, rfl⟩
          | some d =>
            obtain ⟨b, hb⟩ := h2 h0 d hd
            subst hb; exact ⟨_, rfl⟩
      obtain ⟨dir, hdir⟩ := this
      exact ⟨(dir, n), (renderFile_iff _ _ _ _).mpr ⟨hdir, hn⟩⟩
  constructor
  · rintro ⟨lines, h⟩
    refine ⟨(parseLines_ok h).1, ?_⟩
    unfold parseLines at h
    obtain ⟨seqs, h1, h⟩ := bind_ok h
    obtain ⟨first, h2, h⟩ := bind_ok h
    obtain ⟨files, h3, h⟩ := bind_ok h
    rintro f (hf | hf)
    · rw [hf] at h2
      exact (hr f).mp ⟨_, h2⟩
    · obtain ⟨i, hi⟩ := List.mem_iff_getElem?.mp hf
      obtain ⟨b, hb, _⟩ := (mapM_ok _ _ _ h3).2 i f hi
      exact (hr f).mp ⟨_, hb⟩
  · rintro ⟨h1, h2⟩
    unfold parseLines finish
    rw [h1]
    obtain ⟨files, hfs⟩ := mapM_complete (renderFile compDir) prog.files
      (fun f hf => (hr f).mpr (h2 f (.inr hf)))
    cases h0 : prog.file0 with
    | none => exact ⟨_, by simp only [bind, Except.bind, pure, Except.pure, hfs, firstFile]; rfl⟩
    | some f =>
      obtain ⟨x, hx⟩ := (hr f).mpr (h2 f (.inl h0))
      exact ⟨_, by simp only [bind, Except.bind, pure, Except.pure, hfs, firstFile, hx]; rfl⟩

theorem seqOf_start {x : Nat × List Row × Nat} {start : Nat} (h : StartsAt x.2.1 start) :
    (seqOf x).start = start := by
  obtain ⟨r, rest, h1, h2⟩ := h
  obtain ⟨y, h3, h4⟩ := kept_head r rest
  unfold seqOf
  rw [h1, h3]
  simp [h4, h2]

theorem startsAt_of {rows : List Row} {x : Nat × List Row × Nat} (h : x ∈ runs 0 [] rows) :
    ∃ start, StartsAt x.2.1 start := by
  obtain ⟨_, _, _, _, _, hne, _⟩ := (runs_iff rows x.1 x.2.1 x.2.2).mp h
  cases hs : x.2.1 with
  | nil => exact absurd hs hne
  | cons r rest => exact ⟨r.address, r, rest, rfl, rfl⟩

/-- The search for the sequence of an address. -/
theorem search_sequence {σ : Sorter} {compDir : Option Bytes} {prog : LineProgram} {lines : Lines}
    (hp : parseLines σ compDir prog = .ok lines) (ho : Orderly prog.rows) (addr : Nat) :
    (∃ i pos seq stop start, binarySearchBy lines.sequences (sequenceCmp addr) = .inl i ∧
      lines.sequences[i]? = some (seqOf (pos, seq, stop)) ∧ SequenceAt prog.rows pos seq stop ∧
      StartsAt seq start ∧ start ≤ addr ∧ addr < stop) ∨
    ((∃ i, binarySearchBy lines.sequences (sequenceCmp addr) = .inr i) ∧
      ∀ pos seq stop start, SequenceAt prog.rows pos seq stop → StartsAt seq start →
        ¬ (start ≤ addr ∧ addr < stop)) := by
  obtain ⟨_, hperm, hsort, _, _⟩ := parseLines_ok hp
  have hd : ((runs 0 [] prog.rows).map seqOf).Pairwise
      (fun a b => Apart a.start a.stop b.start b.stop) := by
    rw [List.pairwise_map]
    refine List.Pairwise.imp_of_mem ?_ (runs_distinct prog.rows 0 [])
    intro a b ha hb hne
    obtain ⟨s1, hs1⟩ := startsAt_of ha
    obtain ⟨s2, hs2⟩ := startsAt_of hb
    rw [seqOf_start hs1, seqOf_start hs2]
    have n1 := ho.nonempty _ _ _ _ ((runs_iff _ _ _ _).mp ha) hs1
    have n2 := ho.nonempty _ _ _ _ ((runs_iff _ _ _ _).mp hb) hs2
    rcases ho.disjoint _ _ _ _ _ _ _ _ ((runs_iff _ _ _ _).mp ha) hs1 ((runs_iff _ _ _ _).mp hb) hs2 hne
      with h | h
    · exact .inr (.inl ⟨Nat.lt_of_lt_of_le n1 h, Nat.le_trans h (Nat.le_of_lt n2)⟩)
    · exact .inr (.inr ⟨Nat.lt_of_lt_of_le n2 h, Nat.le_trans h (Nat.le_of_lt n1)⟩)
  have hd' := (pairwise_perm (fun a b h => Apart.symm h) hperm).mpr hd
  have hmem : ∀ s ∈ lines.sequences, ∃ x ∈ runs 0 [] prog.rows, s = seqOf x := by
    intro s hs
    obtain ⟨x, hx, rfl⟩ := List.mem_map.mp (hperm.mem_iff.mp hs)
    exact ⟨x, hx, rfl⟩
  have hne : ∀ s ∈ lines.sequences, s.start < s.stop := by
    intro s hs
    obtain ⟨x, hx, rfl⟩ := hmem s hs
    obtain ⟨st, hst⟩ := startsAt_of hx
    rw [seqOf_start hst]
    exact ho.nonempty _ _ _ _ ((runs_iff _ _ _ _).mp hx) hst
  have hcmp : sequenceCmp addr = (fun s => spanCmp addr s.start s.stop) := rfl
  rw [hcmp]
  rcases search_spans lines.sequences LineSequence.start LineSequence.stop hsort hd' hne addr with
    ⟨i, a, h1, h2, h3, h4⟩ | ⟨i, h1, h2⟩
  · left
    obtain ⟨x, hx, rfl⟩ := hmem a (List.mem_of_getElem? h2)
    obtain ⟨st, hst⟩ := startsAt_of hx
    rw [seqOf_start hst] at h3
    exact ⟨i, x.1, x.2.1, x.2.2, st, h1, h2, (runs_iff _ _ _ _).mp hx, hst, h3, h4⟩
  · right
    refine ⟨⟨i, h1⟩, ?_⟩
    intro pos seq stop start hs hst hcon
    have hx := (runs_iff prog.rows pos seq stop).mpr hs
    refine h2 (seqOf (pos, seq, stop)) (hperm.mem_iff.mpr (List.mem_map.mpr ⟨_, hx, rfl⟩)) ?_
    rw [seqOf_start hst]; exact hcon

/-- The row found in a sequence: the last kept row not above the address. -/
theorem search_row (rows : List LineRow) (hs : rows.Pairwise (fun a b => a.address < b.address))
    (addr : Nat) :
    (∃ idx row, atOrBefore (binarySearchBy rows (fun row => compare row.address addr)) = some idx ∧ rows[idx]? = some row ∧
      ∃ l1 l2, rows = l1 ++ row :: l2 ∧ row.address ≤ addr ∧ ∀ x ∈ l2, addr < x.address) ∨
    (atOrBefore (binarySearchBy rows (fun row => compare row.address addr)) = none ∧ ∀ r ∈ rows, addr < r.address) := by
  have hcs : CmpSorted rows (fun row => compare row.address addr) := by
    refine hs.imp ?_
    intro a b hab
    rw [compare_gt_iff_gt, compare_gt_iff_gt, compare_lt_iff_lt, compare_lt_iff_lt]
    omega
  have hsplit : ∀ (i : Nat) (r : LineRow), rows[i]? = some r →
      ∃ l1 l2, rows = l1 ++ r :: l2 ∧ l1.length = i := by
    intro i r hi
    obtain ⟨h1, h2⟩ := List.getElem?_eq_some_iff.mp hi
    refine ⟨rows.take i, rows.drop (i + 1), ?_, by simp; omega⟩
    rw [← h2, ← List.drop_eq_getElem_cons h1, List.take_append_drop]
  have hafter : ∀ (l1 l2 : List LineRow) (r : LineRow), rows = l1 ++ r :: l2 →
      ∀ x ∈ l2, r.address < x.address := by
    intro l1 l2 r hr x hx
    rw [hr, List.pairwise_append] at hs
    exact (List.pairwise_cons.mp hs.2.1).1 x hx
  have hc := binarySearchBy_contract rows _ hcs
  cases hb : binarySearchBy rows (fun row => compare row.address addr) with
  | inl i =>
    rw [hb] at hc
    obtain ⟨e, he, hq⟩ := hc
    rw [compare_eq_iff_eq] at hq
    obtain ⟨l1, l2, h1, _⟩ := hsplit i e he
    refine .inl ⟨i, e, rfl, he, l1, l2, h1, by omega, ?_⟩
    intro x hx
    have := hafter _ _ _ h1 x hx
    omega
  | inr i =>
    rw [hb] at hc
    obtain ⟨hl, h1, h2⟩ := hc
    cases i with
    | zero =>
      refine .inr ⟨rfl, ?_⟩
      intro r hr
      obtain ⟨j, hj⟩ := List.mem_iff_getElem?.mp hr
      have := h2 j r (by omega) hj
      rwa [compare_gt_iff_gt] at this
    | succ x =>
      have hx : x < rows.length := by omega
      have hxe : rows[x]? = some rows[x] := by simp [hx]
      refine .inl ⟨x, rows[x], rfl, hxe, ?_⟩
      obtain ⟨l1, l2, k1, k2⟩ := hsplit x _ hxe
      have hle := h1 x _ (by omega) hxe
      rw [compare_lt_iff_lt] at hle
      refine ⟨l1, l2, k1, by omega, ?_⟩
      intro y hy
      obtain ⟨j, hj⟩ := List.mem_iff_getElem?.mp hy
      have hrow : rows[x + 1 + j]? = some y := by
        have e : rows = l1 ++ [rows[x]] ++ l2 := by rw [List.append_assoc]; exact k1
        rw [e, List.getElem?_append_right (by simp [k2])]
        simp only [List.length_append, List.length_cons, List.length_nil, k2]
        rw [show x + 1 + j - (x + (0 + 1)) = j from by omega]
        exact hj
      have := h2 (x + 1 + j) y (by omega) hrow
      rwa [compare_gt_iff_gt] at this

/-- The search for the location of an address, in terms of rows. -/
theorem findLocation_eq {σ : Sorter} {compDir : Option Bytes} {prog : LineProgram} {lines : Lines}
    (hp : parseLines σ compDir prog = .ok lines) (ho : Orderly prog.rows) (addr : Nat) :
    (∃ row, RowFor prog.rows addr row ∧
      lines.findLocation addr = (lines.rowLocation (keptRow row)).map some) ∨
    ((∀ row, ¬ RowFor prog.rows addr row) ∧ lines.findLocation addr = .ok none) := by
  unfold Lines.findLocation
  rcases search_sequence hp ho addr with ⟨i, pos, seq, stop, start, h1, h2, h3, h4, h5, h6⟩ | ⟨⟨i, h1⟩, h2⟩
  · rw [h1]
    simp only [h2]
    obtain ⟨k1, k2, k3⟩ := kept_spec seq (ho.ascending _ _ _ h3)
    rw [show (seqOf (pos, seq, stop)).rows = kept seq from rfl]
    rcases search_row (kept seq) k1 addr with ⟨idx, row, r1, r2, r3⟩ | ⟨r1, r2⟩
    · rw [r1]
      simp only [r2]
      obtain ⟨row', l1, l2, q1, q2, q3, q4⟩ := (k3 addr row).mp r3
      refine .inl ⟨row', ⟨pos, seq, stop, start, l1, l2, h3, h4, h5, h6, q2, q3, q4⟩, ?_⟩
      rw [q1]
    · -- the first row is at the start of the sequence
      exfalso
      obtain ⟨r, rest, s1, s2⟩ := h4
      obtain ⟨y, y1, y2⟩ := kept_head r rest
      rw [← s1] at y1
      have : y ∈ kept seq := List.mem_of_mem_head? (by rw [y1]; rfl)
      have := r2 y this
      omega
  · rw [h1]
    refine .inr ⟨?_, rfl⟩
    rintro row ⟨pos, seq, stop, start, pre, post, q1, q2, q3, q4, _⟩
    exact h2 pos seq stop start q1 q2 ⟨q3, q4⟩

/-- There is at most one row in effect. -/
theorem rowFor_unique {rows : List Row} (ho : Orderly rows) {addr : Nat} {r₁ r₂ : Row}
    (h₁ : RowFor rows addr r₁) (h₂ : RowFor rows addr r₂) : r₁ = r₂ := by
  obtain ⟨p, q, e, s, a, b, h1, h2, h3, h4, h5, h6, h7⟩ := h₁
  obtain ⟨p', q', e', s', a', b', k1, k2, k3, k4, k5, k6, k7⟩ := h₂
  have hpp : p = p' := by
    by_contra hne
    have := ho.disjoint _ _ _ _ _ _ _ _ h1 h2 k1 k2 hne
    omega
  subst hpp
  have m1 := (runs_iff _ _ _ _).mpr h1
  have m2 := (runs_iff _ _ _ _).mpr k1
  have hqq : q = q' := by
    have hd := List.pairwise_iff_getElem.mp (runs_distinct rows 0 [])
    obtain ⟨i, hi, ei⟩ := List.mem_iff_getElem.mp m1
    obtain ⟨j, hj, ej⟩ := List.mem_iff_getElem.mp m2
    rcases Nat.lt_trichotomy i j with h | h | h
    · have := hd i j hi hj h
      rw [ei, ej] at this; exact absurd rfl this
    · subst h; rw [ei] at ej
      exact congrArg (fun x => x.2.1) ej
    · have := hd j i hj hi h
      rw [ei, ej] at this; exact absurd rfl this
  subst hqq
  rw [h5] at k5
  have hlt : ∀ (a b a' b' : List Row) (r r' : Row), a ++ r :: b = a' ++ r' :: b' → r'.address ≤ addr →
      (∀ x ∈ b, addr < x.address) → a'.length ≤ a.length := by
    intro a b a' b' r r' he hr hb
    by_contra hcon
    have hi : (a ++ r :: b)[a'.length]? = some r' := by rw [he]; simp
    rw [List.getElem?_append_right (by omega)] at hi
    obtain ⟨j, hj⟩ : ∃ j, a'.length - a.length = j + 1 := ⟨a'.length - a.length - 1, by omega⟩
    rw [hj, List.getElem?_cons_succ] at hi
    have := hb r' (List.mem_of_getElem? hi)
    omega
  have l1 := hlt _ _ _ _ _ _ k5 k6 h7
  have l2 := hlt _ _ _ _ _ _ k5.symm h6 k7
  have := List.append_inj k5 (by omega)
  exact (List.cons.inj this.2).1

/-- **C37**: the location of an address is that of the last row not above it in the sequence that
contains the address: the file of the row, its line unless it has none, and then its column.
Partial: empty sequences, huge lines and unknown files, for which it is false (`C37_empty_sequence_wrong`, `C37_huge_line_wrong`, `C37_file_wrong`). -/
theorem C37_location_partial {σ : Sorter} {compDir : Option Bytes} {prog : LineProgram} {lines : Lines}
    (hp : parseLines σ compDir prog = .ok lines) (ho : Orderly prog.rows) {addr : Nat} {row : Row}
    (hr : RowFor prog.rows addr row) (hl : row.line < 2 ^ 32) (hc : row.column < 2 ^ 32)
    {dir name : Bytes} (hf : FileIs compDir prog row.fileIndex dir name) :
    lines.findLocation addr = .ok (some
      { dir, file := name, line := if row.line = 0 then none else some row.line,
        column := if row.line = 0 then none else some row.column }) := by
  rcases findLocation_eq hp ho addr with ⟨row', h1, h2⟩ | ⟨h1, _⟩
  · rw [h2, rowFor_unique ho h1 hr]
    obtain ⟨_, _, _, _, hfiles⟩ := parseLines_ok hp
    unfold Lines.rowLocation
    rw [show (keptRow row).fileIndex = row.fileIndex from rfl, (hfiles _ _ _).mpr hf]
    have e1 : (keptRow row).line = row.line := Nat.mod_eq_of_lt hl
    have e2 : (keptRow row).column = row.column := Nat.mod_eq_of_lt hc
    simp only [e1, e2, Except.map, ne_eq, ite_not]
  · exact absurd hr (h1 row)

/-- **C37**: an address outside of all sequences has no location. -/
theorem C37_outside {σ : Sorter} {compDir : Option Bytes} {prog : LineProgram} {lines : Lines}
    (hp : parseLines σ compDir prog = .ok lines) (ho : Orderly prog.rows) {addr : Nat}
    (hout : ∀ pos seq stop start, SequenceAt prog.rows pos seq stop → StartsAt seq start →
      ¬ (start ≤ addr ∧ addr < stop)) :
    lines.findLocation addr = .ok none := by
  rcases findLocation_eq hp ho addr with ⟨row, ⟨pos, seq, stop, start, _, _, q1, q2, q3, q4, _⟩, _⟩ | ⟨_, h⟩
  · exact absurd ⟨q3, q4⟩ (hout pos seq stop start q1 q2)
  · exact h

/-- **C37**: every address in a sequence has a row in effect, and only one. -/
theorem C37_covered {rows : List Row} (ho : Orderly rows) {pos : Nat} {seq : List Row} {stop start : Nat}
    (hs : SequenceAt rows pos seq stop) (hst : StartsAt seq start) {addr : Nat} (h1 : start ≤ addr)
    (h2 : addr < stop) : ∃! row, RowFor rows addr row := by
  obtain ⟨r, rest, hseq, hr⟩ := hst
  obtain ⟨k1, _, k3⟩ := kept_spec seq (ho.ascending _ _ _ hs)
  rcases search_row (kept seq) k1 addr with ⟨_, kr, _, _, r3⟩ | ⟨_, r2⟩
  · obtain ⟨row, l1, l2, _, q2, q3, q4⟩ := (k3 addr kr).mp r3
    have hrow : RowFor rows addr row := ⟨pos, seq, stop, start, l1, l2, hs, ⟨r, rest, hseq, hr⟩, h1, h2, q2, q3, q4⟩
    exact ⟨row, hrow, fun y hy => rowFor_unique ho hy hrow⟩
  · exfalso
    obtain ⟨y, y1, y2⟩ := kept_head r rest
    rw [← hseq] at y1
    have := r2 y (List.mem_of_mem_head? (by rw [y1]; rfl))
    omega

theorem bisect_lt (cmp : Nat → Ordering) (n : Nat) (h : 0 < n) : bisect cmp 0 n < n := by
  have := bisect_range cmp 0 n h; omega

/-- A position found by a binary search is valid, whatever the list. -/
theorem search_inl {α : Type} {l : List α} {cmp : α → Ordering} {i : Nat}
    (h : binarySearchBy l cmp = .inl i) : ∃ a, l[i]? = some a := by
  cases l with
  | nil => simp [binarySearchBy] at h
  | cons a t =>
    have hb := bisect_lt (cmpAt (a :: t) cmp) (a :: t).length (by simp)
    unfold binarySearchBy at h
    simp only at h
    split at h
    · cases h; exact ⟨_, List.getElem?_eq_getElem hb⟩
    · cases h
    · cases h

theorem search_inr {α : Type} {l : List α} {cmp : α → Ordering} {i : Nat}
    (h : binarySearchBy l cmp = .inr i) : i ≤ l.length := by
  cases l with
  | nil => simp [binarySearchBy] at h; omega
  | cons a t =>
    have hb := bisect_lt (cmpAt (a :: t) cmp) (a :: t).length (by simp)
    unfold binarySearchBy at h
    simp only at h
    split at h
    · cases h
    · cases h; omega
    · cases h; omega

theorem kept_mem (rows : List Row) : ∀ kr ∈ kept rows, ∃ r ∈ rows, kr.fileIndex = r.fileIndex := by
  have : ∀ (n : Nat) (rows : List Row), rows.length = n →
      ∀ kr ∈ kept rows, ∃ r ∈ rows, kr.fileIndex = r.fileIndex := by
    intro n
    induction n with
    | zero =>
      intro rows hl kr hkr
      have : rows = [] := by simpa using hl
      subst this; simp [kept] at hkr
    | succ n ih =>
      intro rows hl kr hkr
      have hne : rows ≠ [] := by intro h; subst h; simp at hl
      rw [← List.dropLast_concat_getLast hne] at hkr ⊢
      rw [kept_append] at hkr
      have hi := ih rows.dropLast (by simp; omega)
      have hold : kr ∈ kept rows.dropLast → ∃ r ∈ rows.dropLast ++ [rows.getLast hne],
          kr.fileIndex = r.fileIndex := by
        intro h; obtain ⟨r, hr, he⟩ := hi kr h; exact ⟨r, by simp [hr], he⟩
      by_cases hk : kept rows.dropLast = []
      · rw [hk, pushRow_none, List.mem_singleton] at hkr
        exact ⟨rows.getLast hne, by simp, by rw [hkr]; rfl⟩
      · obtain ⟨kl, x, hx⟩ : ∃ kl x, kept rows.dropLast = kl ++ [x] :=
          ⟨_, _, (List.dropLast_concat_getLast hk).symm⟩
        rw [hx, pushRow_some] at hkr
        have hnew : kr = keptRow (rows.getLast hne) → ∃ r ∈ rows.dropLast ++ [rows.getLast hne],
          kr.fileIndex = r.fileIndex := fun h => ⟨rows.getLast hne, by simp, by rw [h]; rfl⟩
        split at hkr
        · rcases List.mem_append.mp hkr with h | h
          · exact hold (by rw [hx]; simp [h])
          · exact hnew (List.mem_singleton.mp h)
        · simp only [List.mem_append, List.mem_cons, List.not_mem_nil, or_false] at hkr
          rcases hkr with h | h | h
          · exact hold (by rw [hx]; simp [h])
          · exact hold (by rw [hx]; simp [h])
          · exact hnew h
  exact this _ rows rfl

/-- **C37** (no panics): if all rows refer to files of the line program, then the search for a location
never panics or fails, however the rows and sequences are arranged. -/
theorem C37_no_panic {σ : Sorter} {compDir : Option Bytes} {prog : LineProgram} {lines : Lines}
    (hp : parseLines σ compDir prog = .ok lines)
    (hfiles : ∀ r ∈ prog.rows, r.endSequence = false → r.fileIndex ≤ prog.files.length) (addr : Nat) :
    ∃ loc, lines.findLocation addr = .ok loc := by
  obtain ⟨_, hperm, _, hlen, _⟩ := parseLines_ok hp
  unfold Lines.findLocation
  cases hb : binarySearchBy lines.sequences (sequenceCmp addr) with
  | inr i => exact ⟨none, rfl⟩
  | inl i =>
    obtain ⟨s, hs⟩ := search_inl hb
    simp only [hs]
    have hrow : ∀ kr ∈ s.rows, ∃ loc, (lines.rowLocation kr).map some = .ok loc := by
      intro kr hkr
      obtain ⟨x, hx, rfl⟩ := List.mem_map.mp (hperm.mem_iff.mp (List.mem_of_getElem? hs))
      obtain ⟨r, hr, he⟩ := kept_mem _ kr hkr
      obtain ⟨before, last, after, q1, _, _, q4, _⟩ := (runs_iff _ _ _ _).mp hx
      have h1 := hfiles r (by rw [q1]; simp [hr]) (q4 r hr)
      unfold Lines.rowLocation
      rw [he, List.getElem?_eq_getElem (by omega : r.fileIndex < lines.files.length)]
      exact ⟨_, rfl⟩
    cases hb2 : binarySearchBy s.rows (fun row => compare row.address addr) with
    | inl x =>
      obtain ⟨kr, hkr⟩ := search_inl hb2
      simp only [atOrBefore, hkr]
      exact hrow kr (List.mem_of_getElem? hkr)
    | inr x =>
      cases x with
      | zero => exact ⟨none, rfl⟩
      | succ x =>
        have := search_inr hb2
        have hkr : s.rows[x]? = some s.rows[x] := by simp [show x < s.rows.length by omega]
        simp only [atOrBefore, hkr]
        exact hrow _ (List.mem_of_getElem? hkr)

/-- **C37** does not hold for rows that refer to a file the line program does not have: the search
panics (`src/dwarf/lines.rs:167`). -/
theorem C37_file_wrong {σ : Sorter} {compDir : Option Bytes} {prog : LineProgram} {lines : Lines}
    (hp : parseLines σ compDir prog = .ok lines) (ho : Orderly prog.rows) {addr : Nat} {row : Row}
    (hr : RowFor prog.rows addr row) (hf : prog.files.length < row.fileIndex) :
    lines.findLocation addr = .error .panic := by
  rcases findLocation_eq hp ho addr with ⟨row', h1, h2⟩ | ⟨h1, _⟩
  · rw [h2, rowFor_unique ho h1 hr]
    obtain ⟨_, _, _, hlen, _⟩ := parseLines_ok hp
    unfold Lines.rowLocation
    rw [show (keptRow row).fileIndex = row.fileIndex from rfl,
      List.getElem?_eq_none (by omega : lines.files.length ≤ row.fileIndex)]
    rfl
  · exact absurd hr (h1 row)

/-! ### Examples -/

/-- A program with two sequences; two rows of the first are at the same address. -/
def exRows : List Row :=
  [⟨0x30, 1, 9, 3, false⟩, ⟨0x40, 1, 0, 0, true⟩,
   ⟨0x10, 1, 5, 0, false⟩, ⟨0x14, 1, 6, 2, false⟩, ⟨0x14, 2, 7, 4, false⟩, ⟨0x20, 1, 0, 0, true⟩]

/-- Files are `/src/a.c` and `/usr/include/b.h`. -/
def exProg : LineProgram :=
  { rows := exRows, fail := none, file0 := none,
    files := [⟨0, none, .ok (ascii "a.c")⟩, ⟨1, some (.ok (ascii "/usr/include")), .ok (ascii "b.h")⟩] }

theorem runs_to {rows : List Row} {l : List (Nat × List Row × Nat)} (h : runs 0 [] rows = l) (p : Nat)
    (seq : List Row) (stop : Nat) : SequenceAt rows p seq stop ↔ (p, seq, stop) ∈ l := by
  rw [← runs_iff, h]

theorem exRows_orderly : Orderly exRows := by
  have hr := runs_to (rows := exRows) (l := [(0, [⟨0x30, 1, 9, 3, false⟩], 0x40),
    (2, [⟨0x10, 1, 5, 0, false⟩, ⟨0x14, 1, 6, 2, false⟩, ⟨0x14, 2, 7, 4, false⟩], 0x20)]) (by decide)
  constructor
  · intro pos seq stop h
    rw [hr] at h
    simp only [List.mem_cons, Prod.mk.injEq, List.not_mem_nil, or_false] at h
    rcases h with ⟨_, rfl, _⟩ | ⟨_, rfl, _⟩ <;> simp
  · intro pos seq stop start h ⟨r, rest, h1, h2⟩
    rw [hr] at h
    simp only [List.mem_cons, Prod.mk.injEq, List.not_mem_nil, or_false] at h
    rcases h with ⟨_, rfl, rfl⟩ | ⟨_, rfl, rfl⟩ <;>
      (simp only [List.cons.injEq] at h1; rw [← h2, ← h1.1]; simp)
  · intro p₁ q₁ e₁ s₁ p₂ q₂ e₂ s₂ h ⟨r, rest, h1, h2⟩ h' ⟨r', rest', h1', h2'⟩ hne
    rw [hr] at h h'
    simp only [List.mem_cons, Prod.mk.injEq, List.not_mem_nil, or_false] at h h'
    rcases h with ⟨rfl, rfl, rfl⟩ | ⟨rfl, rfl, rfl⟩ <;> rcases h' with ⟨rfl, rfl, rfl⟩ | ⟨rfl, rfl, rfl⟩
    · exact absurd rfl hne
    · simp only [List.cons.injEq] at h1 h1'
      rw [← h2, ← h2', ← h1.1, ← h1'.1]; simp
    · simp only [List.cons.injEq] at h1 h1'
      rw [← h2, ← h2', ← h1.1, ← h1'.1]; simp
    · exact absurd rfl hne

/-- The hypotheses of `C37_location_partial` and `C37_outside` are met: the later of the two rows at `0x14`
counts, and `0x25` is in no sequence. -/
example (σ : Sorter) : ∃ lines, parseLines σ (some (ascii "/src")) exProg = .ok lines ∧
    lines.findLocation 0x15 = .ok (some ⟨ascii "/usr/include", ascii "b.h", some 7, some 4⟩) ∧
    lines.findLocation 0x25 = .ok none := by
  obtain ⟨lines, hp⟩ := (C37_accepted σ (some (ascii "/src")) exProg).mpr ⟨rfl, by
    rintro f (h | h)
    · cases h
    · simp only [exProg, List.mem_cons, List.not_mem_nil, or_false] at h
      rcases h with rfl | rfl
      · exact ⟨⟨_, rfl⟩, fun h => absurd rfl h⟩
      · refine ⟨⟨_, rfl⟩, fun _ d hd => ?_⟩
        simp only [Option.some.injEq] at hd
        exact ⟨_, hd.symm⟩⟩
  have hr := runs_to (rows := exRows) (l := [(0, [⟨0x30, 1, 9, 3, false⟩], 0x40),
    (2, [⟨0x10, 1, 5, 0, false⟩, ⟨0x14, 1, 6, 2, false⟩, ⟨0x14, 2, 7, 4, false⟩], 0x20)]) (by decide)
  refine ⟨lines, hp, ?_, ?_⟩
  · exact C37_location_partial hp exRows_orderly (row := ⟨0x14, 2, 7, 4, false⟩)
      ⟨2, _, 0x20, 0x10, [⟨0x10, 1, 5, 0, false⟩, ⟨0x14, 1, 6, 2, false⟩], [], (hr _ _ _).mpr (List.mem_cons_of_mem _ List.mem_cons_self),
        ⟨_, _, rfl, rfl⟩, by decide, by decide,
        rfl, by decide, by simp⟩
      (by decide) (by decide) (dir := ascii "/usr/include") (name := ascii "b.h")
      ⟨_, rfl, by simp [DirIs, resolved, show (ascii "/usr/include").head? = some 47 from by decide +kernel], rfl⟩
  · refine C37_outside hp exRows_orderly ?_
    rintro pos seq stop start h ⟨r, rest, h1, h2⟩
    rw [show exProg.rows = exRows from rfl, hr] at h
    simp only [List.mem_cons, Prod.mk.injEq, List.not_mem_nil, or_false] at h
    rcases h with ⟨_, rfl, rfl⟩ | ⟨_, rfl, rfl⟩ <;>
      (simp only [List.cons.injEq] at h1; rw [← h2, ← h1.1]; simp)

/-- **C37** does not hold for lines above `u32::MAX`: their high bits are dropped.  Here, line
`2^32 + 7` is reported as line 7 (`src/dwarf/lines.rs:124`). -/
theorem C37_huge_line_wrong (σ : Sorter) : ∃ prog lines, parseLines σ none prog = .ok lines ∧
    Orderly prog.rows ∧ RowFor prog.rows 0x10 ⟨0x10, 0, 2 ^ 32 + 7, 0, false⟩ ∧
    lines.findLocation 0x10 = .ok (some ⟨[], [], some 7, some 0⟩) := by
  obtain ⟨prog, hprog⟩ : ∃ prog : LineProgram, prog =
    { rows := [⟨0x10, 0, 2 ^ 32 + 7, 0, false⟩, ⟨0x20, 0, 0, 0, true⟩], fail := none, file0 := none, files := [] } :=
    ⟨_, rfl⟩
  obtain ⟨lines, hp⟩ := (C37_accepted σ none prog).mpr ⟨by rw [hprog], by
    rintro f (h | h)
    · rw [hprog] at h; cases h
    · rw [hprog] at h; cases h⟩
  have hr := runs_to (rows := prog.rows) (l := [(0, [⟨0x10, 0, 2 ^ 32 + 7, 0, false⟩], 0x20)])
    (by rw [hprog]; decide)
  have ho : Orderly prog.rows := by
    constructor
    · intro pos seq stop h
      rw [hr] at h
      simp only [List.mem_cons, Prod.mk.injEq, List.not_mem_nil, or_false] at h
      rcases h with ⟨_, rfl, _⟩; simp
    · intro pos seq stop start h ⟨r, rest, h1, h2⟩
      rw [hr] at h
      simp only [List.mem_cons, Prod.mk.injEq, List.not_mem_nil, or_false] at h
      rcases h with ⟨_, rfl, rfl⟩
      simp only [List.cons.injEq] at h1; rw [← h2, ← h1.1]; simp
    · intro p₁ q₁ e₁ s₁ p₂ q₂ e₂ s₂ h _ h' _ hne
      rw [hr] at h h'
      simp only [List.mem_cons, Prod.mk.injEq, List.not_mem_nil, or_false] at h h'
      exact absurd (h.1.trans h'.1.symm) hne
  have hrow : RowFor prog.rows 0x10 ⟨0x10, 0, 2 ^ 32 + 7, 0, false⟩ :=
    ⟨0, _, 0x20, 0x10, [], [], (hr _ _ _).mpr List.mem_cons_self, ⟨_, _, rfl, rfl⟩, by decide, by decide,
      rfl, by decide, by simp⟩
  refine ⟨prog, lines, hp, ho, hrow, ?_⟩
  rcases findLocation_eq hp ho 0x10 with ⟨row', h1, h2⟩ | ⟨h1, _⟩
  · rw [h2, rowFor_unique ho h1 hrow]
    obtain ⟨_, _, _, _, hfiles⟩ := parseLines_ok hp
    unfold Lines.rowLocation
    rw [(hfiles _ [] []).mpr (by rw [hprog]; exact ⟨rfl, rfl⟩)]
    rfl
  · exact absurd hrow (h1 _)

/-- **C37** does not hold if there are empty sequences (and therefore `Orderly` excludes them): an
empty sequence at the start of another one can hide it.  Here, the row for `0x10` is in effect at
`0x18`, but no location is found (`src/dwarf/lines.rs:183-191`). -/
theorem C37_empty_sequence_wrong : ∃ (σ : Sorter) (prog : LineProgram) (lines : Lines),
    parseLines σ none prog = .ok lines ∧
    (∀ p₁ q₁ e₁ s₁ p₂ q₂ e₂ s₂, SequenceAt prog.rows p₁ q₁ e₁ → StartsAt q₁ s₁ →
      SequenceAt prog.rows p₂ q₂ e₂ → StartsAt q₂ s₂ → p₁ ≠ p₂ →
      ¬ ∃ a, (s₁ ≤ a ∧ a < e₁) ∧ (s₂ ≤ a ∧ a < e₂)) ∧
    RowFor prog.rows 0x18 ⟨0x10, 0, 5, 0, false⟩ ∧
    lines.findLocation 0x18 = .ok none := by
  obtain ⟨prog, hprog⟩ : ∃ prog : LineProgram, prog =
    { rows := [⟨0x10, 0, 5, 0, false⟩, ⟨0x20, 0, 0, 0, true⟩, ⟨0x10, 0, 6, 0, false⟩, ⟨0x10, 0, 0, 0, true⟩],
      fail := none, file0 := none, files := [] } := ⟨_, rfl⟩
  have hr := runs_to (rows := prog.rows) (l := [(0, [⟨0x10, 0, 5, 0, false⟩], 0x20),
    (2, [⟨0x10, 0, 6, 0, false⟩], 0x10)]) (by rw [hprog]; decide)
  refine ⟨mergeSorter, prog, ⟨[([], [])], [⟨0x10, 0x20, [⟨0x10, 0, 5, 0⟩]⟩, ⟨0x10, 0x10, [⟨0x10, 0, 6, 0⟩]⟩]⟩,
    ?_, ?_, ?_, ?_⟩
  · rw [hprog]
    unfold parseLines
    simp only [finish, firstFile, bind, Except.bind, List.mapM_nil, pure, Except.pure, Except.ok.injEq,
      Lines.mk.injEq, true_and]
    rw [show sequenceLoop _ [] [] = [⟨0x10, 0x20, [⟨0x10, 0, 5, 0⟩]⟩, ⟨0x10, 0x10, [⟨0x10, 0, 6, 0⟩]⟩] from by decide]
    exact List.mergeSort_of_pairwise (by simp)
  · intro p₁ q₁ e₁ s₁ p₂ q₂ e₂ s₂ h ⟨r, rest, h1, h2⟩ h' ⟨r', rest', h1', h2'⟩ hne
    rw [hr] at h h'
    simp only [List.mem_cons, Prod.mk.injEq, List.not_mem_nil, or_false] at h h'
    rcases h with ⟨rfl, rfl, rfl⟩ | ⟨rfl, rfl, rfl⟩ <;> rcases h' with ⟨rfl, rfl, rfl⟩ | ⟨rfl, rfl, rfl⟩
    · exact absurd rfl hne
    · simp only [List.cons.injEq] at h1 h1'
      rw [← h2, ← h2', ← h1.1, ← h1'.1]; simp only; omega
    · simp only [List.cons.injEq] at h1 h1'
      rw [← h2, ← h2', ← h1.1, ← h1'.1]; simp only; omega
    · exact absurd rfl hne
  · exact ⟨0, _, 0x20, 0x10, [], [], (hr _ _ _).mpr List.mem_cons_self, ⟨_, _, rfl, rfl⟩, by decide, by decide,
      rfl, by decide, by simp⟩
  · unfold Lines.findLocation binarySearchBy
    simp only [List.length_cons, List.length_nil]
    rw [bisect]
    rw [if_neg (by decide)]
    simp only
    rw [bisect, if_pos (by decide)]
    simp [cmpAt, sequenceCmp]

end Blazesym.Dwarf
