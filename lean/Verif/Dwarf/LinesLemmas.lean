import Verif.Dwarf.Lines
import Verif.Dwarf.LinesSpec
import Verif.Dwarf.Interval

/-! Lemmas about line tables. -/

set_option autoImplicit false

namespace Blazesym.Dwarf
open Blazesym.Util Blazesym.Spec.Dwarf

/-- The sequences of a program with their positions; `pre` are the rows of the sequence so far. -/
def runs : Nat → List Row → List Row → List (Nat × List Row × Nat)
  | _, _, [] => []
  | pos, pre, r :: rest =>
    if r.endSequence then
      if pre = [] then runs (pos + 1) [] rest
      else (pos, pre, r.address) :: runs (pos + pre.length + 1) [] rest
    else runs pos (pre ++ [r]) rest

/-- The rows of a sequence as they are kept. -/
def kept (rows : List Row) : List LineRow := rows.foldl pushRow []

theorem pushRow_head (l : List LineRow) (r : Row) (x : LineRow) (h : l.head? = some x) :
    ∃ y, (pushRow l r).head? = some y ∧ y.address = x.address := by
  unfold pushRow
  simp only
  cases hl : l.getLast? with
  | none => rw [List.getLast?_eq_none_iff] at hl; subst hl; simp at h
  | some last =>
    simp only
    split
    · cases l with
      | nil => simp at h
      | cons a t =>
        cases t with
        | nil =>
          simp only [List.head?_cons, Option.some.injEq] at h
          simp only [List.getLast?_singleton, Option.some.injEq] at hl
          subst h; subst hl
          exact ⟨_, rfl, rfl⟩
        | cons b t =>
          refine ⟨a, by simp, ?_⟩
          simp only [List.head?_cons, Option.some.injEq] at h
          rw [h]
    · exact ⟨x, by cases l with
        | nil => simp at h
        | cons a t => simpa using h, rfl⟩

theorem pushRow_ne (l : List LineRow) (r : Row) : pushRow l r ≠ [] := by
  unfold pushRow
  simp only
  split
  · split <;> simp
  · simp

theorem kept_append (rows : List Row) (r : Row) : kept (rows ++ [r]) = pushRow (kept rows) r := by
  unfold kept; rw [List.foldl_append]; rfl

theorem kept_ne {rows : List Row} (h : rows ≠ []) : kept rows ≠ [] := by
  rw [← List.dropLast_concat_getLast h, kept_append]
  exact pushRow_ne _ _

theorem kept_head (r : Row) (rest : List Row) :
    ∃ y, (kept (r :: rest)).head? = some y ∧ y.address = r.address := by
  have : ∀ (n : Nat) (l : List Row), l.length = n →
      ∃ y, (kept (r :: l)).head? = some y ∧ y.address = r.address := by
    intro n
    induction n with
    | zero =>
      intro l hl
      have : l = [] := by simpa using hl
      subst this
      exact ⟨_, rfl, rfl⟩
    | succ n ih =>
      intro l hl
      have hne : l ≠ [] := by intro h; subst h; simp at hl
      obtain ⟨y, h1, h2⟩ := ih l.dropLast (by simp; omega)
      obtain ⟨z, h3, h4⟩ := pushRow_head _ (l.getLast hne) _ h1
      refine ⟨z, ?_, by rw [h4, h2]⟩
      rw [← h3, ← kept_append, List.cons_append, List.dropLast_concat_getLast]
  exact this _ _ rfl

/-- A kept sequence. -/
def seqOf (x : Nat × List Row × Nat) : LineSequence :=
  { start := ((kept x.2.1).head?.map LineRow.address).getD 0, stop := x.2.2, rows := kept x.2.1 }

theorem sequenceLoop_eq (rows : List Row) : ∀ (pos : Nat) (pre : List Row) (acc : List LineSequence),
    sequenceLoop rows (kept pre) acc = acc ++ (runs pos pre rows).map seqOf := by
  induction rows with
  | nil => intro pos pre acc; simp [sequenceLoop, runs]
  | cons r rest ih =>
    intro pos pre acc
    rw [sequenceLoop, runs]
    by_cases he : r.endSequence = true
    · rw [if_pos he, if_pos he]
      by_cases hp : pre = []
      · rw [if_pos hp]; subst hp
        exact ih (pos + 1) [] acc
      · rw [if_neg hp]
        have hk := kept_ne hp
        cases hh : (kept pre).head? with
        | none => exact absurd (List.head?_eq_none_iff.mp hh) hk
        | some first =>
          simp only
          have := ih (pos + pre.length + 1) [] (acc ++ [⟨first.address, r.address, kept pre⟩])
          rw [show kept [] = [] from rfl] at this
          rw [this, List.map_cons, List.append_assoc, List.singleton_append]
          rw [show seqOf (pos, pre, r.address) = ⟨first.address, r.address, kept pre⟩ from by
            unfold seqOf; simp [hh]]
    · rw [if_neg he, if_neg he, ← kept_append]
      exact ih pos (pre ++ [r]) acc

theorem runs_pos (rows : List Row) : ∀ (pos : Nat) (pre : List Row) (x : Nat × List Row × Nat),
    x ∈ runs pos pre rows → pos ≤ x.1 := by
  induction rows with
  | nil => intro pos pre x h; simp [runs] at h
  | cons r rest ih =>
    intro pos pre x h
    rw [runs] at h
    split at h
    · split at h
      · have := ih _ _ _ h; omega
      · rcases List.mem_cons.mp h with h | h
        · subst h; simp
        · have := ih _ _ _ h; omega
    · exact ih _ _ _ h

theorem runs_distinct (rows : List Row) : ∀ (pos : Nat) (pre : List Row),
    (runs pos pre rows).Pairwise (fun a b => a.1 ≠ b.1) := by
  induction rows with
  | nil => intro pos pre; simp [runs]
  | cons r rest ih =>
    intro pos pre
    rw [runs]
    split
    · split
      · exact ih _ _
      · refine List.pairwise_cons.mpr ⟨?_, ih _ _⟩
        intro b hb
        have := runs_pos _ _ _ _ hb
        simp only; omega
    · exact ih _ _

theorem runs_mem (rows : List Row) : ∀ (pos : Nat) (pre : List Row)
    (_ : ∀ r ∈ pre, r.endSequence = false) (x : Nat × List Row × Nat),
    x ∈ runs pos pre rows → pos ≤ x.1 ∧ SequenceAt (pre ++ rows) (x.1 - pos) x.2.1 x.2.2 := by
  induction rows with
  | nil => intro pos pre _ x h; simp [runs] at h
  | cons r rest ih =>
    intro pos pre hpre x h
    rw [runs] at h
    split at h
    · rename_i he
      have later : ∀ n, (n = pos + pre.length + 1) → x ∈ runs n [] rest →
          pos ≤ x.1 ∧ SequenceAt (pre ++ r :: rest) (x.1 - pos) x.2.1 x.2.2 := by
        intro n hn hx
        obtain ⟨h0, before, last, after, h1, h2, h3, h4, h5, h6, h7⟩ := ih _ _ (by simp) x hx
        refine ⟨by omega, pre ++ r :: before, last, after, ?_, ?_, h3, h4, h5, h6, ?_⟩
        · simp only [List.nil_append] at h1
          rw [h1]; simp
        · simp only [List.length_append, List.length_cons]; omega
        · intro q hq
          rw [List.getLast?_append, List.getLast?_cons] at hq
          simp only [Option.some_or, Option.some.injEq] at hq
          cases hb : before.getLast? with
          | none => rw [hb] at hq; simp only [Option.getD_none] at hq; rw [← hq]; exact he
          | some y => rw [hb] at hq; simp only [Option.getD_some] at hq; rw [← hq]; exact h7 y hb
      split at h
      · rename_i hp; exact later _ (by rw [hp]; simp) h
      · rename_i hp
        rcases List.mem_cons.mp h with h | h
        · subst h
          exact ⟨by simp, [], r, rest, by simp, by simp, hp, hpre, he, rfl, by simp⟩
        · exact later _ rfl h
    · rename_i he
      have := ih pos (pre ++ [r]) (by
        intro q hq
        rcases List.mem_append.mp hq with h | h
        · exact hpre q h
        · rw [List.mem_singleton.mp h]; simpa using he) x h
      simpa using this

theorem mem_runs (rows : List Row) : ∀ (pos : Nat) (pre : List Row)
    (_ : ∀ r ∈ pre, r.endSequence = false) (p : Nat) (seq : List Row) (stop : Nat),
    SequenceAt (pre ++ rows) p seq stop → (pos + p, seq, stop) ∈ runs pos pre rows := by
  induction rows with
  | nil =>
    intro pos pre hpre p seq stop h
    obtain ⟨before, last, after, h1, _, _, _, h5, _⟩ := h
    have : last ∈ pre := by
      rw [List.append_nil] at h1; rw [h1]; simp
    rw [hpre last this] at h5; cases h5
  | cons r rest ih =>
    intro pos pre hpre p seq stop h
    rw [runs]
    by_cases he : r.endSequence = true
    · rw [if_pos he]
      obtain ⟨before, last, after, h1, h2, h3, h4, h5, h6, h7⟩ := h
      have key : (before = [] ∧ seq = pre ∧ last = r) ∨ ∃ b', before = pre ++ r :: b' := by
        -- compare the two decompositions
        have hE : ∀ (l : List Row) (z : Row) (t : List Row), pre ++ r :: rest = l ++ z :: t →
            z.endSequence = true → (l = pre ∧ z = r) ∨ ∃ b, l = pre ++ r :: b := by
          intro l z t heq hz
          rw [List.append_eq_append_iff] at heq
          rcases heq with ⟨a, ha1, ha2⟩ | ⟨c, hc1, hc2⟩
          · cases a with
            | nil =>
              simp only [List.append_nil] at ha1
              simp only [List.nil_append, List.cons.injEq] at ha2
              exact .inl ⟨ha1, ha2.1.symm⟩
            | cons y a =>
              simp only [List.cons_append, List.cons.injEq] at ha2
              exact .inr ⟨a, by rw [ha1, ← ha2.1]⟩
          · cases c with
            | nil =>
              simp only [List.append_nil] at hc1
              simp only [List.nil_append, List.cons.injEq] at hc2
              exact .inl ⟨hc1.symm, hc2.1⟩
            | cons y c =>
              simp only [List.cons_append, List.cons.injEq] at hc2
              have : z ∈ pre := by rw [hc1, hc2.1]; simp
              rw [hpre z this] at hz; cases hz
        cases hb : before.getLast? with
        | none =>
          rw [List.getLast?_eq_none_iff] at hb
          subst hb
          rw [List.nil_append] at h1
          rcases hE seq last after h1 h5 with ⟨a, b⟩ | ⟨b, hb⟩
          · exact .inl ⟨rfl, a, b⟩
          · have : r ∈ seq := by rw [hb]; simp
            rw [h4 r this] at he; cases he
        | some z =>
          have hz := h7 z hb
          obtain ⟨bd, hbd⟩ : ∃ bd, before = bd ++ [z] := by
            have hne : before ≠ [] := by intro hh; subst hh; simp at hb
            refine ⟨before.dropLast, ?_⟩
            rw [List.getLast?_eq_some_getLast hne] at hb
            rw [← Option.some.inj hb, List.dropLast_concat_getLast]
          right
          have h1' : pre ++ r :: rest = bd ++ z :: (seq ++ last :: after) := by rw [h1, hbd]; simp
          rcases hE bd z _ h1' hz with ⟨a, b⟩ | ⟨b, hb'⟩
          · exact ⟨[], by rw [hbd, a, b]⟩
          · exact ⟨b ++ [z], by rw [hbd, hb']; simp⟩
      rcases key with ⟨k1, k2, k3⟩ | ⟨b', hb'⟩
      · subst k1; subst k2; subst k3; subst h6
        simp only [List.length_nil] at h2
        rw [if_neg h3, h2, Nat.add_zero]
        exact List.mem_cons_self
      · have hs : SequenceAt ([] ++ rest) b'.length seq stop := by
          refine ⟨b', last, after, ?_, rfl, h3, h4, h5, h6, ?_⟩
          · rw [hb'] at h1
            simp only [List.append_assoc, List.cons_append] at h1
            have := List.append_cancel_left h1
            simp only [List.cons.injEq, true_and] at this
            simpa using this
          · intro q hq
            refine h7 q ?_
            rw [hb', List.getLast?_append, List.getLast?_cons, hq]; rfl
        have hp : p = pre.length + 1 + b'.length := by rw [h2, hb']; simp; omega
        split
        · rename_i hpn
          have := ih (pos + 1) [] (by simp) _ _ _ hs
          rw [show pos + p = pos + 1 + b'.length from by rw [hp, hpn]; simp; omega]
          exact this
        · have := ih (pos + pre.length + 1) [] (by simp) _ _ _ hs
          rw [show pos + p = pos + pre.length + 1 + b'.length from by omega]
          exact List.mem_cons_of_mem _ this
    · rw [if_neg he]
      refine ih pos (pre ++ [r]) ?_ p seq stop (by simpa using h)
      intro q hq
      rcases List.mem_append.mp hq with h | h
      · exact hpre q h
      · rw [List.mem_singleton.mp h]; simpa using he

/-- The sequences of the program are those of the specification. -/
theorem runs_iff (rows : List Row) (p : Nat) (seq : List Row) (stop : Nat) :
    (p, seq, stop) ∈ runs 0 [] rows ↔ SequenceAt rows p seq stop := by
  constructor
  · intro h
    have := (runs_mem rows 0 [] (by simp) _ h).2
    simpa using this
  · intro h
    have := mem_runs rows 0 [] (by simp) p seq stop (by simpa using h)
    simpa using this

/-- The row kept for a row of the program. -/
def keptRow (r : Row) : LineRow :=
  { address := r.address, fileIndex := r.fileIndex, line := r.line % u32Size, column := r.column % u32Size }

theorem pushRow_none (r : Row) : pushRow [] r = [keptRow r] := rfl

theorem pushRow_some (l : List LineRow) (x : LineRow) (r : Row) :
    pushRow (l ++ [x]) r = if x.address = r.address then l ++ [keptRow r] else l ++ [x, keptRow r] := by
  unfold pushRow
  simp only [List.getLast?_append, List.getLast?_singleton, Option.some_or, List.dropLast_concat]
  split
  · rename_i h
    simp [keptRow, h]
  · simp [keptRow]

/-- For ascending rows, the kept rows are strictly ascending, and the last kept row not above an
address is the last row not above it. -/
theorem kept_spec (rows : List Row) (h : rows.Pairwise (fun a b => a.address ≤ b.address)) :
    (kept rows).Pairwise (fun a b => a.address < b.address) ∧
    ((kept rows).getLast? = rows.getLast?.map keptRow) ∧
    (∀ addr kr, (∃ l1 l2, kept rows = l1 ++ kr :: l2 ∧ kr.address ≤ addr ∧
        ∀ x ∈ l2, addr < x.address) ↔
      ∃ row l1 l2, kr = keptRow row ∧ rows = l1 ++ row :: l2 ∧ row.address ≤ addr ∧
        ∀ x ∈ l2, addr < x.address) := by
  have : ∀ (n : Nat) (rows : List Row), rows.length = n →
      rows.Pairwise (fun a b => a.address ≤ b.address) →
      (kept rows).Pairwise (fun a b => a.address < b.address) ∧
      ((kept rows).getLast? = rows.getLast?.map keptRow) ∧
      (∀ addr kr, (∃ l1 l2, kept rows = l1 ++ kr :: l2 ∧ kr.address ≤ addr ∧
          ∀ x ∈ l2, addr < x.address) ↔
        ∃ row l1 l2, kr = keptRow row ∧ rows = l1 ++ row :: l2 ∧ row.address ≤ addr ∧
          ∀ x ∈ l2, addr < x.address) := by
    intro n
    induction n with
    | zero =>
      intro rows hl _
      have : rows = [] := by simpa using hl
      subst this
      refine ⟨by simp [kept], by simp [kept], ?_⟩
      intro addr kr
      constructor
      · rintro ⟨l1, l2, h, _⟩; simp [kept] at h
      · rintro ⟨_, l1, l2, _, h, _⟩; simp at h
    | succ n ih =>
      intro rows hl hpw
      have hne : rows ≠ [] := by intro h; subst h; simp at hl
      obtain ⟨init, r, hr⟩ : ∃ init r, rows = init ++ [r] :=
        ⟨rows.dropLast, rows.getLast hne, (List.dropLast_concat_getLast hne).symm⟩
      subst hr
      rw [List.pairwise_append] at hpw
      obtain ⟨hp1, _, hp2⟩ := hpw
      have hp2 : ∀ a ∈ init, a.address ≤ r.address := fun a ha => hp2 a ha r (by simp)
      obtain ⟨i1, i2, i3⟩ := ih init (by simpa using hl) hp1
      rw [kept_append]
      -- facts about the kept prefix
      have hkaddr : ∀ x ∈ kept init, x.address ≤ r.address := by
        intro x hx
        obtain ⟨l1, l2, hsplit⟩ := List.mem_iff_append.mp hx
        have hlt : ∀ y ∈ l2, x.address < y.address := by
          rw [hsplit, List.pairwise_append] at i1
          exact fun y hy => (List.pairwise_cons.mp i1.2.1).1 y hy
        obtain ⟨row, m1, m2, q1, q2, _⟩ := (i3 x.address x).mp ⟨l1, l2, hsplit, le_refl _, hlt⟩
        rw [q1]; exact hp2 row (by rw [q2]; simp)
      by_cases hinit : init = []
      · subst hinit
        rw [show kept [] = [] from rfl, pushRow_none]
        refine ⟨by simp, by simp, ?_⟩
        intro addr kr
        constructor
        · rintro ⟨l1, l2, h, h1, h2⟩
          rw [List.singleton_eq_append_iff] at h
          rcases h with ⟨a, b⟩ | ⟨a, b⟩
          · simp only [List.cons.injEq] at b
            exact ⟨r, [], [], b.1, rfl, by rw [b.1] at h1; exact h1, by simp⟩
          · simp at b
        · rintro ⟨row, l1, l2, h0, h, h1, h2⟩
          rw [List.nil_append, List.singleton_eq_append_iff] at h
          rcases h with ⟨a, b⟩ | ⟨a, b⟩
          · simp only [List.cons.injEq] at b
            refine ⟨[], [], by rw [h0, b.1]; rfl, ?_, by simp⟩
            rw [h0]; exact h1
          · simp at b
      · have hk := kept_ne hinit
        obtain ⟨kl, x, hx⟩ : ∃ kl x, kept init = kl ++ [x] :=
          ⟨(kept init).dropLast, (kept init).getLast hk, (List.dropLast_concat_getLast hk).symm⟩
        have hxl : x = keptRow (init.getLast hinit) := by
          rw [hx, List.getLast?_eq_some_getLast hinit] at i2
          simpa using i2
        have hxaddr : x.address = (init.getLast hinit).address := by rw [hxl]; rfl
        rw [hx, pushRow_some]
        rw [hx] at i1
        rw [List.pairwise_append] at i1
        have hklx : ∀ y ∈ kl, y.address < x.address := fun y hy => i1.2.2 y hy x (by simp)
        have hxr : x.address ≤ r.address := hkaddr x (by rw [hx]; simp)
        -- the right hand side for `init ++ [r]`
        have rhs : ∀ addr kr, (∃ row l1 l2, kr = keptRow row ∧ init ++ [r] = l1 ++ row :: l2 ∧
            row.address ≤ addr ∧ ∀ x ∈ l2, addr < x.address) ↔
            (r.address ≤ addr ∧ kr = keptRow r) ∨ (addr < r.address ∧
              ∃ l1 l2, kept init = l1 ++ kr :: l2 ∧ kr.address ≤ addr ∧ ∀ x ∈ l2, addr < x.address) := by
          intro addr kr
          rw [i3]
          constructor
          · rintro ⟨row, l1, l2, h0, h1, h2, h3⟩
            rcases List.eq_nil_or_concat l2 with hl2 | ⟨l2', y, hl2⟩
            · subst hl2
              have := List.append_inj' h1 rfl
              have hrow : r = row := by simpa using this.2
              rw [← hrow] at h0 h2
              exact .inl ⟨h2, h0⟩
            · rw [List.concat_eq_append] at hl2
              subst hl2
              rw [← List.cons_append, ← List.append_assoc] at h1
              have := List.append_inj' h1 rfl
              have hy : r = y := by simpa using this.2
              subst hy
              exact .inr ⟨h3 r (by simp), row, l1, l2', h0, this.1, h2, fun z hz => h3 z (by simp [hz])⟩
          · rintro (⟨h1, h2⟩ | ⟨h1, row, l1, l2, h0, h2, h3, h4⟩)
            · exact ⟨r, init, [], h2, rfl, h1, by simp⟩
            · refine ⟨row, l1, l2 ++ [r], h0, by rw [h2]; simp, h3, ?_⟩
              intro z hz
              rcases List.mem_append.mp hz with h | h
              · exact h4 z h
              · rw [List.mem_singleton.mp h]; exact h1
        by_cases heq : x.address = r.address
        · rw [if_pos heq]
          refine ⟨?_, by simp, ?_⟩
          · rw [List.pairwise_append]
            refine ⟨i1.1, by simp, ?_⟩
            intro a ha b hb
            rw [List.mem_singleton.mp hb]
            have := hklx a ha
            simp only [keptRow]; omega
          · intro addr kr
            rw [rhs, hx]
            constructor
            · rintro ⟨l1, l2, h1, h2, h3⟩
              rcases List.eq_nil_or_concat l2 with hl2 | ⟨l2', y, hl2⟩
              · subst hl2
                have := List.append_inj' h1 rfl
                have hrow : keptRow r = kr := by simpa using this.2
                rw [← hrow] at h2
                exact .inl ⟨h2, hrow.symm⟩
              · rw [List.concat_eq_append] at hl2
                subst hl2
                rw [← List.cons_append, ← List.append_assoc] at h1
                have := List.append_inj' h1 rfl
                have hy : keptRow r = y := by simpa using this.2
                have h4 := h3 y (by simp)
                rw [← hy] at h4
                refine .inr ⟨h4, l1, l2' ++ [x], by rw [this.1]; simp, h2, ?_⟩
                intro z hz
                rcases List.mem_append.mp hz with h | h
                · exact h3 z (by simp [h])
                · rw [List.mem_singleton.mp h, heq]; exact h4
            · rintro (⟨h1, h2⟩ | ⟨h1, l1, l2, h2, h3, h4⟩)
              · exact ⟨kl, [], by rw [h2], by rw [h2]; exact h1, by simp⟩
              · rcases List.eq_nil_or_concat l2 with hl2 | ⟨l2', y, hl2⟩
                · subst hl2
                  have := List.append_inj' h2 rfl
                  have hxk : x = kr := by simpa using this.2
                  rw [← hxk] at h3; omega
                · rw [List.concat_eq_append] at hl2
                  subst hl2
                  rw [← List.cons_append, ← List.append_assoc] at h2
                  have := List.append_inj' h2 rfl
                  refine ⟨l1, l2' ++ [keptRow r], by rw [this.1]; simp, h3, ?_⟩
                  intro z hz
                  rcases List.mem_append.mp hz with h | h
                  · exact h4 z (by simp [h])
                  · rw [List.mem_singleton.mp h]; exact h1
        · rw [if_neg heq]
          have hlt : x.address < r.address := by omega
          rw [show kl ++ [x, keptRow r] = (kl ++ [x]) ++ [keptRow r] from by simp]
          refine ⟨?_, by simp, ?_⟩
          · rw [List.pairwise_append]
            refine ⟨List.pairwise_append.mpr i1, by simp, ?_⟩
            intro a ha b hb
            rw [List.mem_singleton.mp hb]
            simp only [keptRow]
            rcases List.mem_append.mp ha with h | h
            · have := hklx a h; omega
            · rw [List.mem_singleton.mp h]; exact hlt
          · intro addr kr
            rw [rhs, hx]
            constructor
            · rintro ⟨l1, l2, h1, h2, h3⟩
              rcases List.eq_nil_or_concat l2 with hl2 | ⟨l2', y, hl2⟩
              · subst hl2
                have := List.append_inj' h1 rfl
                have hrow : keptRow r = kr := by simpa using this.2
                rw [← hrow] at h2
                exact .inl ⟨h2, hrow.symm⟩
              · rw [List.concat_eq_append] at hl2
                subst hl2
                rw [← List.cons_append, ← List.append_assoc] at h1
                have := List.append_inj' h1 rfl
                have hy : keptRow r = y := by simpa using this.2
                have h4 := h3 y (by simp)
                rw [← hy] at h4
                exact .inr ⟨h4, l1, l2', this.1, h2, fun z hz => h3 z (by simp [hz])⟩
            · rintro (⟨h1, h2⟩ | ⟨h1, l1, l2, h2, h3, h4⟩)
              · exact ⟨kl ++ [x], [], by rw [h2], by rw [h2]; exact h1, by simp⟩
              · refine ⟨l1, l2 ++ [keptRow r], by rw [h2]; simp, h3, ?_⟩
                intro z hz
                rcases List.mem_append.mp hz with h | h
                · exact h4 z h
                · rw [List.mem_singleton.mp h]; exact h1
  exact this _ rows rfl h

end Blazesym.Dwarf
