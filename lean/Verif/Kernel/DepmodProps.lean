import Verif.Kernel.DepmodLemmas

/-! # C33: the depmod index -/

set_option autoImplicit false

namespace Blazesym.Kernel.Depmod
open Blazesym.Util Blazesym.Spec Blazesym.Spec.Depmod

theorem valuesAt_inner {d : Bytes} {ref next v : Nat} {first last : UInt8} (hk : Kids d ref next first last)
    (h : ValuesAt d ref next v) : v = next + 2 + 4 * (last.toNat - first.toNat + 1) := by
  rcases h with ⟨f, l, hk', _, rfl⟩ | ⟨h1, _⟩
  · obtain ⟨rfl, rfl⟩ := kids_unique hk hk'
    rfl
  · exact absurd hk.1 h1

/-- The result of the search from a node. -/
theorem visit_spec (d : Bytes) (fuel : Nat) : ∀ (ref : Nat) (name : Bytes), name.length < fuel →
    (∀ path, visit d fuel ref name = .ok (some path) ↔
      ∃ r next v, Leads d ref name r next ∧ ¬ BadRange d r next ∧ HasValues r ∧ ValuesAt d r next v ∧ PathAt d v path) ∧
    (visit d fuel ref name = .error .panic ↔ ∃ r next, Leads d ref name r next ∧ BadRange d r next) ∧
    (∀ e, visit d fuel ref name = .error e → e = .panic ∨ e = .invalidData) := by
  induction fuel with
  | zero => intro _ _ h; omega
  | succ fuel ih =>
    intro ref name hlen
    by_cases hnode : ∃ pre next, Node d ref pre next
    · obtain ⟨pre, next, hn⟩ := hnode
      by_cases hpre : pre <+: name
      · obtain ⟨rest, rfl⟩ := hpre
        simp only [leads_iff hn]
        cases rest with
        | nil =>
          rw [List.append_nil]
          have hno : ∀ (first last c : UInt8) (ref' : Nat) (rest : Bytes) (P : Prop),
              ¬ (pre = pre ++ c :: rest ∧ P) := by
            rintro _ _ c _ rest P ⟨h, _⟩
            have := congrArg List.length h
            simp at this
          by_cases hk : HasKids ref
          · by_cases hs : d[next]? = none ∨ d[next + 1]? = none
            · have hv := visit_kids_short fuel hn hk hs []
              rw [List.append_nil] at hv
              have hnk : ∀ f l, ¬ Kids d ref next f l := by
                rintro f l ⟨_, h1, h2⟩
                rw [h1, h2] at hs; simp at hs
              rw [hv]
              refine ⟨?_, ?_, by simp⟩
              · intro path
                simp only [reduceCtorEq, false_iff]
                rintro ⟨r, n, v, ⟨_, rfl, rfl⟩ | ⟨f, l, c, ref', rest, h, _⟩, _, _, h2, _⟩
                · rcases h2 with ⟨f, l, h2, _⟩ | ⟨h2, _⟩
                  · exact hnk f l h2
                  · exact h2 hk
                · exact absurd h (fun hh => hno f l c ref' rest True ⟨hh, trivial⟩)
              · simp only [Except.error.injEq, reduceCtorEq, false_iff]
                rintro ⟨r, n, ⟨_, rfl, rfl⟩ | ⟨f, l, c, ref', rest, h, _⟩, f', l', h2, _⟩
                · exact hnk f' l' h2
                · exact absurd h (fun hh => hno f l c ref' rest True ⟨hh, trivial⟩)
            · obtain ⟨first, last, hk'⟩ : ∃ first last, Kids d ref next first last := by
                cases h1 : d[next]? with
                | none => rw [h1] at hs; simp at hs
                | some f =>
                  cases h2 : d[next + 1]? with
                  | none => rw [h2] at hs; simp at hs
                  | some l => exact ⟨f, l, hk, h1, h2⟩
              by_cases hb : last < first ∨ last.toNat - first.toNat = 255
              · have hbad : BadRange d ref next := ⟨first, last, hk', hb⟩
                rw [visit_inner_bad fuel hn hk' hb]
                refine ⟨?_, ?_, by simp⟩
                · intro path
                  simp only [reduceCtorEq, false_iff]
                  rintro ⟨r, n, v, ⟨_, rfl, rfl⟩ | ⟨f, l, c, ref', rest, h, _⟩, hb', _⟩
                  · exact hb' hbad
                  · exact absurd h (fun hh => hno f l c ref' rest True ⟨hh, trivial⟩)
                · exact ⟨fun _ => ⟨ref, next, .inl ⟨rfl, rfl, rfl⟩, hbad⟩, fun _ => rfl⟩
              · have hbad : ¬ BadRange d ref next := by
                  rintro ⟨f, l, hk'', hb'⟩
                  obtain ⟨rfl, rfl⟩ := kids_unique hk' hk''
                  exact hb hb'
                have hpan : ¬ ∃ r n, (pre = pre ∧ r = ref ∧ n = next ∨
                    ∃ (first last c : UInt8) (ref' : Nat) (rest : Bytes), pre = pre ++ c :: rest ∧
                      Kids d ref next first last ∧ (first ≤ c ∧ c ≤ last) ∧
                      Be d (next + 2 + 4 * (c.toNat - first.toNat)) ref' ∧ Leads d ref' rest r n) ∧ BadRange d r n := by
                  rintro ⟨r, n, ⟨_, rfl, rfl⟩ | ⟨f, l, c, ref', rest, h, _⟩, h2⟩
                  · exact hbad h2
                  · exact absurd h (fun hh => hno f l c ref' rest True ⟨hh, trivial⟩)
                rcases visit_inner fuel hn hk' hb with ⟨hl, hv⟩ | ⟨hl, hv⟩
                · obtain ⟨s1, s2, _⟩ := values_spec d ref (next + 2 + 4 * (last.toNat - first.toNat + 1))
                  rw [hv]
                  refine ⟨?_, ?_, fun e he => .inr (s2 e he)⟩
                  · intro path
                    rw [s1]
                    constructor
                    · rintro ⟨h1, h2⟩
                      refine ⟨ref, next, _, .inl ⟨rfl, rfl, rfl⟩, hbad, h1, .inl ⟨first, last, hk', ?_, rfl⟩, h2⟩
                      rw [UInt8.lt_iff_toNat_lt] at hb
                      rw [UInt8.le_iff_toNat_le]; omega
                    · rintro ⟨r, n, v, ⟨_, rfl, rfl⟩ | ⟨f, l, c, ref', rest, h, _⟩, _, h1, h2, h3⟩
                      · rw [valuesAt_inner hk' h2] at h3
                        exact ⟨h1, h3⟩
                      · exact absurd h (fun hh => hno f l c ref' rest True ⟨hh, trivial⟩)
                  · refine ⟨fun he => ?_, fun h => absurd h hpan⟩
                    have := s2 _ he
                    simp at this
                · rw [hv]
                  refine ⟨?_, ?_, by simp⟩
                  · intro path
                    simp only [reduceCtorEq, false_iff]
                    rintro ⟨r, n, v, ⟨_, rfl, rfl⟩ | ⟨f, l, c, ref', rest, h, _⟩, _, h1, h2, m, h3, _⟩
                    · rw [valuesAt_inner hk' h2] at h3
                      have := be_len h3
                      omega
                    · exact absurd h (fun hh => hno f l c ref' rest True ⟨hh, trivial⟩)
                  · refine ⟨fun he => by simp at he, fun h => absurd h hpan⟩
          · obtain ⟨s1, s2, _⟩ := values_spec d ref next
            rw [visit_leaf fuel hn hk]
            refine ⟨?_, ?_, fun e he => .inr (s2 e he)⟩
            · intro path
              rw [s1]
              constructor
              · rintro ⟨h1, h2⟩
                exact ⟨ref, next, next, .inl ⟨rfl, rfl, rfl⟩, fun ⟨f, l, h, _⟩ => hk h.1, h1, .inr ⟨hk, rfl⟩, h2⟩
              · rintro ⟨r, n, v, ⟨_, rfl, rfl⟩ | ⟨f, l, c, ref', rest, h, _⟩, _, h1, h2, h3⟩
                · rcases h2 with ⟨f, l, h2, _⟩ | ⟨_, rfl⟩
                  · exact absurd h2.1 hk
                  · exact ⟨h1, h3⟩
                · exact absurd h (fun hh => hno f l c ref' rest True ⟨hh, trivial⟩)
            · refine ⟨fun he => ?_, ?_⟩
              · have := s2 _ he
                simp at this
              · rintro ⟨r, n, ⟨_, rfl, rfl⟩ | ⟨f, l, c, ref', rest, h, _⟩, f', l', h2, _⟩
                · exact absurd h2.1 hk
                · exact absurd h (fun hh => hno f l c ref' rest True ⟨hh, trivial⟩)
        | cons c rest =>
          have hno : ¬ (pre ++ c :: rest = pre) := by
            intro h
            have := congrArg List.length h
            simp at this
          have hinj : ∀ c' rest', pre ++ c :: rest = pre ++ c' :: rest' → c = c' ∧ rest = rest' := by
            intro c' rest' h
            have := List.append_cancel_left h
            simpa using this
          by_cases hk : HasKids ref
          · by_cases hs : d[next]? = none ∨ d[next + 1]? = none
            · have hnk : ∀ f l, ¬ Kids d ref next f l := by
                rintro f l ⟨_, h1, h2⟩
                rw [h1, h2] at hs; simp at hs
              rw [visit_kids_short fuel hn hk hs]
              refine ⟨?_, ?_, by simp⟩
              · intro path
                simp only [reduceCtorEq, false_iff]
                rintro ⟨r, n, v, ⟨h, _⟩ | ⟨f, l, c, ref', rest, _, h, _⟩, _⟩
                · exact hno h
                · exact hnk f l h
              · simp only [Except.error.injEq, reduceCtorEq, false_iff]
                rintro ⟨r, n, ⟨h, _⟩ | ⟨f, l, c, ref', rest, _, h, _⟩, _⟩
                · exact hno h
                · exact hnk f l h
            · obtain ⟨first, last, hk'⟩ : ∃ first last, Kids d ref next first last := by
                cases h1 : d[next]? with
                | none => rw [h1] at hs; simp at hs
                | some f =>
                  cases h2 : d[next + 1]? with
                  | none => rw [h2] at hs; simp at hs
                  | some l => exact ⟨f, l, hk, h1, h2⟩
              by_cases hc : first ≤ c ∧ c ≤ last
              · by_cases hr : ∃ r, Be d (next + 2 + 4 * (c.toNat - first.toNat)) r
                · obtain ⟨ref', hr⟩ := hr
                  have heq : ∀ r n, ((pre ++ c :: rest = pre ∧ r = ref ∧ n = next) ∨
                      ∃ (first last c_1 : UInt8) (ref' : Nat) (rest_1 : Bytes), pre ++ c :: rest = pre ++ c_1 :: rest_1 ∧
                        Kids d ref next first last ∧ (first ≤ c_1 ∧ c_1 ≤ last) ∧
                        Be d (next + 2 + 4 * (c_1.toNat - first.toNat)) ref' ∧ Leads d ref' rest_1 r n) ↔
                      Leads d ref' rest r n := by
                    intro r n
                    constructor
                    · rintro (⟨h, _⟩ | ⟨f, l, c', ref'', rest', h, h1, _, h3, h4⟩)
                      · exact absurd h hno
                      · obtain ⟨rfl, rfl⟩ := hinj _ _ h
                        obtain ⟨rfl, rfl⟩ := kids_unique hk' h1
                        rw [be_unique hr h3]
                        exact h4
                    · intro h
                      exact .inr ⟨first, last, c, ref', rest, rfl, hk', hc, hr, h⟩
                  simp only [heq]
                  rw [visit_child fuel hn hk' hc hr]
                  refine ih ref' rest ?_
                  simp at hlen
                  omega
                · have hr' : ∀ r, ¬ Be d (next + 2 + 4 * (c.toNat - first.toNat)) r := fun r h => hr ⟨r, h⟩
                  rw [visit_child_short fuel hn hk' hc hr']
                  refine ⟨?_, ?_, by simp⟩
                  · intro path
                    simp only [reduceCtorEq, false_iff]
                    rintro ⟨r, n, v, ⟨h, _⟩ | ⟨f, l, c', ref', rest', h, h1, _, h3, _⟩, _⟩
                    · exact hno h
                    · obtain ⟨rfl, rfl⟩ := hinj _ _ h
                      obtain ⟨rfl, rfl⟩ := kids_unique hk' h1
                      exact hr' _ h3
                  · simp only [Except.error.injEq, reduceCtorEq, false_iff]
                    rintro ⟨r, n, ⟨h, _⟩ | ⟨f, l, c', ref', rest', h, h1, _, h3, _⟩, _⟩
                    · exact hno h
                    · obtain ⟨rfl, rfl⟩ := hinj _ _ h
                      obtain ⟨rfl, rfl⟩ := kids_unique hk' h1
                      exact hr' _ h3
              · rw [visit_out_of_range fuel hn hk' hc]
                refine ⟨?_, ?_, by simp⟩
                · intro path
                  simp only [Except.ok.injEq, reduceCtorEq, false_iff]
                  rintro ⟨r, n, v, ⟨h, _⟩ | ⟨f, l, c', ref', rest', h, h1, h2, _⟩, _⟩
                  · exact hno h
                  · obtain ⟨rfl, rfl⟩ := hinj _ _ h
                    obtain ⟨rfl, rfl⟩ := kids_unique hk' h1
                    exact hc h2
                · simp only [reduceCtorEq, false_iff]
                  rintro ⟨r, n, ⟨h, _⟩ | ⟨f, l, c', ref', rest', h, h1, h2, _⟩, _⟩
                  · exact hno h
                  · obtain ⟨rfl, rfl⟩ := hinj _ _ h
                    obtain ⟨rfl, rfl⟩ := kids_unique hk' h1
                    exact hc h2
          · rw [visit_leaf_more fuel hn hk]
            refine ⟨?_, ?_, by simp⟩
            · intro path
              simp only [Except.ok.injEq, reduceCtorEq, false_iff]
              rintro ⟨r, n, v, ⟨h, _⟩ | ⟨f, l, c', ref', rest', h, h1, _⟩, _⟩
              · exact hno h
              · exact hk h1.1
            · simp only [reduceCtorEq, false_iff]
              rintro ⟨r, n, ⟨h, _⟩ | ⟨f, l, c', ref', rest', h, h1, _⟩, _⟩
              · exact hno h
              · exact hk h1.1
      · have hnl : ∀ r n, ¬ Leads d ref name r n := by
          intro r n hl
          rw [leads_iff hn] at hl
          rcases hl with ⟨rfl, _⟩ | ⟨_, _, c, _, rest, rfl, _⟩
          · exact hpre (List.prefix_refl _)
          · exact hpre ⟨_, rfl⟩
        rw [visit_mismatch fuel hn hpre]
        refine ⟨?_, ?_, by simp⟩
        · intro path
          simp only [Except.ok.injEq, reduceCtorEq, false_iff]
          rintro ⟨r, n, v, h, _⟩
          exact hnl r n h
        · simp only [reduceCtorEq, false_iff]
          rintro ⟨r, n, h, _⟩
          exact hnl r n h
    · have hnn : ∀ pre next, ¬ Node d ref pre next := fun pre next h => hnode ⟨pre, next, h⟩
      rw [visit_no_node fuel hnn]
      refine ⟨?_, ?_, by simp⟩
      · intro path
        simp only [reduceCtorEq, false_iff]
        rintro ⟨r, n, v, h, _⟩
        exact hnode (leads_node h)
      · simp only [Except.error.injEq, reduceCtorEq, false_iff]
        rintro ⟨r, n, h, _⟩
        exact hnode (leads_node h)

theorem findPath_root (base d name : Bytes) :
    (∃ root, Be d 8 root ∧ findPath base d name =
      joined base (visit d (name.length + 1) root name)) ∨
    ((∀ root, ¬ Be d 8 root) ∧ findPath base d name = .error .invalidData) := by
  unfold findPath
  have h0 := need_advance d 0 8 (by omega)
  rw [List.drop_zero] at h0
  simp only [Nat.zero_add] at h0
  rcases h0 with ⟨h1, h2⟩ | ⟨h1, h2⟩
  · rw [h2]
    simp only
    rcases need_u32 d 8 with ⟨x, h3, h4⟩ | ⟨h3, h4⟩
    · rw [h3]
      simp only
      exact .inl ⟨_, h4, rfl⟩
    · rw [h3]
      right
      refine ⟨fun root h => ?_, rfl⟩
      have := be_len h; omega
  · rw [h2]
    right
    refine ⟨fun root h => ?_, rfl⟩
    have := be_len h; omega

/-- **C33** (soundness): the path reported for a module is the one stored in the index for exactly
that name, relative to the directory of the index. -/
theorem C33_sound (base d name p : Bytes) (h : findPath base d name = .ok (some p)) :
    ∃ root path, Be d 8 root ∧ Stored d root name path ∧ p = pathJoin base path := by
  rcases findPath_root base d name with ⟨root, h1, h2⟩ | ⟨_, h2⟩
  · rw [h2] at h
    unfold joined at h
    split at h
    · simp at h
    · simp at h
    · rename_i path hv
      obtain ⟨r, next, v, h3, _, h4, h5, h6⟩ := ((visit_spec d _ root name (by omega)).1 path).mp hv
      exact ⟨root, path, h1, ⟨r, next, v, h3, h4, h5, h6⟩, by simpa using h.symm⟩
  · rw [h2] at h; simp at h

/-- **C33** (completeness): a path stored in the index is found; the node must not have a child
for each of the 256 bytes. -/
theorem C33_complete (base d name path : Bytes) (root r next v : Nat) (h1 : Be d 8 root)
    (h2 : Leads d root name r next) (hb : ¬ BadRange d r next) (h3 : HasValues r) (h4 : ValuesAt d r next v)
    (h5 : PathAt d v path) : findPath base d name = .ok (some (pathJoin base path)) := by
  rcases findPath_root base d name with ⟨root', h1', h⟩ | ⟨h, _⟩
  · have := be_unique h1 h1'
    subst this
    rw [h, ((visit_spec d _ root name (by omega)).1 path).mpr ⟨r, next, v, h2, hb, h3, h4, h5⟩]
    rfl
  · exact absurd h1 (h root)

/-- **C33** (malformed indices): every lookup ends, with a result or an error.  It panics exactly
if the name ends at a node whose range of children is reversed or has all 256 bytes. -/
theorem C33_panics_iff (base d name : Bytes) :
    (findPath base d name = .error .panic ↔
      ∃ root r next, Be d 8 root ∧ Leads d root name r next ∧ BadRange d r next) ∧
    ∀ e, findPath base d name = .error e → e = .panic ∨ e = .invalidData := by
  rcases findPath_root base d name with ⟨root, h1, h⟩ | ⟨h1, h⟩
  · obtain ⟨_, s2, s3⟩ := visit_spec d (name.length + 1) root name (by omega)
    rw [h]
    constructor
    · constructor
      · intro he
        unfold joined at he
        split at he
        · rename_i e hv
          have : e = .panic := by simpa using he
          subst this
          obtain ⟨r, next, h2, h3⟩ := s2.mp hv
          exact ⟨root, r, next, h1, h2, h3⟩
        · simp at he
        · simp at he
      · rintro ⟨root', r, next, h1', h2, h3⟩
        have := be_unique h1 h1'
        subst this
        rw [s2.mpr ⟨r, next, h2, h3⟩]
        rfl
    · intro e he
      unfold joined at he
      split at he
      · rename_i e' hv
        have : e' = e := by simpa using he
        subst this
        exact s3 _ hv
      · simp at he
      · simp at he
  · rw [h]
    refine ⟨?_, by simp⟩
    simp only [Except.error.injEq, reduceCtorEq, false_iff]
    rintro ⟨root, _, _, h2, _⟩
    exact h1 root h2

theorem pathAt_unique {d : Bytes} {v : Nat} {p p' : Bytes} (h : PathAt d v p) (h' : PathAt d v p') : p = p' := by
  obtain ⟨_, _, _, r, _, h1, h2⟩ := h
  obtain ⟨_, _, _, r', _, h1', h2'⟩ := h'
  have e1 := position_append (p := fun b : UInt8 => b == 58) p 58 r (by simpa using h2) (by simp)
  have e2 := position_append (p := fun b : UInt8 => b == 58) p' 58 r' (by simpa using h2') (by simp)
  rw [← h1] at e1
  rw [← h1', e1] at e2
  have hl : p.length = p'.length := by simpa using e2
  have := congrArg (List.take p.length) (h1.symm.trans h1')
  rw [List.take_left] at this
  rw [this, hl, List.take_left]

theorem valuesAt_unique {d : Bytes} {r n v v' : Nat} (h : ValuesAt d r n v) (h' : ValuesAt d r n v') : v = v' := by
  rcases h with ⟨f, l, h1, _, rfl⟩ | ⟨h1, rfl⟩
  · exact (valuesAt_inner h1 h').symm
  · rcases h' with ⟨f, l, h1', _⟩ | ⟨_, rfl⟩
    · exact absurd h1'.1 h1
    · rfl

theorem has_iff {pre : Bytes} {first : Nat} {kids : List Trie} {val : Option Bytes} {name path : Bytes} :
    (Trie.node pre first kids val).Has name path ↔ (name = pre ∧ val = some path) ∨
      ∃ (i : Nat) (t : Trie) (c : UInt8) (rest : Bytes), name = pre ++ c :: rest ∧ kids[i]? = some t ∧
        c.toNat = first + i ∧ t.Has rest path := by
  constructor
  · intro h
    cases h with
    | here => exact .inl ⟨rfl, rfl⟩
    | child _ _ _ _ i t c rest _ h1 h2 h3 => exact .inr ⟨i, t, c, rest, rfl, h1, h2, h3⟩
  · rintro (⟨rfl, rfl⟩ | ⟨i, t, c, rest, rfl, h1, h2, h3⟩)
    · exact .here _ _ _ _
    · exact .child _ _ _ _ i t c rest path h1 h2 h3

/-- The search in a file that stores a trie. -/
theorem visit_trie (d : Bytes) (fuel : Nat) : ∀ (ref : Nat) (name : Bytes) (t : Trie), name.length < fuel →
    Encodes d ref t → ∃ o, visit d fuel ref name = .ok o ∧ ∀ path, o = some path ↔ t.Has name path := by
  induction fuel with
  | zero => intro _ _ _ h; omega
  | succ fuel ih =>
    intro ref name t hlen henc
    cases henc with
    | node _ pre next first kids refs val hn hkids hrl hrefs hsub hval hnone =>
    by_cases hpre : pre <+: name
    · obtain ⟨rest, rfl⟩ := hpre
      cases rest with
      | nil =>
        rw [List.append_nil]
        have hhas : ∀ path, (Trie.node pre first kids val).Has pre path ↔ val = some path := by
          intro path
          rw [has_iff]
          constructor
          · rintro (⟨_, h⟩ | ⟨i, t, c, rest, h, _⟩)
            · exact h
            · have := congrArg List.length h
              simp at this
          · exact fun h => .inl ⟨rfl, h⟩
        have hvals : ∀ v, ValuesAt d ref next v → v ≤ d.length → ∃ o, values ref (d.drop v) = .ok o ∧
            ∀ path, o = some path ↔ (Trie.node pre first kids val).Has pre path := by
          intro v hv _
          obtain ⟨s1, _, s3⟩ := values_spec d ref v
          cases hval' : val with
          | none =>
            refine ⟨none, s3 ?_, ?_⟩
            · rcases hnone hval' with h | ⟨v', h1, h2⟩
              · exact .inl h
              · rw [valuesAt_unique hv h1]; exact .inr h2
            · intro path
              rw [← hval', hhas, hval']
          | some p =>
            obtain ⟨h1, v', h2, h3⟩ := hval p hval'
            rw [← valuesAt_unique hv h2] at h3
            refine ⟨some p, (s1 p).mpr ⟨h1, h3⟩, ?_⟩
            intro path
            rw [← hval', hhas, hval']
        rcases hkids with ⟨hk, rfl⟩ | ⟨f, l, hk, hf, hl, hne, h255⟩
        · rw [visit_leaf fuel hn hk]
          exact hvals next (.inr ⟨hk, rfl⟩) (node_len hn)
        · have hpos : 0 < kids.length := List.length_pos_iff.mpr hne
          have hb : ¬ (l < f ∨ l.toNat - f.toNat = 255) := by
            rw [UInt8.lt_iff_toNat_lt]; omega
          have hvat : ValuesAt d ref next (next + 2 + 4 * (l.toNat - f.toNat + 1)) :=
            .inl ⟨f, l, hk, by rw [UInt8.le_iff_toNat_le]; omega, rfl⟩
          have hin : next + 2 + 4 * (l.toNat - f.toNat + 1) ≤ d.length := by
            have := be_len (hrefs (kids.length - 1) _ (List.getElem?_eq_getElem (by omega)))
            omega
          rcases visit_inner fuel hn hk hb with ⟨_, hv⟩ | ⟨h1, _⟩
          · rw [hv]
            exact hvals _ hvat hin
          · omega
      | cons c rest =>
        have hhas : ∀ path, (Trie.node pre first kids val).Has (pre ++ c :: rest) path ↔
            ∃ (i : Nat) (t : Trie), kids[i]? = some t ∧ c.toNat = first + i ∧ t.Has rest path := by
          intro path
          rw [has_iff]
          constructor
          · rintro (⟨h, _⟩ | ⟨i, t, c', rest', h, h1, h2, h3⟩)
            · have := congrArg List.length h
              simp at this
            · have := List.append_cancel_left h
              simp at this
              obtain ⟨rfl, rfl⟩ := this
              exact ⟨i, t, h1, h2, h3⟩
          · rintro ⟨i, t, h1, h2, h3⟩
            exact .inr ⟨i, t, c, rest, rfl, h1, h2, h3⟩
        rcases hkids with ⟨hk, rfl⟩ | ⟨f, l, hk, hf, hl, hne, h255⟩
        · rw [visit_leaf_more fuel hn hk]
          refine ⟨none, rfl, ?_⟩
          intro path
          rw [hhas]
          simp
        · by_cases hc : f ≤ c ∧ c ≤ l
          · have hc' := hc
            rw [UInt8.le_iff_toNat_le, UInt8.le_iff_toNat_le] at hc'
            have hi : c.toNat - f.toNat < kids.length := by omega
            have hgr : refs[c.toNat - f.toNat]? = some refs[c.toNat - f.toNat] := List.getElem?_eq_getElem (by omega)
            have hgk : kids[c.toNat - f.toNat]? = some kids[c.toNat - f.toNat] := List.getElem?_eq_getElem hi
            rw [visit_child fuel hn hk hc (hrefs _ _ hgr)]
            obtain ⟨o, h1, h2⟩ := ih _ rest _ (by simp at hlen; omega) (hsub _ _ _ hgk hgr)
            refine ⟨o, h1, ?_⟩
            intro path
            rw [h2, hhas]
            constructor
            · intro h
              exact ⟨_, _, hgk, by omega, h⟩
            · rintro ⟨i, t, h3, h4, h5⟩
              have : i = c.toNat - f.toNat := by omega
              subst this
              rw [hgk] at h3
              have : kids[c.toNat - f.toNat] = t := by simpa using h3
              rw [this]; exact h5
          · rw [visit_out_of_range fuel hn hk hc]
            refine ⟨none, rfl, ?_⟩
            intro path
            rw [hhas]
            simp only [reduceCtorEq, false_iff]
            rintro ⟨i, t, h3, h4, _⟩
            apply hc
            rw [UInt8.le_iff_toNat_le, UInt8.le_iff_toNat_le]
            have := (List.getElem?_eq_some_iff.mp h3).1
            omega
    · rw [visit_mismatch fuel hn hpre]
      refine ⟨none, rfl, ?_⟩
      intro path
      simp only [reduceCtorEq, false_iff]
      intro h
      cases h with
      | here => exact hpre (List.prefix_refl _)
      | child _ _ _ _ i t c rest _ _ _ _ => exact hpre ⟨_, rfl⟩

/-- **C33** (well-formed indices): looking up a name in a file that stores a trie yields the path
the trie has for that name, and nothing for all other names. -/
theorem C33_trie (base d : Bytes) (root : Nat) (t : Trie) (hr : Be d 8 root) (ht : Encodes d root t) (name : Bytes) :
    (∀ path, t.Has name path → findPath base d name = .ok (some (pathJoin base path))) ∧
    ((∀ path, ¬ t.Has name path) → findPath base d name = .ok none) := by
  rcases findPath_root base d name with ⟨root', h1, h⟩ | ⟨h1, _⟩
  · have := be_unique hr h1
    subst this
    obtain ⟨o, h2, h3⟩ := visit_trie d (name.length + 1) root name t (by omega) ht
    rw [h, h2]
    refine ⟨?_, ?_⟩
    · intro path hp
      rw [(h3 path).mpr hp]
      rfl
    · intro hn
      cases o with
      | none => rfl
      | some p => exact absurd ((h3 p).mp rfl) (hn p)
  · exact absurd hr (h1 root)

/-- **C33** (validation): only files with the right magic number and version are accepted. -/
theorem C33_validate (d : Bytes) :
    (validate d = .ok () ↔ Be d 0 0xb007f457 ∧ Be d 4 0x00020001) ∧
    ∀ e, validate d = .error e → e = .invalidData := by
  unfold validate
  have h0 := need_u32 d 0
  rw [List.drop_zero] at h0
  rcases h0 with ⟨x, h1, h2⟩ | ⟨h1, h2⟩
  · rw [h1]
    simp only
    by_cases hx : fromBe x = 0xb007f457
    · rw [if_neg (by simpa using hx)]
      rcases need_u32 d 4 with ⟨y, h3, h4⟩ | ⟨h3, h4⟩
      · rw [h3]
        simp only
        by_cases hy : fromBe y = 0x00020001
        · rw [if_neg (by simpa using hy)]
          rw [hx] at h2; rw [hy] at h4
          exact ⟨by simp [h2, h4], by simp⟩
        · rw [if_pos hy]
          refine ⟨?_, fun e he => by simpa using he.symm⟩
          simp only [reduceCtorEq, false_iff]
          rintro ⟨_, h⟩
          exact hy (be_unique h4 h)
      · rw [h3]
        refine ⟨?_, fun e he => by simpa using he.symm⟩
        simp only [reduceCtorEq, false_iff]
        rintro ⟨_, h⟩
        have := be_len h; omega
    · rw [if_pos hx]
      refine ⟨?_, fun e he => by simpa using he.symm⟩
      simp only [reduceCtorEq, false_iff]
      rintro ⟨h, _⟩
      exact hx (be_unique h2 h)
  · rw [h1]
    refine ⟨?_, fun e he => by simpa using he.symm⟩
    simp only [reduceCtorEq, false_iff]
    rintro ⟨h, _⟩
    have := be_len h; omega

/-! ### Concrete cases -/

/-- An index with two modules, `ab` and `ac`, below a node with prefix `a`. -/
def demoIndex : Bytes :=
  [0xb0, 0x07, 0xf4, 0x57, 0, 2, 0, 1, 0xa0, 0, 0, 12, 97, 0, 98, 99, 0x40, 0, 0, 24, 0x40, 0, 0, 41] ++
  [0, 0, 0, 1, 0, 0, 0, 0] ++ ascii "k/ab.ko:" ++ [0] ++ [0, 0, 0, 1, 0, 0, 0, 0] ++ ascii "k/ac.ko:" ++ [0]

example : validate demoIndex = .ok () := by decide +kernel
example : findPath (ascii "/lib") demoIndex (ascii "ab") = .ok (some (ascii "/lib/k/ab.ko")) := by decide +kernel
example : findPath (ascii "/lib") demoIndex (ascii "ac") = .ok (some (ascii "/lib/k/ac.ko")) := by decide +kernel
example : findPath (ascii "/lib") demoIndex (ascii "a") = .ok none := by decide +kernel
example : findPath (ascii "/lib") demoIndex (ascii "abc") = .ok none := by decide +kernel
/-- A reversed range of children. -/
example : findPath (ascii "/lib") (demoIndex.set 14 100) (ascii "a") = .error .panic := by decide +kernel

theorem be_of (d : Bytes) (off : Nat) (a b c e : UInt8) (h : (d.drop off).take 4 = [a, b, c, e]) (hl : off + 4 ≤ d.length)
    (v : Nat) (hv : v = a.toNat * 2 ^ 24 + b.toNat * 2 ^ 16 + c.toNat * 2 ^ 8 + e.toNat) : Be d off v :=
  ⟨a, b, c, e, (isSlice_iff ..).mpr ⟨hl, h.symm⟩, hv⟩

/-- The demo index stores a trie, so that `C33_trie` applies to it. -/
def demoTrie : Trie :=
  .node [97] 98 [.node [] 0 [] (some (ascii "k/ab.ko")), .node [] 0 [] (some (ascii "k/ac.ko"))] none

theorem demo_leaf (ref v : Nat) (hv : ref = 0x40000000 + v) (h28 : v ≤ demoIndex.length) (path : Bytes) (hp : PathAt demoIndex v path) :
    Encodes demoIndex ref (.node [] 0 [] (some path)) := by
  have hlen : demoIndex.length = 58 := by decide +kernel
  have hmod : ref % 2 ^ 28 = v := by omega
  have hk : ¬ HasKids ref := by unfold HasKids; omega
  refine .node ref [] v 0 [] [] _ ⟨by omega, .inr ⟨by unfold HasPrefix; omega, rfl, hmod.symm⟩⟩ (.inl ⟨hk, rfl⟩) rfl
    (by simp) (by simp) ?_ (by simp)
  intro p hpp
  have : path = p := by simpa using hpp
  subst this
  exact ⟨by unfold HasValues; omega, v, .inr ⟨hk, rfl⟩, hp⟩

example : Be demoIndex 8 0xa000000c ∧ Encodes demoIndex 0xa000000c demoTrie := by
  refine ⟨be_of _ _ 0xa0 0 0 12 (by decide +kernel) (by decide +kernel) _ (by decide), ?_⟩
  refine .node _ [97] 14 98 _ [0x40000018, 0x40000029] none
    ⟨by decide +kernel, .inl ⟨by unfold HasPrefix; decide, ⟨demoIndex.drop 14, by decide +kernel, by decide⟩, by decide⟩⟩
    (.inr ⟨98, 99, ⟨by unfold HasKids; decide, by decide +kernel, by decide +kernel⟩, by decide, by decide, by simp, by decide⟩)
    rfl ?_ ?_ (by simp) (fun _ => .inl (by unfold HasValues; decide))
  · intro i r hi
    match i, hi with
    | 0, hi =>
      have : 0x40000018 = r := by simpa using hi
      subst this
      exact be_of _ _ 0x40 0 0 24 (by decide +kernel) (by decide +kernel) _ (by decide)
    | 1, hi =>
      have : 0x40000029 = r := by simpa using hi
      subst this
      exact be_of _ _ 0x40 0 0 41 (by decide +kernel) (by decide +kernel) _ (by decide)
    | i + 2, hi => simp at hi
  · intro i t r hi hr
    match i, hi, hr with
    | 0, hi, hr =>
      have h1 : 0x40000018 = r := by simpa using hr
      have h2 : Trie.node [] 0 [] (some (ascii "k/ab.ko")) = t := by simpa using hi
      subst h1 h2
      exact demo_leaf _ 24 rfl (by decide +kernel) _
        ⟨1, be_of _ _ 0 0 0 1 (by decide +kernel) (by decide +kernel) _ (by decide), by decide,
          demoIndex.drop 40, by decide +kernel, by decide +kernel, by decide +kernel⟩
    | 1, hi, hr =>
      have h1 : 0x40000029 = r := by simpa using hr
      have h2 : Trie.node [] 0 [] (some (ascii "k/ac.ko")) = t := by simpa using hi
      subst h1 h2
      exact demo_leaf _ 41 rfl (by decide +kernel) _
        ⟨1, be_of _ _ 0 0 0 1 (by decide +kernel) (by decide +kernel) _ (by decide), by decide,
          demoIndex.drop 57, by decide +kernel, by decide +kernel, by decide +kernel⟩
    | i + 2, hi, _ => simp at hi

end Blazesym.Kernel.Depmod
