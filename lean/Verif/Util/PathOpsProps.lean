import Verif.Util.PathOps

/-! Properties of the path operations: what they do to the components of a path. -/

set_option autoImplicit false

namespace Blazesym.Util
open Blazesym.Spec

theorem components_nil : components [] = [] := by simp [components, pieces]

/-- Joining, for any directory. -/
theorem components_join (base p : Bytes) (h : p.head? ≠ some 47) (hd : (pieces p).head? ≠ some [46]) :
    components (pathJoin base p) = components base ++ components p := by
  by_cases hb : base = []
  · subst hb
    rw [components_nil]
    unfold pathJoin
    rw [if_neg h, if_pos (Or.inl rfl)]
    rfl
  · exact (C55_join base p hb).2 h hd

theorem splitLast_length {path dir comp : Bytes} (h : splitLast path = some (dir, comp)) :
    dir.length < path.length := by
  obtain ⟨h1, h2, _⟩ := C55_split_last path dir comp h
  have hl := h2.length_le
  by_contra hc
  have := h2.eq_of_length (by omega)
  subst this
  have := congrArg List.length h1
  simp at this

theorem pathComps_eq (n : Nat) (path : Bytes) (h : path.length ≤ n) : pathComps n path = components path := by
  induction n generalizing path with
  | zero =>
    have : path = [] := List.length_eq_zero_iff.mp (by omega)
    subst this
    rw [components_nil]; rfl
  | succ n ih =>
    unfold pathComps
    cases hs : splitLast path with
    | none => exact ((C55_split_none path).mp hs).symm
    | some x =>
      obtain ⟨d, c⟩ := x
      have := splitLast_length hs
      simp only
      rw [ih d (by omega), (C55_split_last path d c hs).1]

/-- **C55** (comparison): paths are equal if they have the same components. -/
theorem C55_path_eq (a b : Bytes) : pathEq a b = true ↔ components a = components b := by
  unfold pathEq
  rw [pathComps_eq _ _ (Nat.le_refl _), pathComps_eq _ _ (Nat.le_refl _)]
  simp

theorem splitLast_of_components {path c : Bytes} {cs : List Bytes} (h : components path = cs ++ [c]) :
    ∃ dir, splitLast path = some (dir, c) ∧ components dir = cs := by
  cases hs : splitLast path with
  | none =>
    rw [C55_split_none] at hs
    rw [hs] at h; simp at h
  | some x =>
    obtain ⟨d, c'⟩ := x
    have := (C55_split_last path d c' hs).1
    rw [this] at h
    obtain ⟨h1, h2⟩ := List.append_inj' h rfl
    simp at h2
    subst h2
    exact ⟨d, rfl, h1⟩

/-- **C55** (parent): the parent of a path has all its components but the last, unless that is the
root; a path without components has none. -/
theorem C55_parent (path : Bytes) :
    (∀ cs c, components path = cs ++ [c] → c ≠ [47] →
      ∃ dir, parent path = some dir ∧ components dir = cs) ∧
    (components path = [] ∨ (∃ cs, components path = cs ++ [[47]]) → parent path = none) := by
  refine ⟨fun cs c h hc => ?_, fun h => ?_⟩
  · obtain ⟨d, h1, h2⟩ := splitLast_of_components h
    unfold parent
    rw [h1]
    simp only
    rw [if_neg hc]
    exact ⟨d, rfl, h2⟩
  · rcases h with h | ⟨cs, h⟩
    · unfold parent
      rw [(C55_split_none path).mpr h]
    · obtain ⟨d, h1, h2⟩ := splitLast_of_components h
      unfold parent
      rw [h1]
      simp

theorem parent_length {path dir : Bytes} (h : parent path = some dir) : dir.length < path.length := by
  unfold parent at h
  split at h
  · rename_i d c hs
    split at h
    · cases h
    · cases h; exact splitLast_length hs
  · cases h

/-- **C55** (file name): setting the file name replaces the last component, if that is one, and is
appended otherwise. -/
theorem C55_set_file_name (path name : Bytes) (h : name.head? ≠ some 47)
    (hd : (pieces name).head? ≠ some [46]) :
    (∀ cs c, components path = cs ++ [c] → c ≠ [47] → c ≠ [46] → c ≠ [46, 46] →
      components (setFileName path name) = cs ++ components name) ∧
    ((∀ cs c, components path = cs ++ [c] → c = [47] ∨ c = [46] ∨ c = [46, 46]) →
      components (setFileName path name) = components path ++ components name) := by
  refine ⟨fun cs c hc h1 h2 h3 => ?_, fun hc => ?_⟩
  · have hf : fileName path = some c := (fileName_iff ..).mpr ⟨by rw [hc]; simp, h1, h2, h3⟩
    obtain ⟨dir, p1, p2⟩ := (C55_parent path).1 cs c hc h1
    unfold setFileName
    rw [hf, p1]
    simp only
    rw [components_join _ _ h hd, p2]
  · have hf : fileName path = none := by
      cases hx : fileName path with
      | none => rfl
      | some c =>
        obtain ⟨k1, k2, k3, k4⟩ := (fileName_iff ..).mp hx
        obtain ⟨cs, hcs⟩ := List.getLast?_eq_some_iff.mp k1
        rcases hc cs c hcs with h | h | h
        · exact absurd h k2
        · exact absurd h k3
        · exact absurd h k4
    unfold setFileName
    rw [hf]
    simp only
    rw [components_join _ _ h hd]

/-! ### Both ends -/

/-- The components in the body of a path. -/
def bodyComps (b : Bytes) : List Bytes := (pieces b).filter isComponent

theorem components_body (p : Bytes) : components p =
    (if p.head? = some 47 then [[47]] else if includeCurDir p then [[46]] else []) ++ bodyComps p :=
  components_eq p

theorem bodyComps_nil : bodyComps [] = [] := by simp [bodyComps, pieces, isComponent]

theorem nextComponent_spec (b : Bytes) (hb : b ≠ []) :
    ∃ n c, nextComponent b = (n, c) ∧ 0 < n ∧ n ≤ b.length ∧ (∀ x ∈ c, x ≠ 47) ∧ c <+: b ∧
      pieces b = c :: (if c.length = b.length then [] else pieces (b.drop n)) ∧
      bodyComps b = (if isComponent c then [c] else []) ++ bodyComps (b.drop n) := by
  unfold nextComponent
  simp only
  generalize hc : b.takeWhile (fun x => x != 47) = c
  have hno : ∀ x ∈ c, x ≠ 47 := by
    intro x hx
    rw [← hc] at hx
    simpa using List.all_eq_true.mp (List.all_takeWhile (p := fun x : UInt8 => x != 47) (l := b)) x hx
  have hsplit := List.takeWhile_append_dropWhile (p := fun x : UInt8 => x != 47) (l := b)
  have hhead := List.head?_dropWhile_not (fun x : UInt8 => x != 47) b
  rw [hc] at hsplit
  generalize hr : b.dropWhile (fun x => x != 47) = r at hsplit hhead
  cases r with
  | nil =>
    have hcb : c = b := by simpa using hsplit
    subst hcb
    refine ⟨c.length, c, by simp, List.length_pos_iff.mpr hb, Nat.le_refl _, hno,
      List.prefix_refl _, by simp [pieces_noslash hno], ?_⟩
    unfold bodyComps
    rw [pieces_noslash hno]
    simp [pieces, List.filter_cons, isComponent]
  | cons a t =>
    simp only [List.head?_cons] at hhead
    have ha : a = 47 := by simpa using hhead
    subst ha
    have hlen : b.length = c.length + t.length + 1 := by rw [← hsplit]; simp; omega
    have hd : b.drop (c.length + 1) = t := by
      rw [← hsplit, List.drop_append, List.drop_eq_nil_of_le (by omega)]
      simp
    refine ⟨c.length + 1, c, by rw [if_neg (by omega)], by omega, by omega, hno,
      ⟨_, hsplit⟩, ?_, ?_⟩
    · rw [if_neg (by omega), hd, ← hsplit, pieces_append_sep, pieces_noslash hno]; rfl
    · rw [hd]
      unfold bodyComps
      rw [← hsplit, pieces_append_sep, pieces_noslash hno]
      simp [List.filter_cons]
      split <;> simp_all

theorem bodyComponentBack_spec (b : Bytes) (hb : b ≠ []) :
    ∃ n c, bodyComponentBack b = (n, c) ∧ 0 < n ∧ n ≤ b.length ∧ (∀ x ∈ c, x ≠ 47) ∧
      (pieces b).getLast? = some c ∧
      pieces b = (if c.length = b.length then [] else pieces (b.take (b.length - n))) ++ [c] ∧
      bodyComps b = bodyComps (b.take (b.length - n)) ++ (if isComponent c then [c] else []) := by
  unfold bodyComponentBack
  simp only
  have hspl := List.takeWhile_append_dropWhile (p := fun x : UInt8 => x != 47) (l := b.reverse)
  have hsplit : b = (b.reverse.dropWhile (fun x => x != 47)).reverse ++
      (b.reverse.takeWhile (fun x => x != 47)).reverse := by
    rw [← List.reverse_append, hspl, List.reverse_reverse]
  have hno : ∀ x ∈ (b.reverse.takeWhile (fun x : UInt8 => x != 47)).reverse, x ≠ 47 := by
    intro x hx
    simpa using List.all_eq_true.mp (List.all_takeWhile (p := fun x : UInt8 => x != 47)
      (l := b.reverse)) x (List.mem_reverse.mp hx)
  have hhead := List.head?_dropWhile_not (fun x : UInt8 => x != 47) b.reverse
  generalize (b.reverse.takeWhile (fun x => x != 47)).reverse = c at hsplit hno
  generalize b.reverse.dropWhile (fun x => x != 47) = r at hsplit hhead
  cases r with
  | nil =>
    have hcb : b = c := by simpa using hsplit
    subst hcb
    refine ⟨b.length, b, by simp, List.length_pos_iff.mpr hb, Nat.le_refl _, hno,
      by simp [pieces_noslash hno], by simp [pieces_noslash hno], ?_⟩
    unfold bodyComps
    rw [pieces_noslash hno]
    simp [pieces, List.filter_cons, isComponent]
  | cons a t =>
    simp only [List.head?_cons] at hhead
    have ha : a = 47 := by simpa using hhead
    subst ha
    simp only [List.reverse_cons, List.append_assoc, List.singleton_append] at hsplit
    have hlen : b.length = t.length + c.length + 1 := by rw [hsplit]; simp; omega
    have hd : b.take (b.length - (c.length + 1)) = t.reverse := by
      rw [hlen, hsplit]
      rw [List.take_append_of_le_length (by simp), List.take_of_length_le (by simp)]
    refine ⟨c.length + 1, c, by rw [if_neg (by omega)], by omega, by omega, hno, ?_, ?_, ?_⟩
    · rw [hsplit, pieces_append hno]; simp
    · rw [if_neg (by omega), hd]
      conv_lhs => rw [hsplit]
      rw [pieces_append hno]
    · rw [hd]
      unfold bodyComps
      conv_lhs => rw [hsplit]
      rw [pieces_append hno]
      simp [List.filter_cons]

theorem dropBody_spec (n : Nat) (b : Bytes) (h : b.length ≤ n) :
    bodyComps (dropBody n b) = (bodyComps b).drop 1 ∧ (dropBody n b).length ≤ b.length := by
  induction n generalizing b with
  | zero =>
    have : b = [] := List.length_eq_zero_iff.mp (by omega)
    subst this
    simp [dropBody, bodyComps_nil]
  | succ n ih =>
    unfold dropBody
    by_cases hb : b = []
    · rw [if_pos hb, hb]; simp [bodyComps_nil]
    · rw [if_neg hb]
      obtain ⟨k, c, h1, h2, h3, _, _, _, h5⟩ := nextComponent_spec b hb
      simp only [h1]
      split
      · rename_i hc
        rw [h5, if_pos hc]
        simp
      · rename_i hc
        rw [if_neg hc] at h5
        obtain ⟨g1, g2⟩ := ih (b.drop k) (by rw [List.length_drop]; omega)
        refine ⟨by rw [g1, h5]; simp, ?_⟩
        rw [List.length_drop] at g2; omega

theorem dropBack_spec (n : Nat) (b : Bytes) (h : b.length ≤ n) :
    bodyComps (dropBack n b) = (bodyComps b).dropLast ∧ (dropBack n b).length ≤ b.length := by
  induction n generalizing b with
  | zero =>
    have : b = [] := List.length_eq_zero_iff.mp (by omega)
    subst this
    simp [dropBack, bodyComps_nil]
  | succ n ih =>
    unfold dropBack
    by_cases hb : b = []
    · rw [if_pos hb, hb]; simp [bodyComps_nil]
    · rw [if_neg hb]
      obtain ⟨k, c, h1, h2, h3, _, _, _, h5⟩ := bodyComponentBack_spec b hb
      simp only [h1]
      split
      · rename_i hc
        rw [h5, if_pos hc]
        simp
      · rename_i hc
        rw [if_neg hc, List.append_nil] at h5
        obtain ⟨g1, g2⟩ := ih (b.take (b.length - k)) (by rw [List.length_take]; omega)
        refine ⟨by rw [g1, h5], ?_⟩
        rw [List.length_take] at g2; omega

theorem trimBodyLeft_spec (n : Nat) (b : Bytes) (h : b.length ≤ n) :
    bodyComps (trimBodyLeft n b) = bodyComps b ∧ (trimBodyLeft n b).length ≤ b.length ∧
      (trimBodyLeft n b = [] ∨ ∃ c, (pieces (trimBodyLeft n b)).head? = some c ∧ isComponent c = true) := by
  induction n generalizing b with
  | zero =>
    have : b = [] := List.length_eq_zero_iff.mp (by omega)
    subst this
    simp [trimBodyLeft]
  | succ n ih =>
    unfold trimBodyLeft
    by_cases hb : b = []
    · rw [if_pos hb, hb]; simp
    · rw [if_neg hb]
      obtain ⟨k, c, h1, h2, h3, _, _, h4, h5⟩ := nextComponent_spec b hb
      simp only [h1]
      split
      · rename_i hc
        exact ⟨rfl, Nat.le_refl _, Or.inr ⟨c, by rw [h4]; rfl, hc⟩⟩
      · rename_i hc
        rw [if_neg hc, List.nil_append] at h5
        obtain ⟨g1, g2, g3⟩ := ih (b.drop k) (by rw [List.length_drop]; omega)
        refine ⟨by rw [g1, h5], ?_, g3⟩
        rw [List.length_drop] at g2; omega

theorem trimBodyRight_spec (n : Nat) (b : Bytes) (h : b.length ≤ n) :
    bodyComps (trimBodyRight n b) = bodyComps b ∧
      ((∃ c, (pieces b).head? = some c ∧ isComponent c = true) →
        (pieces (trimBodyRight n b)).head? = (pieces b).head?) ∧
      (b = [] → trimBodyRight n b = []) := by
  induction n generalizing b with
  | zero =>
    have : b = [] := List.length_eq_zero_iff.mp (by omega)
    subst this
    simp [trimBodyRight]
  | succ n ih =>
    unfold trimBodyRight
    by_cases hb : b = []
    · rw [if_pos hb, hb]; simp
    · rw [if_neg hb]
      obtain ⟨k, c, h1, h2, h3, _, _, h4, h5⟩ := bodyComponentBack_spec b hb
      simp only [h1]
      split
      · exact ⟨rfl, fun _ => rfl, fun h => absurd h hb⟩
      · rename_i hc
        rw [if_neg hc, List.append_nil] at h5
        obtain ⟨g1, g2, g3⟩ := ih (b.take (b.length - k)) (by rw [List.length_take]; omega)
        refine ⟨by rw [g1, h5], ?_, fun h => absurd h hb⟩
        rintro ⟨c', hc', hi⟩
        have hhead : (pieces (b.take (b.length - k))).head? = (pieces b).head? := by
          split at h4
          · rw [h4] at hc'
            simp at hc'
            subst hc'
            exact absurd hi hc
          · rw [h4]
            cases hp : pieces (b.take (b.length - k)) with
            | nil => exact absurd hp (pieces_ne_nil _)
            | cons q qs => simp
        rw [g2 ⟨c', by rw [hhead, hc'], hi⟩, hhead]

theorem relative_components {b : Bytes}
    (h : b = [] ∨ ∃ c, (pieces b).head? = some c ∧ isComponent c = true) :
    components b = bodyComps b ∧ b.head? ≠ some 47 ∧ (pieces b).head? ≠ some [46] := by
  rcases h with rfl | ⟨c, h1, h2⟩
  · simp [components, pieces, bodyComps_nil]
  · have h46 : (pieces b).head? ≠ some [46] := by
      rw [h1]
      intro h; cases h
      simp [isComponent] at h2
    have h47 : b.head? ≠ some 47 := by
      intro hh
      cases b with
      | nil => simp at hh
      | cons a t =>
        simp at hh
        subst hh
        simp [pieces] at h1
        subst h1
        simp [isComponent] at h2
    refine ⟨?_, h47, h46⟩
    rw [components_body, if_neg h47, if_neg (by rw [includeCurDir_iff]; exact h46)]
    rfl

/-- **C55** (middle): the path without its first and last component; it is relative. -/
theorem C55_middle (path : Bytes) :
    components (middle path) = ((components path).drop 1).dropLast ∧
      (middle path).head? ≠ some 47 ∧ (pieces (middle path)).head? ≠ some [46] := by
  have hdf : bodyComps (dropFirst path) = (components path).drop 1 ∧
      (dropFirst path).length ≤ path.length := by
    unfold dropFirst
    rw [components_body]
    split
    · rename_i h
      cases path with
      | nil => simp at h
      | cons a t =>
        simp at h
        subst h
        simp [bodyComps, pieces, List.filter_cons, isComponent]
    · split
      · rename_i h47 hc
        have hcd := hc
        unfold includeCurDir at hcd
        split at hcd
        · simp [bodyComps, pieces, List.filter_cons, isComponent]
        · simp [bodyComps, pieces, List.filter_cons, isComponent]
        · simp at hcd
      · obtain ⟨h1, h2⟩ := dropBody_spec path.length path (Nat.le_refl _)
        exact ⟨by rw [h1]; simp, h2⟩
  obtain ⟨d1, d2⟩ := hdf
  obtain ⟨e1, e2⟩ := dropBack_spec path.length (dropFirst path) d2
  obtain ⟨f1, f2, f3⟩ := trimBodyLeft_spec path.length (dropBack path.length (dropFirst path)) (by omega)
  obtain ⟨g1, g2, g3⟩ := trimBodyRight_spec path.length
    (trimBodyLeft path.length (dropBack path.length (dropFirst path))) (by omega)
  have hm : middle path = trimBodyRight path.length
    (trimBodyLeft path.length (dropBack path.length (dropFirst path))) := rfl
  rw [hm]
  obtain ⟨k1, k2, k3⟩ := relative_components (b := trimBodyRight path.length
    (trimBodyLeft path.length (dropBack path.length (dropFirst path)))) (by
      rcases f3 with f3 | ⟨c, f3, f4⟩
      · left; exact g3 f3
      · right; exact ⟨c, by rw [g2 ⟨c, f3, f4⟩, f3], f4⟩)
  exact ⟨by rw [k1, g1, f1, e1, d1], k2, k3⟩

example : middle (ascii "/usr//bin/./ls/") = ascii "usr//bin" ∧ middle (ascii "/ls") = [] ∧
    setFileName (ascii "/usr/bin/ls/.") (ascii "ls.debug") = ascii "/usr/bin/ls.debug" ∧
    parent (ascii "usr/bin") = some (ascii "usr") ∧ parent (ascii "usr") = some [] ∧
    parent [] = none ∧ pathEq (ascii "/a//b/./c") (ascii "/a/b/c/") = true := by decide +kernel

end Blazesym.Util
