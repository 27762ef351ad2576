import Verif.Util.Path
import Verif.Util.PathSpec

/-! Property theorem C55: splitting a source path into directory and file name. -/

set_option autoImplicit false

namespace Blazesym.Util
open Blazesym.Spec

theorem pieces_ne_nil (p : Bytes) : pieces p ≠ [] := by
  cases p with
  | nil => simp [pieces]
  | cons b t =>
    unfold pieces
    split
    · simp
    · split <;> simp

theorem pieces_noslash {c : Bytes} (h : ∀ b ∈ c, b ≠ 47) : pieces c = [c] := by
  induction c with
  | nil => rfl
  | cons b t ih =>
    unfold pieces
    rw [if_neg (h b (by simp)), ih (fun x hx => h x (by simp [hx]))]

theorem pieces_append {c : Bytes} (h : ∀ b ∈ c, b ≠ 47) (x : Bytes) :
    pieces (x ++ 47 :: c) = pieces x ++ [c] := by
  induction x with
  | nil => simp [pieces, pieces_noslash h]
  | cons b t ih =>
    rw [List.cons_append]
    by_cases hb : b = 47
    · unfold pieces
      rw [if_pos hb, if_pos hb, ih]; rfl
    · unfold pieces
      rw [if_neg hb, if_neg hb, ih]
      cases hp : pieces t with
      | nil => exact absurd hp (pieces_ne_nil t)
      | cons q qs => rfl

theorem includeCurDir_iff (p : Bytes) : includeCurDir p = true ↔ (pieces p).head? = some [46] := by
  cases p with
  | nil => simp [includeCurDir, pieces]
  | cons a t =>
    cases t with
    | nil =>
      by_cases ha : a = 47
      · subst ha; simp [includeCurDir, pieces]
      · by_cases h46 : a = 46
        · subst h46; simp [includeCurDir, pieces]
        · unfold includeCurDir
          simp [pieces, ha, h46]
    | cons b u =>
      by_cases ha : a = 47
      · subst ha; simp [includeCurDir, pieces]
      · by_cases hb : b = 47
        · subst hb
          by_cases h46 : a = 46
          · subst h46; simp [includeCurDir, pieces]
          · unfold includeCurDir
            simp [pieces, ha, h46]
        · have : ¬ includeCurDir (a :: b :: u) = true := by
            unfold includeCurDir
            split <;> simp_all
          simp only [this, false_iff]
          unfold pieces
          rw [if_neg ha]
          unfold pieces
          rw [if_neg hb]
          cases hp : pieces u with
          | nil => simp
          | cons q qs => simp

theorem components_eq (p : Bytes) : components p =
    (if p.head? = some 47 then [[47]] else if includeCurDir p then [[46]] else []) ++
      (pieces p).filter isComponent := by
  unfold components
  simp only [includeCurDir_iff]
  congr 1
  apply List.filter_congr
  intro x _
  unfold isComponent
  rw [Bool.eq_iff_iff]
  simp

/-- Taking the last piece off a path. -/
theorem nextComponentBack_spec (p : Bytes) (h : lenBeforeBody p < p.length) :
    ∃ p' s c, p = p' ++ s ∧ s ≠ [] ∧ nextComponentBack p = (s.length, c) ∧
      components p = components p' ++ (if isComponent c then [c] else []) ∧
      (pieces p).getLast? = some c := by
  unfold nextComponentBack
  simp only
  generalize hb : p.drop (lenBeforeBody p) = body
  have hbne : body ≠ [] := by
    intro h0; rw [h0] at hb
    have := congrArg List.length hb
    simp at this; omega
  generalize hpre : p.take (lenBeforeBody p) = pre
  have hp : p = pre ++ body := by rw [← hb, ← hpre, List.take_append_drop]
  -- the part after the last separator
  have hspl := (List.takeWhile_append_dropWhile (p := fun b : UInt8 => b != 47) (l := body.reverse))
  have hsplit : body = (body.reverse.dropWhile (fun b => b != 47)).reverse ++
      (body.reverse.takeWhile (fun b => b != 47)).reverse := by
    rw [← List.reverse_append, hspl, List.reverse_reverse]
  have hc : ∀ b ∈ (body.reverse.takeWhile (fun b : UInt8 => b != 47)).reverse, b ≠ 47 := by
    intro b hb
    have := List.all_eq_true.mp (List.all_takeWhile (p := fun b : UInt8 => b != 47) (l := body.reverse))
      b (List.mem_reverse.mp hb)
    simpa using this
  generalize hcomp : (body.reverse.takeWhile (fun b : UInt8 => b != 47)).reverse = c at *
  have hrest : (body.reverse.dropWhile (fun b : UInt8 => b != 47)) = [] ∨
      ∃ x, body.reverse.dropWhile (fun b : UInt8 => b != 47) = 47 :: x := by
    cases hd : body.reverse.dropWhile (fun b : UInt8 => b != 47) with
    | nil => exact Or.inl rfl
    | cons a x =>
      right
      have : (body.reverse.dropWhile (fun b : UInt8 => b != 47)).head? = some a := by rw [hd]; rfl
      have := List.head?_dropWhile_not (fun b : UInt8 => b != 47) body.reverse
      rw [hd] at this
      simp at this
      exact ⟨x, by rw [this]⟩
  rcases hrest with hr | ⟨x, hr⟩
  · -- no separator in the body
    rw [hr] at hsplit
    simp only [List.reverse_nil, List.nil_append] at hsplit
    subst hsplit
    refine ⟨pre, body, body, hp, hbne, by simp, ?_⟩
    rw [components_eq, components_eq]
    have hlen : pre.length = lenBeforeBody p := by
      rw [← hpre, List.length_take]; omega
    unfold lenBeforeBody at hlen
    split at hlen
    · rename_i h47
      have : pre = [47] := by
        cases hpre' : pre with
        | nil => rw [hpre'] at hlen; simp at hlen
        | cons a t =>
          rw [hpre'] at hlen hp
          rw [hp] at h47
          simp at h47 hlen
          rw [h47, hlen]
      subst this
      have := pieces_append hc []
      rw [if_pos h47, if_pos (by rfl)]
      rw [hp]
      simp only [List.nil_append] at this
      rw [show ([47] : Bytes) ++ body = 47 :: body from rfl, this]
      refine ⟨?_, by simp⟩
      simp only [pieces, List.filter_append, List.append_assoc]
      congr 1
      simp [List.filter_cons, isComponent]
    · split at hlen
      · rename_i h47 hcur
        exfalso
        cases hpre' : pre with
        | nil => rw [hpre'] at hlen; simp at hlen
        | cons a t =>
          rw [hpre'] at hlen hp
          simp only [List.length_cons, Nat.add_eq_right, List.length_eq_zero_iff] at hlen
          subst hlen
          rw [hp] at hcur
          cases body with
          | nil => exact hbne rfl
          | cons b u =>
            have hb47 := hc b (by simp)
            simp only [List.cons_append, List.nil_append] at hcur
            unfold includeCurDir at hcur
            split at hcur
            · rename_i heq; cases heq
            · rename_i heq; cases heq; exact hb47 rfl
            · exact absurd hcur (by simp)
      · rename_i h47 hcur
        have : pre = [] := List.length_eq_zero_iff.mp hlen
        subst this
        rw [if_neg h47, if_neg hcur]
        simp only [List.nil_append] at hp
        subst hp
        rw [pieces_noslash hc]
        simp [includeCurDir, pieces, List.filter_cons, isComponent]
  · rw [hr] at hsplit
    simp only [List.reverse_cons, List.append_assoc, List.singleton_append] at hsplit
    generalize x.reverse = y at hsplit
    refine ⟨pre ++ y, 47 :: c, c, by rw [List.append_assoc, ← hsplit]; exact hp, by simp, ?_, ?_, ?_⟩
    · rw [if_neg]
      · rfl
      · intro h; rw [hsplit] at h; simp at h; omega
    · have hp' : p = (pre ++ y) ++ 47 :: c := by rw [List.append_assoc, ← hsplit]; exact hp
      rw [components_eq, components_eq, hp', pieces_append hc]
      rw [List.filter_append, ← List.append_assoc]
      have hhead : (if ((pre ++ y) ++ 47 :: c).head? = some 47 then ([[47]] : List Bytes)
            else if includeCurDir ((pre ++ y) ++ 47 :: c) then [[46]] else []) =
          (if (pre ++ y).head? = some 47 then [[47]]
            else if includeCurDir (pre ++ y) then [[46]] else []) := by
        have hlen : pre.length = lenBeforeBody p := by
          rw [← hpre, List.length_take]; omega
        rw [hp'] at hlen
        cases hz : pre ++ y with
        | nil =>
          rw [hz] at hlen
          simp [lenBeforeBody] at hlen
          simp at hz
          rw [hz.1] at hlen
          simp at hlen
        | cons a u =>
          simp only [List.cons_append, List.head?_cons]
          by_cases ha : a = 47
          · simp [ha]
          · simp only [Option.some.injEq, if_neg ha]
            have : includeCurDir (a :: (u ++ 47 :: c)) = includeCurDir (a :: u) := by
              rw [Bool.eq_iff_iff, includeCurDir_iff, includeCurDir_iff,
                show a :: (u ++ 47 :: c) = (a :: u) ++ 47 :: c from rfl, pieces_append hc]
              cases hq : pieces (a :: u) with
              | nil => exact absurd hq (pieces_ne_nil _)
              | cons q qs => simp
            simp only [this]
      rw [hhead]
      congr 1
      simp [List.filter_cons]
    · have hp' : p = (pre ++ y) ++ 47 :: c := by rw [List.append_assoc, ← hsplit]; exact hp
      rw [hp', pieces_append hc]
      simp

theorem popBody_spec (fuel : Nat) (p : Bytes) (hf : p.length ≤ fuel) :
    (∃ rest, popBody fuel p = (rest, none) ∧ components p = components rest ∧ rest <+: p ∧
      rest.length ≤ lenBeforeBody rest) ∨
    ∃ rest c, popBody fuel p = (rest, some c) ∧ components p = components rest ++ [c] ∧ rest <+: p := by
  induction fuel generalizing p with
  | zero =>
    have : p = [] := List.length_eq_zero_iff.mp (by omega)
    subst this
    exact Or.inl ⟨[], rfl, rfl, List.prefix_refl _, by simp⟩
  | succ n ih =>
    unfold popBody
    by_cases h : lenBeforeBody p < p.length
    · rw [if_pos h]
      obtain ⟨p', s, c, h1, h2, h3, h4, _⟩ := nextComponentBack_spec p h
      have hs : 0 < s.length := List.length_pos_iff.mpr h2
      have htake : p.take (p.length - s.length) = p' := by
        rw [h1]; simp
      simp only [h3, htake]
      by_cases hc : isComponent c = true
      · rw [if_pos hc] at h4 ⊢
        exact Or.inr ⟨p', c, rfl, h4, ⟨s, h1.symm⟩⟩
      · rw [if_neg hc] at h4 ⊢
        rw [List.append_nil] at h4
        have hl : p'.length ≤ n := by
          have := congrArg List.length h1
          simp at this; omega
        rcases ih p' hl with ⟨r, g1, g2, g3, g4⟩ | ⟨r, c', g1, g2, g3⟩
        · exact Or.inl ⟨r, g1, by rw [h4, g2], g3.trans ⟨s, h1.symm⟩, g4⟩
        · exact Or.inr ⟨r, c', g1, by rw [h4, g2], g3.trans ⟨s, h1.symm⟩⟩
    · rw [if_neg h]
      exact Or.inl ⟨p, rfl, rfl, List.prefix_refl _, by omega⟩


/-- A path without a trailing separator or `.`: nothing follows its last component. -/
def Trimmed (p : Bytes) : Prop :=
  p = [] ∨ p = [47] ∨ p = [46] ∨ ∃ c, (pieces p).getLast? = some c ∧ c ≠ [] ∧ c ≠ [46]

theorem short_cases {p : Bytes} (h : p.length ≤ lenBeforeBody p) : p = [] ∨ p = [47] ∨ p = [46] := by
  unfold lenBeforeBody at h
  split at h
  · rename_i h47
    cases p with
    | nil => simp at h47
    | cons a t =>
      simp at h h47
      subst h; subst h47; simp
  · split at h
    · rename_i hc
      cases p with
      | nil => simp
      | cons a t =>
        simp at h
        subst h
        unfold includeCurDir at hc
        split at hc
        · simp_all
        · rename_i heq; cases heq
        · simp at hc
    · left; exact List.length_eq_zero_iff.mp (by omega)

theorem trimRight_spec (fuel : Nat) (p : Bytes) (hf : p.length ≤ fuel) :
    components (trimRight fuel p) = components p ∧ trimRight fuel p <+: p ∧
      Trimmed (trimRight fuel p) := by
  induction fuel generalizing p with
  | zero =>
    have : p = [] := List.length_eq_zero_iff.mp (by omega)
    subst this
    exact ⟨rfl, List.prefix_refl _, Or.inl rfl⟩
  | succ n ih =>
    unfold trimRight
    by_cases h : lenBeforeBody p < p.length
    · rw [if_pos h]
      obtain ⟨p', s, c, h1, h2, h3, h4, h5⟩ := nextComponentBack_spec p h
      have hs : 0 < s.length := List.length_pos_iff.mpr h2
      have htake : p.take (p.length - s.length) = p' := by
        rw [h1]; simp
      simp only [h3, htake]
      by_cases hc : isComponent c = true
      · rw [if_pos hc]
        refine ⟨rfl, List.prefix_refl _, Or.inr (Or.inr (Or.inr ⟨c, h5, ?_⟩))⟩
        unfold isComponent at hc
        simpa using hc
      · rw [if_neg hc] at h4 ⊢
        rw [List.append_nil] at h4
        have hl : p'.length ≤ n := by
          have := congrArg List.length h1
          simp at this; omega
        obtain ⟨g1, g2, g3⟩ := ih p' hl
        exact ⟨by rw [g1, h4], g2.trans ⟨s, h1.symm⟩, g3⟩
    · rw [if_neg h]
      refine ⟨rfl, List.prefix_refl _, ?_⟩
      rcases short_cases (by omega : p.length ≤ lenBeforeBody p) with h | h | h
      · exact Or.inl h
      · exact Or.inr (Or.inl h)
      · exact Or.inr (Or.inr (Or.inl h))

/-- **C55** splitting a path: the file name is the last component; the directory is the part of
the path with the other components, without anything after the last of them. -/
theorem C55_split_last (path dir file : Bytes) (h : splitLast path = some (dir, file)) :
    components path = components dir ++ [file] ∧ dir <+: path ∧ Trimmed dir := by
  unfold splitLast at h
  rcases popBody_spec path.length path (Nat.le_refl _) with ⟨r, g1, g2, g3, g4⟩ | ⟨r, c, g1, g2, g3⟩
  · rw [g1] at h
    simp only at h
    rcases short_cases g4 with rfl | rfl | rfl
    · simp [includeCurDir] at h
    · simp at h
      obtain ⟨rfl, rfl⟩ := h
      exact ⟨by rw [g2]; rfl, List.nil_prefix, Or.inl rfl⟩
    · simp [includeCurDir] at h
      obtain ⟨rfl, rfl⟩ := h
      exact ⟨by rw [g2]; rfl, List.nil_prefix, Or.inl rfl⟩
  · rw [g1] at h
    simp only [Option.some.injEq, Prod.mk.injEq] at h
    obtain ⟨rfl, rfl⟩ := h
    obtain ⟨t1, t2, t3⟩ := trimRight_spec path.length r g3.length_le
    exact ⟨by rw [t1, g2], t2.trans g3, t3⟩

/-- **C55** only a path without components cannot be split. -/
theorem C55_split_none (path : Bytes) : splitLast path = none ↔ components path = [] := by
  constructor
  · intro h
    unfold splitLast at h
    rcases popBody_spec path.length path (Nat.le_refl _) with ⟨r, g1, g2, g3, g4⟩ | ⟨r, c, g1, g2, g3⟩
    · rw [g1] at h
      simp only at h
      rcases short_cases g4 with rfl | rfl | rfl
      · rw [g2]; rfl
      · simp at h
      · simp [includeCurDir] at h
    · rw [g1] at h
      simp at h
  · intro h
    cases hs : splitLast path with
    | none => rfl
    | some p =>
      have := (C55_split_last path p.1 p.2 hs).1
      rw [h] at this
      simp at this

/-- **C55** the usual case: a directory and a name joined by a separator come apart again. -/
theorem C55_split_join (dir file : Bytes) (hd : dir ≠ []) (ht : Trimmed dir)
    (hf : ∀ b ∈ file, b ≠ 47) (hne : file ≠ []) (hdot : file ≠ [46]) (hroot : dir ≠ [47]) :
    splitLast (dir ++ 47 :: file) = some (dir, file) := by
  have hcomp : components (dir ++ 47 :: file) = components dir ++ [file] := by
    rw [components_eq, components_eq, pieces_append hf]
    have hhead : (dir ++ 47 :: file).head? = dir.head? := by
      cases dir with
      | nil => exact absurd rfl hd
      | cons a t => rfl
    have hcur : includeCurDir (dir ++ 47 :: file) = includeCurDir dir := by
      rw [Bool.eq_iff_iff, includeCurDir_iff, includeCurDir_iff, pieces_append hf]
      cases hq : pieces dir with
      | nil => exact absurd hq (pieces_ne_nil _)
      | cons q qs => simp
    rw [hhead, hcur, List.filter_append, ← List.append_assoc]
    congr 1
    simp [isComponent, hne, hdot]
  unfold splitLast
  have hstart : lenBeforeBody (dir ++ 47 :: file) ≤ dir.length := by
    have : lenBeforeBody (dir ++ 47 :: file) ≤ 1 := by unfold lenBeforeBody; split_ifs <;> omega
    have : 0 < dir.length := List.length_pos_iff.mpr hd
    omega
  obtain ⟨p', s, c, h1, h2, h3, h4, h5⟩ := nextComponentBack_spec (dir ++ 47 :: file) (by simp; omega)
  rw [pieces_append hf] at h5
  simp at h5
  subst h5
  have hs : s = 47 :: file := by
    have hsl : s.length = file.length + 1 := by
      have : (nextComponentBack (dir ++ 47 :: file)).1 = s.length := congrArg Prod.fst h3
      rw [← this]
      unfold nextComponentBack
      simp only
      have hcm := congrArg Prod.snd h3
      unfold nextComponentBack at hcm
      simp only at hcm
      rw [hcm, if_neg]
      simp
      omega
    have := congrArg List.length h1
    simp at this
    exact (List.append_inj h1 (by omega)).2.symm
  subst hs
  have hp' : p' = dir := (List.append_cancel_right h1).symm
  subst hp'
  have hfuel : (p' ++ 47 :: file).length = p'.length + file.length + 1 := by simp; omega
  have hpop : popBody (p' ++ 47 :: file).length (p' ++ 47 :: file) = (p', some file) := by
    rw [hfuel]
    unfold popBody
    rw [if_pos (by simp; omega), h3]
    simp only
    rw [if_pos (by simp [isComponent, hne, hdot])]
    simp
  rw [hpop]
  simp only [Option.some.injEq, Prod.mk.injEq, and_true]
  rw [hfuel]
  unfold trimRight
  by_cases hb : lenBeforeBody p' < p'.length
  · rw [if_pos hb]
    obtain ⟨p'', s'', c'', g1, g2, g3, g4, g5⟩ := nextComponentBack_spec p' hb
    rcases ht with rfl | rfl | rfl | ⟨c, k1, k2, k3⟩
    · exact absurd rfl hd
    · exact absurd rfl hroot
    · simp [lenBeforeBody, includeCurDir] at hb
    · rw [k1] at g5
      cases g5
      rw [g3]
      simp only
      rw [if_pos (by simp [isComponent, k2, k3])]
  · rw [if_neg hb]

/-- The hypotheses of `C55_split_last` and `C55_split_join` are met: `/src/./a//x.c`. -/
example : splitLast (ascii "/src/./a//x.c") = some (ascii "/src/./a", ascii "x.c") := by decide +kernel
example : splitLast (ascii "./x.c") = some (ascii ".", ascii "x.c") := by decide +kernel
example : splitLast (ascii "x.c/") = some ([], ascii "x.c") := by decide +kernel
example : splitLast (ascii "/x.c") = some (ascii "/", ascii "x.c") := by decide +kernel
example : Trimmed (ascii "/src/./a") := Or.inr (Or.inr (Or.inr ⟨ascii "a", by decide +kernel, by decide +kernel, by decide +kernel⟩))
/-- The hypothesis of `C55_split_none` is met. -/
example : components [] = [] := rfl

end Blazesym.Util
