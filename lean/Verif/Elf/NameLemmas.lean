import Verif.Elf.NameSpec
import Verif.Elf.SymtabProps

/-! Lemmas about the name index of ELF symbol tables. -/

set_option autoImplicit false

namespace Blazesym.Elf
open Blazesym.Util Blazesym.Spec Blazesym.Spec.Elf

theorem byteKey_inj {a b : Bytes} : byteKey a = byteKey b ↔ a = b := by
  unfold byteKey
  constructor
  · intro h
    exact List.map_injective_iff.mpr (fun x y => UInt8.toNat_inj.mp) h
  · rintro rfl; rfl

/-- The pairs the name index is built from. -/
def indexPairs (σ : Sorter) (syms : List Sym) : List (Sym × Nat) :=
  (createByAddrIdx σ syms).filterMap (fun idx => (syms[idx]?).map (fun s => (s, idx)))

theorem mem_indexPairs (σ : Sorter) (syms : List Sym) (s : Sym) (i : Nat) :
    (s, i) ∈ indexPairs σ syms ↔ syms[i]? = some s ∧ Supported s := by
  unfold indexPairs
  simp only [List.mem_filterMap, Option.map_eq_some_iff, Prod.mk.injEq]
  constructor
  · rintro ⟨j, hj, s', hs', rfl, rfl⟩
    obtain ⟨s'', h1, h2⟩ := (mem_byAddrIdx σ syms j).mp hj
    rw [hs'] at h1; cases h1
    exact ⟨hs', h2⟩
  · rintro ⟨h1, h2⟩
    exact ⟨i, (mem_byAddrIdx σ syms i).mpr ⟨s, h1, h2⟩, s, h1, rfl, rfl⟩

theorem indexPairs_snd (σ : Sorter) (syms : List Sym) :
    (indexPairs σ syms).map Prod.snd = createByAddrIdx σ syms := by
  unfold indexPairs
  have h : ∀ l : List Nat, (∀ i ∈ l, i < syms.length) →
      (l.filterMap (fun idx => (syms[idx]?).map (fun s => (s, idx)))).map Prod.snd = l := by
    intro l
    induction l with
    | nil => simp
    | cons a t ih =>
      intro hl
      have ha := hl a (by simp)
      rw [List.filterMap_cons]
      simp only [List.getElem?_eq_getElem ha, Option.map_some, List.map_cons]
      rw [ih (fun i hi => hl i (by simp [hi]))]
  exact h _ (byAddrIdx_lt σ syms)

/-- An entry of the name index stands for a symbol. -/
def EntryOf (t : SymTab) (filter : Sym → Except Err Bool) (e : SymName × Nat) : Prop :=
  ∃ s, t.syms[e.2]? = some s ∧ Supported s ∧ filter s = .ok true ∧ NameAt t.strs s.name (e.1.bytes t.strs)

theorem nameAt_take {strs : Bytes} {off : Nat} {n : Bytes} (h : NameAt strs off n) :
    (strs.drop off).take n.length = n := by
  obtain ⟨rest, h1, _⟩ := h
  rw [h1]; simp

theorem collect_ok {strs : Bytes} {filter : Sym → Except Err Bool} {pairs : List (Sym × Nat)}
    {l : List (SymName × Nat)} (h : collectNames strs filter pairs = .ok l) :
    l.map Prod.snd = (pairs.filter (fun p => decide (filter p.1 = .ok true))).map Prod.snd ∧
    (∀ e ∈ l, ∃ s, (s, e.2) ∈ pairs ∧ filter s = .ok true ∧ NameAt strs s.name (e.1.bytes strs)) := by
  induction pairs generalizing l with
  | nil => simp only [collectNames] at h; cases h; simp
  | cons p rest ih =>
    obtain ⟨s, i⟩ := p
    unfold collectNames at h
    split at h
    · simp at h
    · rename_i hf
      obtain ⟨h1, h2⟩ := ih h
      refine ⟨?_, ?_⟩
      · simp [hf, h1]
      · intro e he
        obtain ⟨s', a, b⟩ := h2 e he
        exact ⟨s', by simp [a], b⟩
    · rename_i hf
      split at h
      · simp at h
      · rename_i n hn
        have hn' := (cstrAt_ok _ _ _).mp hn
        split at h
        · simp at h
        · rename_i l' hl'
          cases h
          obtain ⟨h1, h2⟩ := ih hl'
          refine ⟨?_, ?_⟩
          · simp [hf, h1]
          · intro e he
            rcases List.mem_cons.mp he with rfl | he
            · refine ⟨s, by simp, hf, ?_⟩
              unfold SymName.bytes
              rw [nameAt_take hn']; exact hn'
            · obtain ⟨s', a, b⟩ := h2 e he
              exact ⟨s', by simp [a], b⟩

theorem collect_error {strs : Bytes} {filter : Sym → Except Err Bool} {pairs : List (Sym × Nat)}
    {e : Err} (h : collectNames strs filter pairs = .error e) :
    ∃ p ∈ pairs, filter p.1 = .error e ∨
      (filter p.1 = .ok true ∧ e = .invalidInput ∧ ∀ n, ¬ NameAt strs p.1.name n) := by
  induction pairs with
  | nil => simp [collectNames] at h
  | cons p rest ih =>
    obtain ⟨s, i⟩ := p
    unfold collectNames at h
    split at h
    · rename_i e' hf; cases h; exact ⟨(s, i), by simp, Or.inl hf⟩
    · obtain ⟨p, hp, h'⟩ := ih h
      exact ⟨p, by simp [hp], h'⟩
    · rename_i hf
      split at h
      · rename_i e' he'
        cases h
        obtain ⟨a, b⟩ := cstrAt_error _ _ _ he'
        exact ⟨(s, i), by simp, Or.inr ⟨hf, a, b⟩⟩
      · split at h
        · rename_i e' he'
          cases h
          obtain ⟨p, hp, h'⟩ := ih he'
          exact ⟨p, by simp [hp], h'⟩
        · simp at h

theorem nameLe_sorted (σ : Sorter) (strs : Bytes) (l : List (SymName × Nat)) :
    SortedBy (σ.sort (nameLe strs) l) (fun e => byteKey (e.1.bytes strs)) := by
  have := σ.sorted (nameLe strs) (by
    intro a b c h1 h2
    simp only [nameLe, decide_eq_true_eq] at *
    exact le_trans h1 h2) (by
    intro a b
    simp only [nameLe, Bool.or_eq_true, decide_eq_true_eq]
    exact le_total _ _) l
  refine this.imp ?_
  intro a b h
  simpa [nameLe] using h

/-- What a successfully built name index contains. -/
theorem createStr2sym_ok {σ : Sorter} {t : SymTab} {filter : Sym → Except Err Bool}
    {l : List (SymName × Nat)} (h : createStr2sym σ t filter = .ok l) :
    SortedBy l (fun e => byteKey (e.1.bytes t.strs)) ∧ (l.map Prod.snd).Nodup ∧
    (∀ e ∈ l, EntryOf t filter e) ∧
    (∀ i s, t.syms[i]? = some s → Supported s → filter s = .ok true → i ∈ l.map Prod.snd) := by
  unfold createStr2sym at h
  simp only at h
  split at h
  · simp at h
  · rename_i l' hl'
    cases h
    obtain ⟨h1, h2⟩ := collect_ok hl'
    change l'.map Prod.snd = ((indexPairs σ t.syms).filter _).map Prod.snd at h1
    have hperm := σ.perm (nameLe t.strs) l'
    refine ⟨nameLe_sorted σ t.strs l', ?_, ?_, ?_⟩
    · rw [(hperm.map Prod.snd).nodup_iff, h1]
      have : ((indexPairs σ t.syms).map Prod.snd).Nodup := by
        rw [indexPairs_snd]; exact byAddrIdx_nodup σ t.syms
      exact this.sublist (List.Sublist.map _ List.filter_sublist)
    · intro e he
      obtain ⟨s, a, b, c⟩ := h2 e (hperm.mem_iff.mp he)
      obtain ⟨a1, a2⟩ := (mem_indexPairs σ t.syms s e.2).mp a
      exact ⟨s, a1, a2, b, c⟩
    · intro i s hi hsup hf
      rw [(hperm.map Prod.snd).mem_iff, h1]
      exact List.mem_map.mpr ⟨(s, i), List.mem_filter.mpr
        ⟨(mem_indexPairs σ t.syms s i).mpr ⟨hi, hsup⟩, by simp [hf]⟩, rfl⟩

theorem createStr2sym_error {σ : Sorter} {t : SymTab} {filter : Sym → Except Err Bool}
    {e : Err} (h : createStr2sym σ t filter = .error e) :
    ∃ s ∈ t.syms, Supported s ∧ (filter s = .error e ∨
      (filter s = .ok true ∧ e = .invalidInput ∧ ∀ n, ¬ NameAt t.strs s.name n)) := by
  unfold createStr2sym at h
  simp only at h
  split at h
  · rename_i e' he'
    cases h
    obtain ⟨⟨s, i⟩, hp, h'⟩ := collect_error he'
    obtain ⟨a, b⟩ := (mem_indexPairs σ t.syms s i).mp hp
    exact ⟨s, List.mem_of_getElem? a, b, h'⟩
  · simp at h

theorem mkSymInfo_ok {opts : FindAddrOpts} {shdrs : List Shdr} {strs : Bytes} {n : SymName}
    {s : Sym} {r : SymInfo} (hn : NameAt strs s.name (n.bytes strs))
    (h : mkSymInfo opts shdrs strs n s = .ok r) : Describes opts shdrs strs s r := by
  unfold mkSymInfo at h
  split at h
  · simp at h
  · rename_i b hb
    have hbb : b = n.bytes strs := by
      unfold SymName.name at hb
      simp only at hb
      split at hb
      · cases hb; rfl
      · simp at hb
    subst hbb
    split at h
    · simp at h
    · rename_i ty hty
      have hk : KindOf s ty := by
        rw [type_eq] at hty
        unfold tryFromElfType STT_NOTYPE STT_FUNC STT_GNU_IFUNC STT_OBJECT at hty
        unfold KindOf
        split at hty
        · cases hty; simp; assumption
        · split at hty
          · cases hty; simp; assumption
          · split at hty
            · cases hty; simp; assumption
            · simp at hty
      split at h
      · rename_i ho
        split at h
        · simp at h
        · rename_i off hoff
          cases h
          exact ⟨hn, rfl, rfl, hk, fun _ => hoff, fun hc => by simp [ho] at hc⟩
      · rename_i ho
        cases h
        exact ⟨hn, rfl, rfl, hk, fun hc => absurd hc ho, fun _ => rfl⟩

theorem mkSymInfo_succeeds {opts : FindAddrOpts} {shdrs : List Shdr} {strs : Bytes} {n : SymName}
    {s : Sym} (hn : isUtf8 (n.bytes strs) = true) (hsup : Supported s)
    (hoff : opts.fileOffset = true → ∃ o, fileOffset shdrs s = .ok o) :
    ∃ r, mkSymInfo opts shdrs strs n s = .ok r := by
  obtain ⟨ty, h1, _⟩ := tryFrom_some s hsup
  unfold mkSymInfo SymName.name
  simp only [hn, if_true, h1]
  by_cases ho : opts.fileOffset = true
  · obtain ⟨o, ho'⟩ := hoff ho
    simp [ho, ho']
  · simp [ho]

/-- Whether the symbol at an index is defined. -/
def definedAt (syms : List Sym) (i : Nat) : Bool :=
  match syms[i]? with
  | some s => s.shndx != SHN_UNDEF
  | none => false

theorem findAddrLoop_ok {name : Bytes} {opts : FindAddrOpts} {shdrs : List Shdr} {t : SymTab}
    {l : List (SymName × Nat)} {res : List SymInfo}
    (h : findAddrLoop name opts shdrs t l = .ok res) :
    List.Forall₂ (fun e r => ∃ s, t.syms[e.2]? = some s ∧ mkSymInfo opts shdrs t.strs e.1 s = .ok r)
      ((l.takeWhile (fun e => decide (e.1.bytes t.strs = name))).filter (fun e => definedAt t.syms e.2))
      res := by
  induction l generalizing res with
  | nil => simp only [findAddrLoop] at h; cases h; simp
  | cons e rest ih =>
    obtain ⟨n, i⟩ := e
    unfold findAddrLoop at h
    split at h
    · rename_i hne; cases h; simp [hne]
    · rename_i heq
      have heq : n.bytes t.strs = name := by simpa using heq
      split at h
      · simp at h
      · rename_i s hs
        split at h
        · rename_i hd
          split at h
          · simp at h
          · rename_i info hinfo
            split at h
            · simp at h
            · rename_i l' hl'
              cases h
              simp only [heq, List.takeWhile_cons, decide_true, if_true, definedAt, hs,
                List.filter_cons]
              rw [if_pos (by simpa using hd)]
              exact List.Forall₂.cons ⟨s, hs, hinfo⟩ (ih hl')
        · rename_i hd
          simp only [heq, List.takeWhile_cons, decide_true, if_true, definedAt, hs,
            List.filter_cons]
          rw [if_neg (by simpa using hd)]
          exact ih h

theorem findAddrLoop_error {name : Bytes} {opts : FindAddrOpts} {shdrs : List Shdr} {t : SymTab}
    {l : List (SymName × Nat)} {e : Err} (hin : ∀ x ∈ l, ∃ s, t.syms[x.2]? = some s)
    (h : findAddrLoop name opts shdrs t l = .error e) :
    ∃ x ∈ l, ∃ s, t.syms[x.2]? = some s ∧ Defined s ∧ x.1.bytes t.strs = name ∧
      mkSymInfo opts shdrs t.strs x.1 s = .error e := by
  induction l with
  | nil => simp [findAddrLoop] at h
  | cons x rest ih =>
    obtain ⟨n, i⟩ := x
    unfold findAddrLoop at h
    split at h
    · simp at h
    · rename_i heq
      have heq : n.bytes t.strs = name := by simpa using heq
      have hrec := ih (fun x hx => hin x (by simp [hx]))
      split at h
      · rename_i hs
        obtain ⟨s, hs'⟩ := hin (n, i) (by simp)
        simp only [hs] at hs'; cases hs'
      · rename_i s hs
        split at h
        · rename_i hd
          split at h
          · rename_i e' he'
            cases h
            exact ⟨(n, i), by simp, s, hs, hd, heq, he'⟩
          · split at h
            · rename_i e' he'
              cases h
              obtain ⟨x, hx, h'⟩ := hrec he'
              exact ⟨x, by simp [hx], h'⟩
            · simp at h
        · obtain ⟨x, hx, h'⟩ := hrec h
          exact ⟨x, by simp [hx], h'⟩

/-- In a sorted sequence in which nothing is below `k`, the elements with key `k` form a
prefix. -/
theorem takeWhile_sorted {α : Type} {κ : Type} [LinearOrder κ] (l : List α) (f : α → κ) (k : κ)
    (hs : SortedBy l f) (hge : ∀ e ∈ l, k ≤ f e) (p : α → Bool) (hp : ∀ e, p e = true ↔ f e = k)
    (e : α) : e ∈ l.takeWhile p ↔ e ∈ l ∧ f e = k := by
  induction l with
  | nil => simp
  | cons a t ih =>
    have hs' := List.pairwise_cons.mp hs
    by_cases ha : p a = true
    · rw [List.takeWhile_cons, if_pos ha, List.mem_cons,
        ih hs'.2 (fun e he => hge e (by simp [he])), List.mem_cons]
      constructor
      · rintro (rfl | h)
        · exact ⟨Or.inl rfl, (hp _).mp ha⟩
        · exact ⟨Or.inr h.1, h.2⟩
      · rintro ⟨rfl | h, h2⟩
        · exact Or.inl rfl
        · exact Or.inr ⟨h, h2⟩
    · rw [List.takeWhile_cons, if_neg ha]
      simp only [List.not_mem_nil, false_iff, not_and, List.mem_cons]
      rintro (rfl | h) hk
      · exact ha ((hp _).mpr hk)
      · have h1 := hs'.1 e h
        rw [hk] at h1
        exact ha ((hp _).mpr (le_antisymm h1 (hge a (by simp))))

theorem sorted_drop_ge {α : Type} {κ : Type} [LinearOrder κ] (l : List α) (f : α → κ)
    (hs : SortedBy l f) (n : Nat) (a : α) (ha : l[n]? = some a) (e : α) (he : e ∈ l.drop n) :
    f a ≤ f e := by
  have hn : n < l.length := (List.getElem?_eq_some_iff.mp ha).1
  have han : l[n] = a := by
    rw [List.getElem?_eq_getElem hn] at ha; exact Option.some.inj ha
  have hs' := hs.sublist (List.drop_sublist n l)
  rw [List.drop_eq_getElem_cons hn] at he hs'
  rcases List.mem_cons.mp he with rfl | he
  · rw [han]
  · rw [← han]; exact (List.pairwise_cons.mp hs').1 e he

/-- The entries a name lookup visits are those with that name. -/
theorem visited_iff (t : SymTab) (names : List (SymName × Nat)) (name : Bytes)
    (hs : SortedBy names (fun e => byteKey (e.1.bytes t.strs))) :
    (findMatchOrLowerBoundByKey names (byteKey name) (fun e => byteKey (e.1.bytes t.strs)) = none ∧
      ∀ e ∈ names, e.1.bytes t.strs ≠ name) ∨
    ∃ n, findMatchOrLowerBoundByKey names (byteKey name) (fun e => byteKey (e.1.bytes t.strs)) =
        some n ∧
      ∀ e, e ∈ (names.drop n).takeWhile (fun e => decide (e.1.bytes t.strs = name)) ↔
        e ∈ names ∧ e.1.bytes t.strs = name := by
  rcases findMatchOrLowerBound_char names _ hs (byteKey name) with ⟨h1, h2⟩ | ⟨n, k, h1, h2, h3, _⟩
  · left
    refine ⟨h1, fun e he hcon => ?_⟩
    have := h2 e he
    rw [hcon] at this
    exact absurd this (lt_irrefl _)
  · right
    refine ⟨n, h1, fun e => ?_⟩
    by_cases hk : k = byteKey name
    · subst hk
      have hfirst := h3 (Or.inl rfl)
      obtain ⟨⟨a, ha, hak⟩, hlow⟩ := hfirst
      rw [takeWhile_sorted (names.drop n) (fun e => byteKey (e.1.bytes t.strs)) (byteKey name)
        (hs.sublist (List.drop_sublist _ _))
        (fun e he => by have := sorted_drop_ge names _ hs n a ha e he; rw [hak] at this; exact this)
        _ (fun e => by simp [byteKey_inj])]
      rw [byteKey_inj]
      constructor
      · rintro ⟨h4, h5⟩; exact ⟨List.mem_of_mem_drop h4, h5⟩
      · rintro ⟨h4, h5⟩
        refine ⟨?_, h5⟩
        obtain ⟨j, hj, hje⟩ := List.mem_iff_getElem.mp h4
        have hnj : n ≤ j := by
          by_contra hcon
          exact hlow j e (by omega) (by rw [List.getElem?_eq_getElem hj, hje])
            (by simp only [h5])
        rw [List.mem_iff_getElem]
        refine ⟨j - n, by simp; omega, ?_⟩
        rw [List.getElem_drop]
        simp only [show n + (j - n) = j by omega]; exact hje
    · have hno : ∀ e ∈ names, e.1.bytes t.strs ≠ name := by
        intro e he hcon
        have h4 := h2.2.2 e he (by simp only [hcon]; exact le_refl _)
        simp only [hcon] at h4
        exact hk (le_antisymm h2.1 h4)
      constructor
      · intro h
        have hp := (List.all_eq_true.mp (List.all_takeWhile (l := names.drop n))) e h
        have hm := List.mem_of_mem_drop (List.takeWhile_sublist _ |>.subset h)
        exact absurd (by simpa using hp) (hno e hm)
      · rintro ⟨h4, h5⟩; exact absurd h5 (hno e h4)

theorem forall2_map_left {α β γ : Type} {R : β → γ → Prop} (f : α → β) (l : List α) (r : List γ) :
    List.Forall₂ R (l.map f) r ↔ List.Forall₂ (fun a c => R (f a) c) l r := by
  rw [List.forall₂_map_left_iff]

theorem forall2_imp_mem {α β : Type} {R S : α → β → Prop} {l : List α} {r : List β}
    (h : List.Forall₂ R l r) (himp : ∀ a b, a ∈ l → R a b → S a b) : List.Forall₂ S l r := by
  induction h with
  | nil => exact .nil
  | cons hab _ ih =>
    exact .cons (himp _ _ (by simp) hab) (ih (fun a b ha => himp a b (by simp [ha])))

end Blazesym.Elf
