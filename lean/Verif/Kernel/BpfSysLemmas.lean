import Verif.Kernel.BpfSysSpec
import Verif.Kernel.BpfProps
import Verif.Kernel.KsymProps
import Verif.Util.LayoutLemmas

/-! Lemmas about the system calls for BPF programs. -/

set_option autoImplicit false

namespace Blazesym.Kernel
open Blazesym.Util Blazesym.Symbolize Blazesym.Spec Blazesym.Spec.Kernel

/-! ### BTF data -/

theorem num_iff (d : Bytes) (off w v : Nat) :
    Num d off w v ↔ off + w ≤ d.length ∧ v = leAt d off w := by
  constructor
  · rintro ⟨s, ⟨pre, post, rfl, rfl, rfl⟩, rfl⟩
    refine ⟨by simp, ?_⟩
    unfold leAt
    rw [le_eq, List.append_assoc, List.drop_left, List.take_left]
  · rintro ⟨h, rfl⟩
    refine ⟨(d.drop off).take w, ⟨d.take off, (d.drop off).drop w, ?_, ?_, ?_⟩, ?_⟩
    · rw [List.append_assoc, List.take_append_drop, List.take_append_drop]
    · rw [List.length_take]; omega
    · rw [List.length_take, List.length_drop]; omega
    · rw [le_eq]; rfl

theorem parseBtf_ok (data : Bytes) (btf : Btf) : parseBtf data = .ok btf ↔ BtfHeader data btf := by
  unfold parseBtf BtfHeader
  simp only [num_iff]
  constructor
  · intro h
    split at h
    · cases h
    · rename_i h1
      split at h
      · cases h
      · rename_i h2
        split at h
        · cases h
        · rename_i h3
          have := Except.ok.inj h
          subst this
          simp only [ne_eq, Decidable.not_not] at h2 h3
          exact ⟨rfl, ⟨by omega, h2.symm⟩, ⟨by omega, h3.symm⟩, ⟨by omega, rfl⟩, ⟨by omega, rfl⟩, by omega, rfl⟩
  · rintro ⟨h1, ⟨_, h2⟩, ⟨_, h3⟩, ⟨_, h4⟩, ⟨_, h5⟩, h6, h7⟩
    rw [if_neg (by omega), if_neg (by simp [← h2]), if_neg (by simp [← h3])]
    obtain ⟨data', hdrLen, strOff, strLen⟩ := btf
    simp only at h1 h4 h5 h7
    rw [h1, h4, h5, h7]

/-! ### Calls -/

theorem permit_ok {α : Type} (s : BpfSystem) (r : Except Err α) (a : α) (h : s.permit r = .ok a) : r = .ok a := by
  unfold BpfSystem.permit at h
  split at h
  · cases h
  · exact h

theorem orNotFound_ok {α : Type} (o : Option α) (a : α) : orNotFound o = .ok a ↔ o = some a := by
  cases o <;> simp [orNotFound]

theorem nextId_ok (s : BpfSystem) (start id : Nat) (h : s.nextId start = .ok id) :
    ∃ p ∈ s.programs, p.id = id ∧ start < id := by
  have h1 := (orNotFound_ok ..).mp (permit_ok _ _ _ h)
  cases hf : s.programs.find? (fun p => decide (start < p.id)) with
  | none => rw [hf] at h1; cases h1
  | some p =>
    rw [hf] at h1
    have h2 : p.id = id := by simpa using h1
    exact ⟨p, List.mem_of_find?_eq_some hf, h2, by simpa [h2] using List.find?_some hf⟩

theorem progFd_ok (s : BpfSystem) (id : Nat) (p : Program) (h : s.progFd id = .ok p) :
    p ∈ s.programs ∧ p.id = id := by
  have h1 := (orNotFound_ok ..).mp (permit_ok _ _ _ h)
  exact ⟨List.mem_of_find?_eq_some h1, by simpa using List.find?_some h1⟩

theorem btfFd_ok (s : BpfSystem) (id : Nat) (d : Bytes) (h : s.btfFd id = .ok d) : s.btf id = some d :=
  (orNotFound_ok ..).mp (permit_ok _ _ _ h)

theorem progInfo_ok (sys : BpfHistory) (t id : Nat) (info : ProgInfo) (h : progInfo sys t id = .ok info) :
    ∃ p ∈ (sys t).programs, p.id = id ∧ info = p.info := by
  unfold progInfo at h
  cases h1 : (sys t).progFd id with
  | error e => rw [h1] at h; cases h
  | ok p =>
    rw [h1] at h
    cases h2 : (sys (t + 1)).infoCall with
    | error e => rw [h2] at h; cases h
    | ok u =>
      rw [h2] at h
      cases h3 : (sys (t + 2)).infoCall with
      | error e => rw [h3] at h; cases h
      | ok u =>
        rw [h3] at h
        have := Except.ok.inj h
        exact ⟨p, (progFd_ok _ _ _ h1).1, (progFd_ok _ _ _ h1).2, this.symm⟩

/-- Whatever a round reports about was loaded. -/
theorem rounds_loaded (sys : BpfHistory) (fuel : Nat) : ∀ (start t : Nat) (info : ProgInfo),
    Except.ok info ∈ (rounds sys fuel start t).1 → ∃ t, ∃ p ∈ (sys t).programs, info = p.info := by
  induction fuel with
  | zero => intro start t info h; simp [rounds] at h
  | succ fuel ih =>
    intro start t info h
    rw [rounds] at h
    split at h
    · simp at h
    · simp at h
    · split at h
      · simp at h
      · rename_i i hi
        simp only [List.mem_cons] at h
        rcases h with h | h
        · have := Except.ok.inj h
          subst this
          obtain ⟨p, hp, _, hp'⟩ := progInfo_ok _ _ _ _ hi
          exact ⟨_, p, hp, hp'⟩
        · exact ih _ _ _ h

/-! ### A system that does not change -/

theorem find_filter (l : List Program) (start : Nat) :
    l.find? (fun p => decide (start < p.id)) = (l.filter (fun p => decide (start < p.id))).head? := by
  rw [List.head?_filter]

theorem filter_next (l : List Program) (hs : l.Pairwise (fun p q => p.id < q.id)) (start : Nat) (p : Program)
    (rest : List Program) (h : l.filter (fun p => decide (start < p.id)) = p :: rest) :
    l.filter (fun q => decide (p.id < q.id)) = rest := by
  have hp : start < p.id := by
    have : p ∈ l.filter (fun p => decide (start < p.id)) := by rw [h]; simp
    simpa using (List.mem_filter.mp this).2
  have h1 : l.filter (fun q => decide (p.id < q.id)) =
      (l.filter (fun p => decide (start < p.id))).filter (fun q => decide (p.id < q.id)) := by
    rw [List.filter_filter]
    apply List.filter_congr
    intro q _
    by_cases hq : p.id < q.id
    · have : start < q.id := by omega
      simp [hq, this]
    · simp [hq]
  have h2 : (p :: rest).Pairwise (fun p q => p.id < q.id) := by
    rw [← h]; exact hs.sublist List.filter_sublist
  rw [h1, h, List.filter_cons_of_neg (by simp), List.filter_eq_self]
  intro q hq
  simpa using List.rel_of_pairwise_cons h2 hq

theorem infoCall_steady {s : BpfSystem} (h : s.denied = none) : s.infoCall = .ok () := by
  unfold BpfSystem.infoCall BpfSystem.permit; rw [h]

theorem progFd_steady {s : BpfSystem} (h : s.denied = none) (hs : s.programs.Pairwise (fun p q => p.id < q.id))
    (p : Program) (hp : p ∈ s.programs) : s.progFd p.id = .ok p := by
  unfold BpfSystem.progFd BpfSystem.permit
  rw [h, orNotFound_ok]
  induction hl : s.programs generalizing s with
  | nil => rw [hl] at hp; simp at hp
  | cons a l ih =>
    rw [hl] at hp hs
    rw [List.find?_cons]
    rcases List.mem_cons.mp hp with rfl | hp'
    · simp
    · have := List.rel_of_pairwise_cons hs hp'
      have hne : ¬ a.id = p.id := by omega
      simp only [hne, decide_false]
      exact ih (s := ⟨l, s.btf, none⟩) rfl hs.of_cons hp' rfl

theorem progInfo_steady {sys : BpfHistory} {s : BpfSystem} (hst : Steady sys s)
    (hs : s.programs.Pairwise (fun p q => p.id < q.id)) (p : Program) (hp : p ∈ s.programs) (t : Nat) :
    progInfo sys t p.id = .ok p.info := by
  unfold progInfo
  rw [hst.2, hst.2, hst.2, progFd_steady hst.1 hs p hp, infoCall_steady hst.1]
  rfl

theorem rounds_steady {sys : BpfHistory} {s : BpfSystem} (hst : Steady sys s)
    (hs : s.programs.Pairwise (fun p q => p.id < q.id)) (hi : ∀ p ∈ s.programs, p.id < u32Size) (fuel : Nat) :
    ∀ (start t : Nat), start < u32Size → u32Size ≤ fuel + start →
      (rounds sys fuel start t).1 = (s.programs.filter (fun p => decide (start < p.id))).map (fun p => .ok p.info) := by
  induction fuel with
  | zero => intro start t h1 h2; omega
  | succ fuel ih =>
    intro start t h1 h2
    rw [rounds]
    have hn : (sys t).nextId start =
        orNotFound (((s.programs.filter (fun p => decide (start < p.id))).head?).map Program.id) := by
      rw [hst.2]
      unfold BpfSystem.nextId BpfSystem.permit
      rw [hst.1, find_filter]
    rw [hn]
    cases hf : s.programs.filter (fun p => decide (start < p.id)) with
    | nil => rfl
    | cons p rest =>
      have hp : p ∈ s.programs.filter (fun p => decide (start < p.id)) := by rw [hf]; simp
      obtain ⟨hp1, hp2⟩ := List.mem_filter.mp hp
      have hp2 : start < p.id := by simpa using hp2
      simp only [List.head?_cons, Option.map_some, orNotFound]
      rw [progInfo_steady hst hs p hp1]
      simp only [List.map_cons]
      rw [ih p.id (t + 4) (hi p hp1) (by omega), filter_next _ hs start p rest hf]

theorem allRounds_steady {sys : BpfHistory} {s : BpfSystem} (hst : Steady sys s) (hr : Regular sys) (t : Nat) :
    (allRounds sys t).1 = (s.programs.map Program.info).map .ok := by
  have hs : s.programs.Pairwise (fun p q => p.id < q.id) := by have := hr.sorted 0; rwa [hst.2] at this
  have hi : ∀ p ∈ s.programs, 0 < p.id ∧ p.id < u32Size := by have := hr.ids 0; rwa [hst.2] at this
  unfold allRounds
  rw [rounds_steady hst hs (fun p hp => (hi p hp).2) u32Size 0 t (by decide) (by omega), List.map_map]
  congr 1
  rw [List.filter_eq_self]
  intro p hp
  simpa using (hi p hp).1

theorem loadBtf_ok (sys : BpfHistory) (t id : Nat) (r : Option Btf) (h : loadBtf sys t id = .ok r) :
    (id = 0 ∧ r = none) ∨ (id ≠ 0 ∧ ∃ data btf, (sys t).btf id = some data ∧ BtfHeader data btf ∧ r = some btf) := by
  unfold loadBtf at h
  by_cases hid : id = 0
  · rw [if_pos hid] at h
    exact Or.inl ⟨hid, (Except.ok.inj h).symm⟩
  · rw [if_neg hid] at h
    refine Or.inr ⟨hid, ?_⟩
    cases h1 : (sys t).btfFd id with
    | error e => rw [h1] at h; cases h
    | ok data =>
      rw [h1] at h
      cases h2 : (sys (t + 1)).infoCall with
      | error e => rw [h2] at h; cases h
      | ok u =>
        rw [h2] at h
        cases h3 : (sys (t + 2)).infoCall with
        | error e => rw [h3] at h; cases h
        | ok u =>
          rw [h3] at h
          have h' : (parseBtf data >>= fun btf => pure (some btf)) = (Except.ok r : Except Err _) := h
          cases h4 : parseBtf data with
          | error e => rw [h4] at h'; cases h'
          | ok btf =>
            rw [h4] at h'
            exact ⟨data, btf, btfFd_ok _ _ _ h1, (parseBtf_ok ..).mp h4, (Except.ok.inj h').symm⟩

/-- Line records that were retrieved are those of the program. -/
theorem queryAt_ok (sys : BpfHistory) (t : Nat) (p : Program) (lines : Option (List LineInfoRecord))
    (h : queryAt sys t p = .ok lines) : Supported p ∧ LinesOf (sys (t + 1)).btf p lines := by
  unfold queryAt at h
  by_cases h1 : p.lineRecSize = 16
  · rw [if_neg (by simpa using h1)] at h
    by_cases h2 : p.jitedRecSize = 8
    · rw [if_neg (by simpa using h2)] at h
      simp only at h
      refine ⟨⟨h1, h2⟩, ?_⟩
      cases h3 : (sys t).infoCall with
      | error e => rw [h3] at h; cases h
      | ok u =>
        rw [h3] at h
        cases h4 : loadBtf sys (t + 1) p.btfId with
        | error e => simp only [h4] at h; cases h
        | ok r =>
          simp only [h4] at h
          rcases loadBtf_ok _ _ _ _ h4 with ⟨h5, rfl⟩ | ⟨h5, data, btf, h6, h7, rfl⟩
          · have : (none : Option (List LineInfoRecord)) = lines := Except.ok.inj h
            subst this
            exact .none h5
          · cases h8 : queryLineInfo btf p.lineInfo p.jited with
            | error e =>
              have h' : (queryLineInfo btf p.lineInfo p.jited >>= fun records => pure (some records)) =
                (Except.ok lines : Except Err _) := h
              rw [h8] at h'; cases h'
            | ok rs =>
              have h' : (queryLineInfo btf p.lineInfo p.jited >>= fun records => pure (some records)) =
                (Except.ok lines : Except Err _) := h
              rw [h8] at h'
              have : some rs = lines := Except.ok.inj h'
              subst this
              exact .some data btf rs h5 h6 h7 ((C58_records ..).mp h8)
    · rw [if_pos (by simpa using h2)] at h
      cases h
  · rw [if_pos (by simpa using h1)] at h
    cases h

theorem queryAt_steady {sys : BpfHistory} {s : BpfSystem} (hst : Steady sys s) (t : Nat) (p : Program)
    (hp : Supported p) (lines : Option (List LineInfoRecord)) (h : LinesOf s.btf p lines) :
    queryAt sys t p = .ok lines := by
  unfold queryAt
  rw [if_neg (by simpa using hp.1), if_neg (by simpa using hp.2)]
  simp only [hst.2, infoCall_steady hst.1]
  unfold loadBtf
  cases h with
  | none h1 => rw [if_pos h1]; rfl
  | some data btf rs h1 h2 h3 h4 =>
    rw [if_neg h1]
    have h5 : (sys (t + 1)).btfFd p.btfId = .ok data := by
      rw [hst.2]
      unfold BpfSystem.btfFd BpfSystem.permit
      rw [hst.1, orNotFound_ok, h2]
    have h6 : ∀ t', (sys t').infoCall = .ok () := fun t' => by rw [hst.2]; exact infoCall_steady hst.1
    have h7 := (parseBtf_ok ..).mpr h3
    have h8 := (C58_records ..).mpr h4
    simp only [h5, h6]
    show (do
      let r ← (do let btf ← parseBtf data; pure (some btf) : Except Err (Option Btf))
      match r with
        | none => pure none
        | some btf => do
          let records ← queryLineInfo btf p.lineInfo p.jited
          pure (some records)) = Except.ok (some rs)
    rw [h7]
    show (queryLineInfo btf p.lineInfo p.jited >>= fun records => pure (some records)) = _
    rw [h8]
    rfl

end Blazesym.Kernel
