import Verif.Elf.Notes
import Verif.Elf.NotesSpec
import Verif.Elf.ImageProps
import Verif.Util.ReaderProps

/-! Property theorems C41 (debug link section) and C49 (build ID). -/

set_option autoImplicit false

namespace Blazesym.Elf
open Blazesym.Util Blazesym.Spec Blazesym.Spec.Elf

theorem alignUp4 {size n : Nat} (h : n + 3 < size) : alignUp size n 4 = .ok (n + pad4 n) := by
  unfold alignUp
  rw [if_pos h]
  congr 1
  unfold pad4
  omega

theorem alignUp4_panic {size n : Nat} (h : size ≤ n + 3) : alignUp size n 4 = .error .panic := by
  unfold alignUp
  rw [if_neg (by omega)]

theorem noteHead_iff (d : Bytes) (type : Nat) (name desc tail : Bytes) :
    NoteHead d type name desc tail ↔
      12 ≤ d.length ∧ type = field d 8 4 ∧
      12 + (field d 0 4 + pad4 (field d 0 4)) + field d 4 4 ≤ d.length ∧
      name = (d.drop 12).take (field d 0 4) ∧
      desc = (d.drop (12 + (field d 0 4 + pad4 (field d 0 4)))).take (field d 4 4) ∧
      tail = d.drop (12 + (field d 0 4 + pad4 (field d 0 4)) + field d 4 4) := by
  constructor
  · rintro ⟨hdr, pad, rfl, hh, hn, hd, ht, hp⟩
    have fx (k : Nat) (hk : k + 4 ≤ 12) : field (hdr ++ name ++ pad ++ desc ++ tail) k 4 = field hdr k 4 := by
      unfold field
      rw [List.append_assoc, List.append_assoc, List.append_assoc, List.drop_append_of_le_length (by omega),
        List.take_append_of_le_length (by rw [List.length_drop]; omega)]
    rw [fx 0 (by omega), fx 4 (by omega), fx 8 (by omega)]
    rw [← ((num_iff _ _ _ _).mp hn).2, ← ((num_iff _ _ _ _).mp hd).2, ← ((num_iff _ _ _ _).mp ht).2]
    refine ⟨by simp; omega, rfl, by simp; omega, ?_, ?_, ?_⟩
    · simp only [List.append_assoc]
      rw [List.drop_left' hh, List.take_left' rfl]
    · have : hdr ++ name ++ pad ++ desc ++ tail = (hdr ++ name ++ pad) ++ (desc ++ tail) := by
        simp [List.append_assoc]
      rw [this, List.drop_left' (by simp; omega), List.take_left' rfl]
    · rw [List.drop_left' (by simp; omega)]
  · rintro ⟨h12, ht, hl, hn, hd, htl⟩
    have e1 : d = d.take 12 ++ d.drop 12 := (List.take_append_drop 12 d).symm
    have e2 : d.drop 12 = name ++ d.drop (12 + field d 0 4) := by
      conv_lhs => rw [← List.take_append_drop (field d 0 4) (d.drop 12)]
      rw [← hn, List.drop_drop]
    have e3 : d.drop (12 + field d 0 4) = (d.drop (12 + field d 0 4)).take (pad4 (field d 0 4)) ++
        d.drop (12 + (field d 0 4 + pad4 (field d 0 4))) := by
      conv_lhs => rw [← List.take_append_drop (pad4 (field d 0 4)) (d.drop (12 + field d 0 4))]
      rw [List.drop_drop, Nat.add_assoc]
    have e4 : d.drop (12 + (field d 0 4 + pad4 (field d 0 4))) = desc ++ tail := by
      conv_lhs => rw [← List.take_append_drop (field d 4 4)
        (d.drop (12 + (field d 0 4 + pad4 (field d 0 4))))]
      rw [← hd, List.drop_drop, ← htl]
    have ln : name.length = field d 0 4 := by rw [hn]; simp; omega
    have ld : desc.length = field d 4 4 := by rw [hd]; simp; omega
    have fx (k : Nat) (hk : k + 4 ≤ 12) : field (d.take 12) k 4 = field d k 4 := by
      have := field_sub d 0 12 k 4 hk
      simpa using this
    refine ⟨d.take 12, (d.drop (12 + field d 0 4)).take (pad4 (field d 0 4)), ?_, by simp; omega, ?_, ?_, ?_, ?_⟩
    · conv_lhs => rw [e1, e2, e3, e4]
      simp [List.append_assoc]
    · exact (num_iff _ _ _ _).mpr ⟨by simp; omega, by rw [fx 0 (by omega), ln]⟩
    · exact (num_iff _ _ _ _).mpr ⟨by simp; omega, by rw [fx 4 (by omega), ld]⟩
    · exact (num_iff _ _ _ _).mpr ⟨by simp; omega, by rw [fx 8 (by omega), ht]⟩
    · rw [ln]; simp; omega

/-- One round of the loop on an aligned cursor, with the header's fields read off the data. -/
theorem notesLoop_step (fuel addr : Nat) (d : Bytes) (ha : addr % 4 = 0) (h12 : 12 ≤ d.length) :
    notesLoop (fuel + 1) ⟨addr, d⟩ =
      if u32Size ≤ field d 0 4 + 3 then .error .panic
      else if d.length < 12 + (field d 0 4 + pad4 (field d 0 4)) then .error .invalidData
      else if field d 8 4 = 3 then
        if d.length < 12 + (field d 0 4 + pad4 (field d 0 4)) + field d 4 4 then .error .invalidData
        else .ok (some ((d.drop (12 + (field d 0 4 + pad4 (field d 0 4)))).take (field d 4 4)))
      else if u32Size ≤ field d 4 4 + 3 then .error .panic
      else if d.length < 12 + (field d 0 4 + pad4 (field d 0 4)) + (field d 4 4 + pad4 (field d 4 4)) then
        .error .invalidData
      else notesLoop fuel
        ⟨addr + 12 + (field d 0 4 + pad4 (field d 0 4)) + (field d 4 4 + pad4 (field d 4 4)),
          d.drop (12 + (field d 0 4 + pad4 (field d 0 4)) + (field d 4 4 + pad4 (field d 4 4)))⟩ := by
  have fx (k : Nat) (hk : k + 4 ≤ 12) : field (d.take 12) k 4 = field d k 4 := by
    have := field_sub d 0 12 k 4 hk
    simpa using this
  conv_lhs => unfold notesLoop
  rw [if_pos h12]
  have hr : readPodRef 12 4 ⟨addr, d⟩ = (.ok (d.take 12), ⟨addr + 12, d.drop 12⟩) := by
    unfold readPodRef
    rw [readSlice_ok h12]
    simp only [alignOffset_zero ha, if_true]
  rw [hr]
  simp only [fx 0 (by omega), fx 4 (by omega), fx 8 (by omega)]
  by_cases h1 : u32Size ≤ field d 0 4 + 3
  · rw [alignUp4_panic h1, if_pos h1]
  · rw [alignUp4 (by omega), if_neg h1]
    simp only
    by_cases h2 : d.length < 12 + (field d 0 4 + pad4 (field d 0 4))
    · rw [if_pos h2, advance_none (by simp only [List.length_drop]; omega)]
    · rw [if_neg h2, advance_ok (by simp only [List.length_drop]; omega)]
      simp only [List.drop_drop]
      by_cases h3 : field d 8 4 = 3
      · rw [if_pos (show field d 8 4 = NT_GNU_BUILD_ID from h3), if_pos h3]
        by_cases h4 : d.length < 12 + (field d 0 4 + pad4 (field d 0 4)) + field d 4 4
        · rw [if_pos h4, readSlice_none (by simp only [List.length_drop]; omega)]
        · rw [if_neg h4, readSlice_ok (by simp only [List.length_drop]; omega)]
      · rw [if_neg (show ¬ field d 8 4 = NT_GNU_BUILD_ID from h3), if_neg h3]
        by_cases h5 : u32Size ≤ field d 4 4 + 3
        · rw [alignUp4_panic h5, if_pos h5]
        · rw [alignUp4 (by omega), if_neg h5]
          simp only
          by_cases h6 : d.length < 12 + (field d 0 4 + pad4 (field d 0 4)) + (field d 4 4 + pad4 (field d 4 4))
          · rw [if_pos h6, advance_none (by simp only [List.length_drop]; omega)]
          · rw [if_neg h6, advance_ok (by simp only [List.length_drop]; omega)]
            simp only [List.drop_drop]

theorem up4_mod (n : Nat) : (n + pad4 n) % 4 = 0 := by unfold pad4; omega

theorem notesLoop_ok (fuel addr : Nat) (d : Bytes) (r : Option Bytes) (ha : addr % 4 = 0)
    (hf : d.length < fuel) (h : notesLoop fuel ⟨addr, d⟩ = .ok r) : Justified d r := by
  induction fuel generalizing addr d with
  | zero => omega
  | succ fuel ih =>
    by_cases h12 : 12 ≤ d.length
    · rw [notesLoop_step fuel addr d ha h12] at h
      by_cases h1 : u32Size ≤ field d 0 4 + 3
      · rw [if_pos h1] at h; cases h
      rw [if_neg h1] at h
      by_cases h2 : d.length < 12 + (field d 0 4 + pad4 (field d 0 4))
      · rw [if_pos h2] at h; cases h
      rw [if_neg h2] at h
      by_cases h3 : field d 8 4 = 3
      · rw [if_pos h3] at h
        by_cases h4 : d.length < 12 + (field d 0 4 + pad4 (field d 0 4)) + field d 4 4
        · rw [if_pos h4] at h; cases h
        rw [if_neg h4] at h
        cases h
        exact ⟨[], d, _, _, .nil d, by simp, (noteHead_iff _ _ _ _ _).mpr
          ⟨h12, h3.symm, by omega, rfl, rfl, rfl⟩⟩
      · rw [if_neg h3] at h
        by_cases h5 : u32Size ≤ field d 4 4 + 3
        · rw [if_pos h5] at h; cases h
        rw [if_neg h5] at h
        by_cases h6 : d.length < 12 + (field d 0 4 + pad4 (field d 0 4)) + (field d 4 4 + pad4 (field d 4 4))
        · rw [if_pos h6] at h; cases h
        rw [if_neg h6] at h
        have hj := ih _ _ (by have := up4_mod (field d 0 4); have := up4_mod (field d 4 4); omega)
          (by simp only [List.length_drop]; omega) h
        have hhead : NoteHead d (field d 8 4) ((d.drop 12).take (field d 0 4))
            ((d.drop (12 + (field d 0 4 + pad4 (field d 0 4)))).take (field d 4 4))
            ((d.drop (12 + (field d 0 4 + pad4 (field d 0 4)) + field d 4 4)).take (pad4 (field d 4 4)) ++
              d.drop (12 + (field d 0 4 + pad4 (field d 0 4)) + (field d 4 4 + pad4 (field d 4 4)))) := by
          refine (noteHead_iff _ _ _ _ _).mpr ⟨h12, rfl, by omega, rfl, rfl, ?_⟩
          conv_rhs => rw [← List.take_append_drop (pad4 (field d 4 4))
            (d.drop (12 + (field d 0 4 + pad4 (field d 0 4)) + field d 4 4))]
          rw [List.drop_drop]
          congr 2
          omega
        have hpad : ((d.drop (12 + (field d 0 4 + pad4 (field d 0 4)) + field d 4 4)).take
            (pad4 (field d 4 4))).length =
            pad4 ((d.drop (12 + (field d 0 4 + pad4 (field d 0 4)))).take (field d 4 4)).length := by
          have : ((d.drop (12 + (field d 0 4 + pad4 (field d 0 4)))).take (field d 4 4)).length =
              field d 4 4 := by simp; omega
          rw [this]; simp; omega
        cases r with
        | none =>
          obtain ⟨ns, rest, k1, k2, k3⟩ := hj
          exact ⟨_, rest, .cons _ _ _ _ _ _ _ _ hhead hpad k1, by
            intro n hn
            rcases List.mem_cons.mp hn with rfl | hn
            · exact h3
            · exact k2 n hn, k3⟩
        | some id =>
          obtain ⟨ns, rest, name, tail, k1, k2, k3⟩ := hj
          exact ⟨_, rest, name, tail, .cons _ _ _ _ _ _ _ _ hhead hpad k1, by
            intro n hn
            rcases List.mem_cons.mp hn with rfl | hn
            · exact h3
            · exact k2 n hn, k3⟩
    · simp only [notesLoop] at h
      rw [if_neg (by omega)] at h
      cases h
      exact ⟨[], d, .nil d, by simp, by omega⟩

/-- **C49** (partial) a build ID reported for a note section is the descriptor of its first
note of type 3; if none is reported there is no such note.  Everything is inside of the
section.  Missing from the full property: that the note's owner is "GNU", see
`C49_other_owner`. -/
theorem C49_notes_sound_partial (addr : Nat) (d : Bytes) (r : Option Bytes) (ha : addr % 4 = 0)
    (h : readNotes addr d = .ok r) : Justified d r :=
  notesLoop_ok _ _ _ _ ha (by omega) h

theorem notesLoop_complete (d : Bytes) (ns : List (Nat × Bytes × Bytes)) (rest : Bytes)
    (hN : Notes d ns rest) (h3 : ∀ n ∈ ns, n.1 ≠ 3)
    (hsz : ∀ n ∈ ns, n.2.1.length + 3 < 2 ^ 32 ∧ n.2.2.length + 3 < 2 ^ 32) (fuel addr : Nat)
    (ha : addr % 4 = 0) (hf : d.length < fuel) :
    ∃ fuel' addr', rest.length < fuel' ∧ addr' % 4 = 0 ∧
      notesLoop fuel ⟨addr, d⟩ = notesLoop fuel' ⟨addr', rest⟩ := by
  induction hN generalizing fuel addr with
  | nil d => exact ⟨fuel, addr, hf, ha, rfl⟩
  | cons d type name desc pad d' rest ns hhead hpad _ ih =>
    cases fuel with
    | zero => omega
    | succ fuel =>
      have s3 : type ≠ 3 := h3 (type, name, desc) (by simp)
      have ssz := hsz (type, name, desc) (by simp)
      simp only at ssz
      obtain ⟨a1, a2, a3, a4, a5, a6⟩ := (noteHead_iff _ _ _ _ _).mp hhead
      have ln : name.length = field d 0 4 := by rw [a4]; simp; omega
      have ld : desc.length = field d 4 4 := by rw [a5]; simp; omega
      have ltot : pad.length + d'.length = d.length - (12 + (field d 0 4 + pad4 (field d 0 4)) + field d 4 4) := by
        have := congrArg List.length a6
        simpa using this
      rw [notesLoop_step fuel addr d ha a1, if_neg (by unfold u32Size; omega), if_neg (by omega),
        if_neg (by rw [← a2]; exact s3), if_neg (by unfold u32Size; omega),
        if_neg (by rw [hpad, ld] at ltot; omega)]
      have hd' : d' = d.drop (12 + (field d 0 4 + pad4 (field d 0 4)) + (field d 4 4 + pad4 (field d 4 4))) := by
        have : d' = (pad ++ d').drop pad.length := by simp
        rw [this, a6, List.drop_drop, hpad, ld, Nat.add_assoc _ (field d 4 4)]
      rw [← hd']
      exact ih (fun n hn => h3 n (by simp [hn])) (fun n hn => hsz n (by simp [hn])) fuel _
        (by have := up4_mod (field d 0 4); have := up4_mod (field d 4 4); omega) (by omega)

/-- **C49** the build ID in a sequence of well-formed notes is found: the descriptor of the
first note of type 3, whatever precedes and follows it. -/
theorem C49_notes_complete (addr : Nat) (d : Bytes) (ns : List (Nat × Bytes × Bytes))
    (rest name id tail : Bytes) (ha : addr % 4 = 0) (hN : Notes d ns rest) (h3 : ∀ n ∈ ns, n.1 ≠ 3)
    (hsz : ∀ n ∈ ns, n.2.1.length + 3 < 2 ^ 32 ∧ n.2.2.length + 3 < 2 ^ 32)
    (hid : NoteHead rest 3 name id tail) (hnm : name.length + 3 < 2 ^ 32) :
    readNotes addr d = .ok (some id) := by
  obtain ⟨fuel', addr', hf, ha', he⟩ := notesLoop_complete d ns rest hN h3 hsz _ addr ha (Nat.lt_succ_self _)
  unfold readNotes
  rw [he]
  obtain ⟨a1, a2, a3, a4, a5, a6⟩ := (noteHead_iff _ _ _ _ _).mp hid
  cases fuel' with
  | zero => omega
  | succ fuel' =>
    have ln : name.length = field rest 0 4 := by rw [a4]; simp; omega
    rw [notesLoop_step fuel' addr' rest ha' a1, if_neg (by unfold u32Size; omega), if_neg (by omega),
      if_pos a2.symm, if_neg (by omega), a5]

/-- **C49** notes without a build ID yield none. -/
theorem C49_notes_none (addr : Nat) (d : Bytes) (ns : List (Nat × Bytes × Bytes)) (rest : Bytes)
    (ha : addr % 4 = 0) (hN : Notes d ns rest) (h3 : ∀ n ∈ ns, n.1 ≠ 3)
    (hsz : ∀ n ∈ ns, n.2.1.length + 3 < 2 ^ 32 ∧ n.2.2.length + 3 < 2 ^ 32) (hr : rest.length < 12) :
    readNotes addr d = .ok none := by
  obtain ⟨fuel', addr', hf, ha', he⟩ := notesLoop_complete d ns rest hN h3 hsz _ addr ha (Nat.lt_succ_self _)
  unfold readNotes
  rw [he]
  cases fuel' with
  | zero => omega
  | succ fuel' => simp only [notesLoop]; rw [if_neg (by omega)]

/-- **C49** (negative) the owner of the note is not checked: the descriptor of any type 3
note is reported, for example that of a SystemTap probe (`stapsdt`, `NT_STAPSDT` = 3). -/
theorem C49_other_owner (addr : Nat) (d name id tail : Bytes) (ha : addr % 4 = 0)
    (hid : NoteHead d 3 name id tail) (hnm : name.length + 3 < 2 ^ 32) :
    readNotes addr d = .ok (some id) :=
  C49_notes_complete addr d [] d name id tail ha (.nil d) (by simp) (by simp) hid hnm

/-- A `.note.stapsdt` section: name "stapsdt", a 4 byte descriptor. -/
def stapsdt : Bytes :=
  [8, 0, 0, 0, 4, 0, 0, 0, 3, 0, 0, 0, 115, 116, 97, 112, 115, 100, 116, 0, 1, 2, 3, 4]

example : readNotes 4096 stapsdt = .ok (some [1, 2, 3, 4]) := by decide

/-- A "GNU" property note (type 5), then a build ID note. -/
def gnuNotes : Bytes :=
  [4, 0, 0, 0, 1, 0, 0, 0, 5, 0, 0, 0, 71, 78, 85, 0, 9, 0, 0, 0] ++
  [4, 0, 0, 0, 3, 0, 0, 0, 3, 0, 0, 0, 71, 78, 85, 0, 170, 187, 204, 0]

example : readNotes 4096 gnuNotes = .ok (some [170, 187, 204]) := by decide

/-- **C49** (negative) a name size of 2^32 - 3 or more overflows the computation of the
padded size: a panic instead of an error. -/
theorem C49_overflow_panics (addr : Nat) (d : Bytes) (n : Nat) (ha : addr % 4 = 0)
    (h12 : 12 ≤ d.length) (hn : Num d 0 4 n) (hb : 2 ^ 32 ≤ n + 3) :
    readNotes addr d = .error .panic := by
  unfold readNotes
  rw [notesLoop_step _ _ _ ha h12, if_pos]
  rw [← ((num_iff _ _ _ _).mp hn).2]
  unfold u32Size
  omega

example : readNotes 4096 (List.replicate 12 255) = .error .panic := by decide

/-- The section at index `j` has no build ID if it is a note section. -/
def NoId (c : Codec) (b : Backend) (j : Nat) (s : Shdr) : Prop :=
  s.type = 7 → ∃ data, sectionData c b j = .ok data ∧ readNotes (sectionAddr c b s) data = .ok none

/-- What the result of the loop says about the sections `l`, the first one having index `k`. -/
def FoundIn (c : Codec) (b : Backend) (k : Nat) (l : List Shdr) : Option Bytes → Prop
  | some id => ∃ i s data, l[i]? = some s ∧ s.type = 7 ∧ sectionData c b (k + i) = .ok data ∧
      readNotes (sectionAddr c b s) data = .ok (some id) ∧
      ∀ j < i, ∀ s', l[j]? = some s' → NoId c b (k + j) s'
  | none => ∀ j s', l[j]? = some s' → NoId c b (k + j) s'

theorem foundIn_cons {c : Codec} {b : Backend} {k : Nat} {s : Shdr} {l : List Shdr} {r : Option Bytes}
    (h0 : NoId c b k s) (h : FoundIn c b (k + 1) l r) : FoundIn c b k (s :: l) r := by
  have stp (j : Nat) (s' : Shdr) (hs' : (s :: l)[j]? = some s')
      (hr : ∀ j', j = j' + 1 → l[j']? = some s' → NoId c b (k + 1 + j') s') : NoId c b (k + j) s' := by
    cases j with
    | zero => simp only [List.getElem?_cons_zero, Option.some.injEq] at hs'; subst hs'; exact h0
    | succ j =>
      have := hr j rfl (by simpa using hs')
      rwa [show k + (j + 1) = k + 1 + j by omega]
  cases r with
  | some id =>
    obtain ⟨i, s', data, k1, k2, k3, k4, k5⟩ := h
    refine ⟨i + 1, s', data, by simpa using k1, k2, ?_, k4, ?_⟩
    · rwa [show k + (i + 1) = k + 1 + i by omega]
    · intro j hj s'' hs''
      exact stp j s'' hs'' (fun j' hj' ht => k5 j' (by omega) s'' ht)
  | none =>
    intro j s'' hs''
    exact stp j s'' hs'' (fun j' _ ht => h j' s'' ht)

theorem buildIdLoop_ok {c : Codec} {b : Backend} {idx : Nat} {l : List Shdr} {r : Option Bytes}
    (h : buildIdLoop c b idx l = .ok r) : FoundIn c b idx l r := by
  induction l generalizing idx with
  | nil => simp only [buildIdLoop] at h; cases h; simp [FoundIn]
  | cons s t ih =>
    simp only [buildIdLoop] at h
    by_cases h7 : s.type = 7
    · rw [if_pos (show s.type = SHT_NOTE from h7)] at h
      cases hd : sectionData c b idx with
      | error e => rw [hd] at h; cases h
      | ok data =>
        rw [hd] at h
        simp only at h
        cases hn : readNotes (sectionAddr c b s) data with
        | error e => rw [hn] at h; cases h
        | ok o =>
          rw [hn] at h
          cases o with
          | some id =>
            cases h
            exact ⟨0, s, data, rfl, h7, hd, hn, fun j hj => by omega⟩
          | none => exact foundIn_cons (fun _ => ⟨data, hd, hn⟩) (ih h)
    · rw [if_neg (show ¬ s.type = SHT_NOTE from h7)] at h
      exact foundIn_cons (fun h => absurd h h7) (ih h)

/-- **C49** (partial, see `C49_notes_sound_partial`) the build ID of a file comes from the
first note section (type `SHT_NOTE` = 7) that contains one. -/
theorem C49_read_build_id_partial (c : Codec) (b : Backend) (id : Bytes)
    (h : readBuildId c b = .ok (some id)) :
    ∃ l i s data, parseShdrs b = .ok l ∧ l[i]? = some s ∧ s.type = 7 ∧
      sectionData c b i = .ok data ∧ readNotes (sectionAddr c b s) data = .ok (some id) ∧
      ∀ j < i, ∀ s', l[j]? = some s' → s'.type = 7 → ∃ data', sectionData c b j = .ok data' ∧
        readNotes (sectionAddr c b s') data' = .ok none := by
  unfold readBuildId at h
  cases hp : parseShdrs b with
  | error e => rw [hp] at h; cases h
  | ok l =>
    rw [hp] at h
    obtain ⟨i, s, data, k1, k2, k3, k4, k5⟩ := buildIdLoop_ok h
    rw [Nat.zero_add] at k3
    exact ⟨l, i, s, data, rfl, k1, k2, k3, k4, fun j hj s' hs' h7 => by
      have := k5 j hj s' hs' h7; rwa [Nat.zero_add] at this⟩

/-- **C49** a file is reported to have no build ID only if every note section was read and
has none. -/
theorem C49_no_build_id (c : Codec) (b : Backend) (h : readBuildId c b = .ok none) :
    ∃ l, parseShdrs b = .ok l ∧ ∀ j s, l[j]? = some s → s.type = 7 →
      ∃ data, sectionData c b j = .ok data ∧ readNotes (sectionAddr c b s) data = .ok none := by
  unfold readBuildId at h
  cases hp : parseShdrs b with
  | error e => rw [hp] at h; cases h
  | ok l =>
    rw [hp] at h
    refine ⟨l, rfl, fun j s hs h7 => ?_⟩
    have := buildIdLoop_ok h j s hs h7
    rwa [Nat.zero_add] at this

/-- **C49** (negative) a note section that cannot be read (for example because it extends
beyond the end of the file) makes the call panic. -/
theorem C49_unreadable_panics (c : Codec) (b : Backend) (pre : List Shdr) (s : Shdr) (post : List Shdr)
    (e : Err) (hl : parseShdrs b = .ok (pre ++ s :: post)) (hpre : ∀ x ∈ pre, x.type ≠ 7)
    (hs : s.type = 7) (he0 : sectionData c b pre.length = .error e) :
    readBuildId c b = .error .panic := by
  unfold readBuildId
  rw [hl]
  simp only
  have gen (k : Nat) (he : sectionData c b (k + pre.length) = .error e) :
      buildIdLoop c b k (pre ++ s :: post) = .error .panic := by
    clear hl he0
    induction pre generalizing k with
    | nil =>
      simp only [List.nil_append, buildIdLoop]
      rw [if_pos (show s.type = SHT_NOTE from hs)]
      simp only [List.length_nil, Nat.add_zero] at he
      rw [he]
    | cons x pre ih =>
      simp only [List.cons_append, buildIdLoop]
      rw [if_neg (show ¬ x.type = SHT_NOTE from hpre x (by simp))]
      refine ih (fun y hy => hpre y (by simp [hy])) (k + 1) ?_
      rw [show k + 1 + pre.length = k + (x :: pre).length by simp; omega]; exact he
  exact gen 0 (by rw [Nat.zero_add]; exact he0)

/-- **C49** the first note section with a build ID determines the result, if the note
sections before it are fine. -/
theorem C49_build_id_found (c : Codec) (b : Backend) (l : List Shdr) (i : Nat) (s : Shdr)
    (data id : Bytes) (hl : parseShdrs b = .ok l) (hi : l[i]? = some s) (h7 : s.type = 7)
    (hd : sectionData c b i = .ok data) (hn : readNotes (sectionAddr c b s) data = .ok (some id))
    (hb : ∀ j < i, ∀ s', l[j]? = some s' → s'.type = 7 → ∃ data', sectionData c b j = .ok data' ∧
        readNotes (sectionAddr c b s') data' = .ok none) :
    readBuildId c b = .ok (some id) := by
  unfold readBuildId
  rw [hl]
  simp only
  clear hl
  have gen (k : Nat) (hd : sectionData c b (k + i) = .ok data)
      (hb : ∀ j < i, ∀ s', l[j]? = some s' → NoId c b (k + j) s') :
      buildIdLoop c b k l = .ok (some id) := by
    clear * - hi h7 hd hb hn
    induction l generalizing k i with
    | nil => simp at hi
    | cons x t ih =>
      simp only [buildIdLoop]
      cases i with
      | zero =>
        simp only [List.getElem?_cons_zero, Option.some.injEq] at hi
        subst hi
        rw [if_pos (show x.type = SHT_NOTE from h7), show sectionData c b k = _ from hd]
        simp only [hn]
      | succ i =>
        have hrest := ih i (by simpa using hi) (k + 1)
          (by rwa [show k + 1 + i = k + (i + 1) by omega])
          (fun j hj s' hs' => by
            have := hb (j + 1) (by omega) s' (by simpa using hs')
            rwa [show k + 1 + j = k + (j + 1) by omega])
        by_cases hx : x.type = 7
        · obtain ⟨data', d1, d2⟩ := hb 0 (by omega) x rfl hx
          rw [if_pos (show x.type = SHT_NOTE from hx), show sectionData c b k = _ from d1]
          simp only [d2, hrest]
        · rw [if_neg (show ¬ x.type = SHT_NOTE from hx), hrest]
  exact gen 0 (by rwa [Nat.zero_add]) (fun j hj s' hs' h => by
    rw [Nat.zero_add]; exact hb j hj s' hs' h)

/-- **C49** the build ID of an image in memory at an address divisible by 4, in an
uncompressed note section at an offset divisible by 4 (as the format requires), preceded by
no other note section, is found. -/
theorem C49_build_id_in_memory (c : Codec) (addr : Nat) (img : Bytes) (l : List Shdr) (i : Nat)
    (s : Shdr) (data : Bytes) (ns : List (Nat × Bytes × Bytes)) (rest name id tail : Bytes)
    (hl : parseShdrs (.mem addr img) = .ok l) (hi : l[i]? = some s) (h7 : s.type = 7)
    (hunc : s.flags &&& 0x800 = 0) (hd : sectionData c (.mem addr img) i = .ok data)
    (hb : ∀ j < i, ∀ s', l[j]? = some s' → s'.type ≠ 7)
    (ha : addr % 4 = 0) (ho : s.offset % 4 = 0) (hN : Notes data ns rest) (h3 : ∀ n ∈ ns, n.1 ≠ 3)
    (hsz : ∀ n ∈ ns, n.2.1.length + 3 < 2 ^ 32 ∧ n.2.2.length + 3 < 2 ^ 32)
    (hid : NoteHead rest 3 name id tail) (hnm : name.length + 3 < 2 ^ 32) :
    readBuildId c (.mem addr img) = .ok (some id) := by
  refine C49_build_id_found c _ l i s data id hl hi h7 hd ?_
    (fun j hj s' hs' h => absurd h (hb j hj s' hs'))
  refine C49_notes_complete _ data ns rest name id tail ?_ hN h3 hsz hid hnm
  unfold sectionAddr
  simp only
  rw [if_neg (not_not.mpr (show s.flags &&& SHF_COMPRESSED = 0 from hunc))]
  omega

/-- **C49** a note section of an image in memory whose notes are not 4 byte aligned is
refused. -/
theorem C49_misaligned_refused (c : Codec) (addr : Nat) (img : Bytes) (l : List Shdr) (i : Nat)
    (s : Shdr) (data : Bytes)
    (hl : parseShdrs (.mem addr img) = .ok l) (hi : l[i]? = some s) (h7 : s.type = 7)
    (hunc : s.flags &&& 0x800 = 0) (hd : sectionData c (.mem addr img) i = .ok data)
    (hb : ∀ j < i, ∀ s', l[j]? = some s' → s'.type ≠ 7) (hlen : 12 ≤ data.length)
    (ha : (addr + s.offset) % 4 ≠ 0) :
    readBuildId c (.mem addr img) = .error .invalidData := by
  have hn : readNotes (sectionAddr c (.mem addr img) s) data = .error .invalidData := by
    unfold sectionAddr readNotes
    simp only
    rw [if_neg (not_not.mpr (show s.flags &&& SHF_COMPRESSED = 0 from hunc))]
    unfold notesLoop
    rw [if_pos hlen]
    have hr : readPodRef 12 4 ⟨addr + s.offset, data⟩ = (.error .none, ⟨addr + s.offset + 12, data.drop 12⟩) := by
      unfold readPodRef
      rw [readSlice_ok hlen]
      have : alignOffset (addr + s.offset) 4 ≠ 0 := by unfold alignOffset; omega
      simp only [this, if_false]
    rw [hr]
  unfold readBuildId
  rw [hl]
  simp only
  clear hl
  have gen (k : Nat) (hd : sectionData c (.mem addr img) (k + i) = .ok data) :
      buildIdLoop c (.mem addr img) k l = .error .invalidData := by
    clear * - hi h7 hd hb hn
    induction l generalizing k i with
    | nil => simp at hi
    | cons x t ih =>
      simp only [buildIdLoop]
      cases i with
      | zero =>
        simp only [List.getElem?_cons_zero, Option.some.injEq] at hi
        subst hi
        rw [if_pos (show x.type = SHT_NOTE from h7),
          show sectionData c (.mem addr img) k = _ from hd]
        simp only [hn]
      | succ i =>
        rw [if_neg (show ¬ x.type = SHT_NOTE from hb 0 (by omega) x rfl)]
        exact ih i (by simpa using hi)
          (fun j hj s' hs' => hb (j + 1) (by omega) s' (by simpa using hs')) (k + 1)
          (by rwa [show k + 1 + i = k + (i + 1) by omega])
  exact gen 0 (by rwa [Nat.zero_add])

/-- `tinyElf` with section 3 turned into a note section at the end of the file. -/
def noteElf : Bytes :=
  ((((tinyElf.set 404 7).set 424 208).set 425 1).set 432 40) ++ gnuNotes

set_option maxRecDepth 20000 in
/-- The hypotheses above can be met: a file with a build ID, in memory and as a file, and the
same file cut short. -/
example : readBuildId noCodec (.mem 4096 noteElf) = .ok (some [170, 187, 204]) ∧
    readBuildId noCodec (.file noteElf) = .ok (some [170, 187, 204]) ∧
    readBuildId noCodec (.mem 4096 (noteElf.take 500)) = .error .panic ∧
    readBuildId noCodec (.mem 4096 (noteElf.set 424 209 ++ [0])) = .error .invalidData := by decide

/-! ### Debug links -/

theorem readCstr_cases (addr : Nat) (d : Bytes) :
    (∃ s rest, d = s ++ 0 :: rest ∧ (∀ b ∈ s, b ≠ 0) ∧
      readCstr ⟨addr, d⟩ = (.ok s, ⟨addr + s.length + 1, rest⟩)) ∨
    ((∀ b ∈ d, b ≠ 0) ∧ readCstr ⟨addr, d⟩ = (.error .none, ⟨addr, d⟩)) := by
  by_cases h : ∀ b ∈ d, b ≠ 0
  · exact Or.inr ⟨h, (C11_read_cstr ⟨addr, d⟩).2 h⟩
  · left
    have : position (fun b => b == (0 : UInt8)) d ≠ none := by
      intro hp
      apply h
      intro b hb
      have := position_none.mp hp b hb
      simpa using this
    obtain ⟨i, hi⟩ := Option.ne_none_iff_exists'.mp this
    obtain ⟨a, h1, h2, h3, h4⟩ := position_some hi
    have ha : a = 0 := by simpa using h2
    subst ha
    have hs : ∀ b ∈ d.take i, b ≠ 0 := fun b hb => by simpa using h3 b hb
    exact ⟨_, _, h1, hs, (C11_read_cstr ⟨addr, d⟩).1 _ _ h1 hs⟩

/-- **C41** a section in the GNU format yields its file name and checksum. -/
theorem C41_debug_link (d file : Bytes) (crc : Nat) (h : DebugLink d file crc)
    (hl : d.length < 2 ^ 63) : parseDebugLinkData d = .ok (file, crc) := by
  obtain ⟨pad, sum, rest, rfl, hf, hp, hs, rfl⟩ := h
  unfold parseDebugLinkData
  have hc := (C11_read_cstr ⟨0, file ++ [0] ++ pad ++ sum ++ rest⟩).1 file (pad ++ sum ++ rest)
    (by simp [List.append_assoc]) hf
  rw [hc]
  simp only
  have hcur : (file ++ [0] ++ pad ++ sum ++ rest).length - (pad ++ sum ++ rest).length = file.length + 1 := by
    simp; omega
  rw [hcur, alignUp4 (by unfold u64Size; simp at hl; omega)]
  simp only
  rw [Nat.add_sub_cancel_left, advance_ok (by simp [hp])]
  simp only
  have hdrop : (pad ++ sum ++ rest).drop (pad4 (file.length + 1)) = sum ++ rest := by
    rw [List.append_assoc, List.drop_left' hp]
  rw [hdrop]
  unfold readU32
  rw [readUint_ok (by simp; omega)]
  simp only [List.take_left' hs]
  rw [le_eq]

/-- **C41** conversely whatever is reported is stored in the section that way; all other
contents are rejected as invalid data, without panic. -/
theorem C41_debug_link_only (d : Bytes) (hl : d.length < 2 ^ 63) :
    (∃ file crc, DebugLink d file crc ∧ parseDebugLinkData d = .ok (file, crc)) ∨
    ((∀ file crc, ¬ DebugLink d file crc) ∧ parseDebugLinkData d = .error .invalidData) := by
  by_cases h : ∃ file crc, DebugLink d file crc
  · obtain ⟨file, crc, h⟩ := h
    exact Or.inl ⟨file, crc, h, C41_debug_link d file crc h hl⟩
  · right
    refine ⟨fun f c hd => h ⟨f, c, hd⟩, ?_⟩
    unfold parseDebugLinkData
    rcases readCstr_cases 0 d with ⟨s, rest, hd, hs, hr⟩ | ⟨_, hr⟩
    · rw [hr]
      simp only
      have hcur : d.length - rest.length = s.length + 1 := by rw [hd]; simp; omega
      rw [hcur, alignUp4 (by unfold u64Size; rw [hd] at hl; simp at hl; omega)]
      simp only
      rw [Nat.add_sub_cancel_left]
      by_cases h1 : pad4 (s.length + 1) ≤ rest.length
      · rw [advance_ok h1]
        simp only
        by_cases h2 : 4 ≤ (rest.drop (pad4 (s.length + 1))).length
        · exfalso
          apply h
          refine ⟨s, _, rest.take (pad4 (s.length + 1)), (rest.drop (pad4 (s.length + 1))).take 4,
            (rest.drop (pad4 (s.length + 1))).drop 4, ?_, hs, by simp; omega, by simp at h2 ⊢; omega, rfl⟩
          rw [hd]
          simp [List.append_assoc, List.take_append_drop]
        · unfold readU32
          rw [readUint_none (by simpa using h2)]
      · rw [advance_none (by show rest.length < _; omega)]
    · rw [hr]

example : parseDebugLinkData [97, 46, 100, 0, 1, 2, 0, 0] = .ok ([97, 46, 100], 513) ∧
    parseDebugLinkData [97, 46, 100, 103, 0, 0, 0, 0, 1, 2, 0, 0] = .ok ([97, 46, 100, 103], 513) ∧
    parseDebugLinkData [97, 0, 0, 0, 1, 2, 3] = .error .invalidData := by decide

/-- **C41** reading the debug link of a file: from the section `.gnu_debuglink`, none if
there is no such section.
Partial: a section that cannot be read, for which the code panics (`C41_unreadable_panics`). -/
theorem C41_read_debug_link_partial (c : Codec) (b : Backend) (r : Option (Bytes × Nat))
    (h : readDebugLink c b = .ok r) :
    (r = none ∧ ∀ idx, findSection b (ascii ".gnu_debuglink") ≠ .ok (some idx)) ∨
    ∃ idx data file crc, findSection b (ascii ".gnu_debuglink") = .ok (some idx) ∧
      sectionData c b idx = .ok data ∧ r = some (file, crc) ∧
      (data.length < 2 ^ 63 → DebugLink data file crc) := by
  rw [show ascii ".gnu_debuglink" = nameDebuglink by decide]
  unfold readDebugLink at h
  cases hf : findSection b nameDebuglink with
  | error e =>
    rw [hf] at h
    left
    cases e <;> simp_all
  | ok o =>
    rw [hf] at h
    cases o with
    | none => left; simp only at h; cases h; simp
    | some idx =>
      simp only at h
      cases hd : sectionData c b idx with
      | error e => rw [hd] at h; cases h
      | ok data =>
        rw [hd] at h
        simp only at h
        cases hp : parseDebugLinkData data with
        | error e => rw [hp] at h; cases h
        | ok x =>
          rw [hp] at h
          cases h
          right
          refine ⟨idx, data, x.1, x.2, rfl, hd, rfl, fun hl => ?_⟩
          rcases C41_debug_link_only data hl with ⟨f, cr, h1, h2⟩ | ⟨_, h2⟩
          · rw [hp] at h2; cases h2; exact h1
          · rw [hp] at h2; cases h2

/-- **C41** (negative) a debug link section that cannot be read makes the call panic. -/
theorem C41_unreadable_panics (c : Codec) (b : Backend) (idx : Nat) (e : Err)
    (hf : findSection b (ascii ".gnu_debuglink") = .ok (some idx))
    (he : sectionData c b idx = .error e) : readDebugLink c b = .error .panic := by
  rw [show ascii ".gnu_debuglink" = nameDebuglink by decide] at hf
  unfold readDebugLink
  rw [hf]
  simp only [he]

/-- **C41** the debug link of a file is reported. -/
theorem C41_debug_link_found (c : Codec) (b : Backend) (idx : Nat) (data file : Bytes) (crc : Nat)
    (hf : findSection b (ascii ".gnu_debuglink") = .ok (some idx))
    (hd : sectionData c b idx = .ok data) (hl : data.length < 2 ^ 63) (h : DebugLink data file crc) :
    readDebugLink c b = .ok (some (file, crc)) := by
  rw [show ascii ".gnu_debuglink" = nameDebuglink by decide] at hf
  unfold readDebugLink
  rw [hf]
  simp only [hd, C41_debug_link data file crc h hl]
  rfl

/-- **C41** malformed contents are an error. -/
theorem C41_debug_link_malformed (c : Codec) (b : Backend) (idx : Nat) (data : Bytes)
    (hf : findSection b (ascii ".gnu_debuglink") = .ok (some idx))
    (hd : sectionData c b idx = .ok data) (hl : data.length < 2 ^ 63)
    (h : ∀ file crc, ¬ DebugLink data file crc) : readDebugLink c b = .error .invalidData := by
  rw [show ascii ".gnu_debuglink" = nameDebuglink by decide] at hf
  unfold readDebugLink
  rw [hf]
  rcases C41_debug_link_only data hl with ⟨f, cr, h1, _⟩ | ⟨_, h2⟩
  · exact absurd h1 (h f cr)
  · simp only [hd, h2]
    rfl

/-- **C41** no such section: no debug link; the same if the section headers or names cannot
be read. -/
theorem C41_no_debug_link (c : Codec) (b : Backend)
    (h : ∀ idx, findSection b (ascii ".gnu_debuglink") ≠ .ok (some idx))
    (hp : findSection b (ascii ".gnu_debuglink") ≠ .error .panic) :
    readDebugLink c b = .ok none := by
  rw [show ascii ".gnu_debuglink" = nameDebuglink by decide] at h hp
  unfold readDebugLink
  cases hf : findSection b nameDebuglink with
  | error e =>
    cases e <;> first | rfl | exact absurd hf hp
  | ok o =>
    cases o with
    | none => rfl
    | some i => exact absurd hf (h i)

/-- `tinyElf` with section names at the end of the file and section 3 as debug link. -/
def linkElf : Bytes :=
  (((((((((tinyElf.set 272 3).set 296 208).set 297 1).set 304 16).set 400 1).set 424 224).set 425 1).set 432 8).set 336 5) ++
    [0] ++ ascii ".gnu_debuglink" ++ [0] ++ [97, 46, 100, 0, 1, 2, 0, 0]

set_option maxRecDepth 20000 in
example : readDebugLink noCodec (.mem 4096 linkElf) = .ok (some (ascii "a.d", 513)) ∧
    readDebugLink noCodec (.file linkElf) = .ok (some (ascii "a.d", 513)) ∧
    readDebugLink noCodec (.mem 4096 tinyElf) = .ok none ∧
    readDebugLink noCodec (.mem 4096 (linkElf.take 484)) = .error .panic := by decide

end Blazesym.Elf
