import Verif.Gsym.Parser
import Verif.Gsym.Spec
import Verif.Util.LayoutLemmas
import Verif.Util.ReaderProps
import Verif.Util.SearchProps

set_option autoImplicit false

namespace Blazesym.Gsym
open Blazesym.Util Blazesym.Spec Blazesym.Spec.Gsym

universe u v

theorem step_uint {α : Type} (n : Nat) (f : Nat → Rd α) (c : Cursor) :
    (readUint n >>= f) c = if n ≤ c.data.length then
      f (leValue (c.data.take n)) ⟨c.addr + n, c.data.drop n⟩ else (.error .none, c) := by
  show Rd.bind _ _ c = _
  unfold Rd.bind
  split_ifs with h
  · rw [readUint_ok h]
  · rw [readUint_none (by omega)]

theorem step_slice {α : Type} (n : Nat) (f : Bytes → Rd α) (c : Cursor) :
    (readSlice n >>= f) c = if n ≤ c.data.length then
      f (c.data.take n) ⟨c.addr + n, c.data.drop n⟩ else (.error .none, c) := by
  show Rd.bind _ _ c = _
  unfold Rd.bind
  split_ifs with h
  · rw [readSlice_ok h]
  · rw [readSlice_none (by omega)]

theorem step_array {α : Type} (n : Nat) (f : Bytes → Rd α) (c : Cursor) :
    (readArray n >>= f) c = if n ≤ c.data.length then
      f (c.data.take n) ⟨c.addr + n, c.data.drop n⟩ else (.error .none, c) := by
  show Rd.bind _ _ c = _
  unfold Rd.bind
  split_ifs with h
  · rw [readArray_ok h]
  · rw [readArray_none (by omega)]

theorem step_align {α : Type} (n : Nat) (f : Unit → Rd α) (c : Cursor) :
    (align n >>= f) c = if alignOffset c.addr n ≤ c.data.length then
      f () ⟨c.addr + alignOffset c.addr n, c.data.drop (alignOffset c.addr n)⟩
      else (.error .none, c) := by
  show Rd.bind _ _ c = _
  unfold Rd.bind align
  split_ifs with h
  · rw [advance_ok h]
  · rw [advance_none (by omega)]

theorem step_addr {α : Type} (f : Nat → Rd α) (c : Cursor) :
    ((fun c => (.ok c.addr, c) : Rd Nat) >>= f) c = f c.addr c := rfl

theorem step_pod_ok {α : Type} {size a count : Nat} (f : Bytes → Rd α) {c : Cursor}
    (h1 : size * count < u64Size) (h2 : size * count ≤ c.data.length)
    (h3 : alignOffset c.addr a = 0) :
    (readPodSliceRef size a count >>= f) c =
      f (c.data.take (size * count)) ⟨c.addr + size * count, c.data.drop (size * count)⟩ := by
  show Rd.bind _ _ c = _
  unfold Rd.bind readPodSliceRef readPodRef
  rw [if_pos h1, readSlice_ok h2]
  simp only [h3, if_true]

theorem step_pod_none {α : Type} {size a count : Nat} (f : Bytes → Rd α) {c : Cursor}
    (h : ¬ (size * count < u64Size ∧ size * count ≤ c.data.length ∧ alignOffset c.addr a = 0)) :
    ((readPodSliceRef size a count >>= f) c).1 = .error .none := by
  show (Rd.bind _ _ c).1 = _
  unfold Rd.bind readPodSliceRef readPodRef
  by_cases h1 : size * count < u64Size
  · rw [if_pos h1]
    by_cases h2 : size * count ≤ c.data.length
    · rw [readSlice_ok h2]
      have h3 : ¬ alignOffset c.addr a = 0 := fun h3 => h ⟨h1, h2, h3⟩
      simp only [h3, if_false]
    · rw [readSlice_none (by omega)]
  · rw [if_neg h1]

theorem step_option {α β : Type} (o : Option β) (f : β → Rd α) (c : Cursor) :
    (Rd.ofOption o >>= f) c = match o with
      | some b => f b c
      | none => (.error .none, c) := by
  cases o <;> rfl

/-- What the parsed context has to do with the contents of the file. -/
structure Rep (ctx : Context) (c : Cursor) (f : GsymFile) : Prop where
  width : ctx.addrOffSize = f.width
  base : ctx.baseAddress = f.base
  count : ctx.numAddrs = f.offsets.length
  tabAddr : ctx.addrTab.addr = c.addr + 48
  tabLen : ctx.addrTab.data.length = f.offsets.length * f.width
  tab : records leValue f.width f.offsets.length ctx.addrTab.data = f.offsets
  infos : ctx.addrDataOffTab = f.infos
  files : ctx.fileTab = f.files.map (fun p => ⟨p.1, p.2⟩)
  strs : ctx.strTab = f.strs
  raw : ctx.rawData = c
  infoLen : f.infos.length = f.offsets.length
  widthLt : f.width < 256
  countLt : f.offsets.length < u32Size

theorem alignOffset_up4 (a x : Nat) (ha : a % 4 = 0) : x + alignOffset (a + x) 4 = up4 x := by
  unfold alignOffset up4; omega

/-- The tables of a well formed file are where the parser looks for them. -/
theorem parseTables_eq (head : Cursor) (w base n so ss : Nat) (ha : head.addr % 4 = 0)
    (hn : n < u32Size) :
    let it := up4 (48 + n * w)
    let fc := it + 4 * n
    let fn := field head.data fc 4
    (48 ≤ head.data.length ∧ fc + 4 + 8 * fn ≤ head.data.length ∧ fc + 4 ≤ head.data.length ∧
        so + ss ≤ head.data.length →
      (parseTables head w base n so ss ⟨head.addr + 48, head.data.drop 48⟩).1 = .ok
        { addrOffSize := w, baseAddress := base, numAddrs := n,
          addrTab := ⟨head.addr + 48, (head.data.drop 48).take (n * w)⟩,
          addrDataOffTab := records leValue 4 n ((head.data.drop it).take (4 * n)),
          fileTab := records decodeFileInfo 8 fn ((head.data.drop (fc + 4)).take (8 * fn)),
          strTab := (head.data.drop so).take ss, rawData := head }) ∧
    (¬ (48 ≤ head.data.length ∧ fc + 4 + 8 * fn ≤ head.data.length ∧ fc + 4 ≤ head.data.length ∧
        so + ss ≤ head.data.length) → 48 ≤ head.data.length →
      (parseTables head w base n so ss ⟨head.addr + 48, head.data.drop 48⟩).1 = .error .none) := by
  intro it fc fn
  have hfn : fn < u32Size := by
    have := leValue_lt ((head.data.drop fc).take 4)
    have h4 : ((head.data.drop fc).take 4).length ≤ 4 := by simp
    calc fn < 256 ^ _ := this
      _ ≤ 256 ^ 4 := Nat.pow_le_pow_right (by norm_num) h4
  have hu : it = 48 + n * w + alignOffset (head.addr + 48 + n * w) 4 := by
    have := alignOffset_up4 head.addr (48 + n * w) ha
    rw [show head.addr + (48 + n * w) = head.addr + 48 + n * w by omega] at this
    exact this.symm
  set ao := alignOffset (head.addr + 48 + n * w) 4 with hao
  have hal : (head.addr + 48 + n * w + ao) % 4 = 0 := alignOffset_spec _ 4 (by norm_num)
  have h0 : ∀ x, x % 4 = 0 → alignOffset x 4 = 0 := by intro x hx; unfold alignOffset; omega
  unfold parseTables readU32
  rw [step_addr, step_slice]
  simp only [List.length_drop, List.drop_drop]
  have e1 : 48 + n * w + ao = it := hu.symm
  constructor
  · rintro ⟨g1, g2, g3, g4⟩
    rw [if_pos (by omega), step_align]
    simp only [List.length_drop, List.drop_drop]
    rw [← hao, if_pos (by omega), e1]
    rw [step_pod_ok _ (by unfold u64Size; unfold u32Size at hn; omega) (by simp only [List.length_drop]; omega) (h0 _ hal)]
    simp only [List.drop_drop]
    rw [step_uint]
    simp only [List.length_drop, List.drop_drop]
    rw [if_pos (by omega), step_align]
    simp only [List.length_drop, List.drop_drop]
    rw [h0 (head.addr + 48 + n * w + ao + 4 * n + 4) (by omega), if_pos (by omega)]
    simp only [Nat.add_zero]
    change (_ : Except Fail Context × Cursor).1 = _
    have hfn' : leValue ((head.data.drop (it + 4 * n)).take 4) = fn := rfl
    rw [hfn']
    rw [step_pod_ok _ (by unfold u64Size; unfold u32Size at hfn; omega) (by simp only [List.length_drop]; omega)
      (h0 _ (by simp only; omega))]
    rw [step_option]
    unfold sliceFrom
    rw [if_pos (by omega)]
    simp only
    rw [step_option, readSlice_ok (by simp only [List.length_drop]; omega)]
    rfl
  · intro hneg g1
    by_cases k1 : n * w ≤ head.data.length - 48
    · rw [if_pos k1, step_align]
      simp only [List.length_drop, List.drop_drop]
      rw [← hao]
      by_cases k2 : ao ≤ head.data.length - (48 + n * w)
      · rw [if_pos k2, e1]
        by_cases k3 : 4 * n ≤ head.data.length - it
        · rw [step_pod_ok _ (by unfold u64Size; unfold u32Size at hn; omega)
            (by simp only [List.length_drop]; omega) (h0 _ hal)]
          simp only [List.drop_drop]
          rw [step_uint]
          simp only [List.length_drop, List.drop_drop]
          by_cases k4 : 4 ≤ head.data.length - (it + 4 * n)
          · rw [if_pos k4, step_align]
            simp only [List.length_drop, List.drop_drop]
            rw [h0 (head.addr + 48 + n * w + ao + 4 * n + 4) (by omega), if_pos (by omega)]
            simp only [Nat.add_zero]
            change (_ : Except Fail Context × Cursor).1 = _
            have hfn' : leValue ((head.data.drop (it + 4 * n)).take 4) = fn := rfl
            rw [hfn']
            by_cases k5 : 8 * fn ≤ head.data.length - (it + 4 * n + 4)
            · rw [step_pod_ok _ (by unfold u64Size; unfold u32Size at hfn; omega)
                (by simp only [List.length_drop]; omega) (h0 _ (by simp only; omega))]
              rw [step_option]
              unfold sliceFrom
              by_cases k6 : so ≤ head.data.length
              · rw [if_pos k6]
                simp only
                rw [step_option]
                by_cases k7 : so + ss ≤ head.data.length
                · exact absurd ⟨g1, by omega, by omega, k7⟩ hneg
                · rw [readSlice_none (by simp only [List.length_drop]; omega)]
                  rfl
              · rw [if_neg k6]
            · rw [step_pod_none _ (by simp only [List.length_drop]; omega)]
          · rw [if_neg k4]
        · rw [step_pod_none _ (by simp only [List.length_drop]; omega)]
      · rw [if_neg k2]
    · rw [if_neg k1]

/-- The outcome of `parse_header` in terms of that of `parse_header_impl`. -/
def finish : Except Fail Context → Except Err Context
  | .ok r => .ok r
  | .error .none => .error .invalidData
  | .error .panic => .error .panic

theorem parseHeader_eq (c : Cursor) : parseHeader c =
    if 48 ≤ c.data.length ∧ field c.data 0 4 = 0x4753594d ∧ field c.data 4 2 = 1 then
      finish (parseTables c (field c.data 6 1) (field c.data 8 8) (field c.data 16 4)
        (field c.data 20 4) (field c.data 24 4) ⟨c.addr + 48, c.data.drop 48⟩).1
    else .error .invalidData := by
  have hite : ∀ (p : Prop) [Decidable p] (a b : Rd (Except Err Context)) (x : Cursor),
      (if p then a else b) x = if p then a x else b x := by
    intro p _ a b x; split_ifs <;> rfl
  have hp : ∀ (x : Except Err Context) (y : Cursor),
      (pure x : Rd (Except Err Context)) y = (.ok x, y) := fun _ _ => rfl
  have hbind : ∀ (m : Rd Context) (y : Cursor),
      headerResult ((m >>= fun ctx => pure (Except.ok ctx : Except Err Context)) y).1 =
        finish (m y).1 := by
    intro m y
    show headerResult (Rd.bind _ _ y).1 = _
    unfold Rd.bind
    cases hm : m y with
    | mk r c' =>
      cases r with
      | ok a => rfl
      | error e => cases e <;> rfl
  unfold parseHeader parseHeaderImpl readU32 readU16 readU8 readU64
  simp only [step_uint, hite, hp, step_array, List.length_drop, List.drop_drop]
  by_cases h48 : 48 ≤ c.data.length
  · have e0 : leValue (c.data.take 4) = field c.data 0 4 := rfl
    have e4 : leValue ((c.data.drop 4).take 2) = field c.data 4 2 := rfl
    rw [if_pos (show 4 ≤ c.data.length by omega), e0]
    unfold GSYM_MAGIC
    by_cases hm : field c.data 0 4 = 0x4753594d
    · rw [if_neg (by simpa using hm), if_pos (show 2 ≤ c.data.length - 4 by omega), e4]
      unfold GSYM_VERSION
      by_cases hv : field c.data 4 2 = 1
      · rw [if_neg (by simpa using hv)]
        rw [if_pos (by omega), if_pos (by omega), if_pos (by omega), if_pos (by omega),
          if_pos (by omega), if_pos (by omega), if_pos (by omega), if_pos ⟨h48, hm, hv⟩]
        exact hbind _ _
      · rw [if_pos (by simpa using hv), if_neg (fun h => hv h.2.2)]; rfl
    · rw [if_pos (by simpa using hm), if_neg (fun h => hm h.2.1)]; rfl
  · rw [if_neg (show ¬ (48 ≤ c.data.length ∧ _) from fun h => h48 h.1)]
    by_cases h4 : 4 ≤ c.data.length
    · rw [if_pos h4]
      by_cases hm : leValue (c.data.take 4) ≠ GSYM_MAGIC
      · rw [if_pos hm]; rfl
      rw [if_neg hm]
      by_cases h6 : 2 ≤ c.data.length - 4
      · rw [if_pos h6]
        by_cases hv : leValue ((c.data.drop 4).take 2) ≠ GSYM_VERSION
        · rw [if_pos hv]; rfl
        rw [if_neg hv]
        by_cases h7 : 1 ≤ c.data.length - (4 + 2)
        · rw [if_pos h7]
          by_cases h8 : 1 ≤ c.data.length - (4 + 2 + 1)
          · rw [if_pos h8]
            by_cases h16 : 8 ≤ c.data.length - (4 + 2 + 1 + 1)
            · rw [if_pos h16]
              by_cases h20 : 4 ≤ c.data.length - (4 + 2 + 1 + 1 + 8)
              · rw [if_pos h20]
                by_cases h24 : 4 ≤ c.data.length - (4 + 2 + 1 + 1 + 8 + 4)
                · rw [if_pos h24]
                  by_cases h28 : 4 ≤ c.data.length - (4 + 2 + 1 + 1 + 8 + 4 + 4)
                  · rw [if_pos h28, if_neg (by omega)]; rfl
                  · rw [if_neg h28]; rfl
                · rw [if_neg h24]; rfl
              · rw [if_neg h20]; rfl
            · rw [if_neg h16]; rfl
          · rw [if_neg h8]; rfl
        · rw [if_neg h7]; rfl
      · rw [if_neg h6]; rfl
    · rw [if_neg h4]; rfl

theorem field_lt (d : Bytes) (off w : Nat) : field d off w < 256 ^ w := by
  unfold field
  refine lt_of_lt_of_le (leValue_lt _) (Nat.pow_le_pow_right (by norm_num) (by simp))

/-- Reading an address table entry. -/
theorem records_field (d : Bytes) (off w n i : Nat) (h : i < n) :
    (records leValue w n ((d.drop off).take (w * n)))[i]? = some (field d (off + i * w) w) := by
  rw [records_slice leValue w n d off i h]; rfl

theorem parseHeader_complete {c : Cursor} {f : GsymFile} (ha : c.addr % 4 = 0)
    (hd : Describes c.data f) : ∃ ctx, parseHeader c = .ok ctx ∧ Rep ctx c f := by
  obtain ⟨d1, d2, d3, d4, d5, ⟨so, d6, d7, d8⟩, d9, d10, d11, d12, d13⟩ := hd
  rw [num_iff] at d1 d2 d3 d4 d5 d6 d7 d12
  rw [isSlice_iff] at d8
  have hfc : 48 ≤ f.fileCount := by
    unfold GsymFile.fileCount GsymFile.infoTab up4; omega
  have h48 : 48 ≤ c.data.length := by omega
  have hnlt : f.offsets.length < u32Size := by
    rw [d5.2]; exact field_lt c.data 16 4
  have hw : f.width < 256 := by rw [d3.2]; exact field_lt c.data 6 1
  have hflen : f.fileCount + 4 + 8 * f.files.length ≤ c.data.length := by
    rcases Nat.eq_zero_or_pos f.files.length with h0 | h0
    · omega
    · obtain ⟨_, h2⟩ := d13 (f.files.length - 1) f.files[f.files.length - 1]
        (List.getElem?_eq_getElem (by omega))
      rw [num_iff] at h2
      unfold GsymFile.fileTab at h2
      omega
  rw [parseHeader_eq, if_pos ⟨h48, d1.2.symm, d2.2.symm⟩]
  obtain ⟨hok, _⟩ := parseTables_eq c f.width f.base f.offsets.length so f.strs.length ha hnlt
  have hfn : field c.data (up4 (48 + f.offsets.length * f.width) + 4 * f.offsets.length) 4 =
      f.files.length := d12.2.symm
  rw [hfn] at hok
  rw [← d3.2, ← d4.2, ← d5.2, ← d6.2, ← d7.2, hok ⟨h48, hflen, d12.1, d8.1⟩]
  refine ⟨_, rfl, ?_⟩
  have htl : 48 + f.offsets.length * f.width ≤ c.data.length := by
    have : 48 + f.offsets.length * f.width ≤ f.infoTab := by
      unfold GsymFile.infoTab up4; omega
    unfold GsymFile.fileCount at d12
    omega
  constructor
  · rfl
  · rfl
  · rfl
  · rfl
  · simp only [List.length_take, List.length_drop]; omega
  · simp only
    apply List.ext_getElem?
    intro i
    rcases Nat.lt_or_ge i f.offsets.length with hi | hi
    · rw [Nat.mul_comm, records_field _ _ _ _ _ hi, List.getElem?_eq_getElem hi]
      have := d9 i _ (List.getElem?_eq_getElem hi)
      rw [num_iff] at this
      rw [← this.2]
    · rw [List.getElem?_eq_none (by rw [records_length]; exact hi), List.getElem?_eq_none hi]
  · simp only
    apply List.ext_getElem?
    intro i
    rcases Nat.lt_or_ge i f.offsets.length with hi | hi
    · rw [records_field _ _ _ _ _ hi, List.getElem?_eq_getElem (by omega)]
      have := d11 i _ (List.getElem?_eq_getElem (by omega))
      rw [num_iff] at this
      rw [this.2, Nat.mul_comm i 4]; rfl
    · rw [List.getElem?_eq_none (by rw [records_length]; exact hi),
        List.getElem?_eq_none (by omega)]
  · simp only
    apply List.ext_getElem?
    intro i
    rw [List.getElem?_map]
    rcases Nat.lt_or_ge i f.files.length with hi | hi
    · rw [records_slice _ _ _ _ _ _ hi, List.getElem?_eq_getElem hi]
      have := d13 i _ (List.getElem?_eq_getElem hi)
      rw [num_iff, num_iff] at this
      simp only [Option.map_some, decodeFileInfo]
      rw [field_sub _ _ _ _ _ (by norm_num), field_sub _ _ _ _ _ (by norm_num), Nat.mul_comm i 8,
        this.1.2, this.2.2]
      rfl
    · rw [List.getElem?_eq_none (by rw [records_length]; exact hi), List.getElem?_eq_none hi]
      rfl
  · exact d8.2.symm
  · rfl
  · exact d10
  · exact hw
  · exact hnlt

/-- What is accepted is a GSYM file. -/
theorem parseHeader_sound {c : Cursor} {ctx : Context} (ha : c.addr % 4 = 0)
    (h : parseHeader c = .ok ctx) : ∃ f, Describes c.data f ∧ Rep ctx c f := by
  rw [parseHeader_eq] at h
  split_ifs at h with hh
  obtain ⟨h48, hm, hv⟩ := hh
  set w := field c.data 6 1 with hw
  set base := field c.data 8 8 with hb
  set n := field c.data 16 4 with hn
  set so := field c.data 20 4 with hso
  set ss := field c.data 24 4 with hss
  obtain ⟨hok, hno⟩ := parseTables_eq c w base n so ss ha (field_lt c.data 16 4)
  by_cases hc : 48 ≤ c.data.length ∧
      up4 (48 + n * w) + 4 * n + 4 + 8 * field c.data (up4 (48 + n * w) + 4 * n) 4 ≤ c.data.length ∧
      up4 (48 + n * w) + 4 * n + 4 ≤ c.data.length ∧ so + ss ≤ c.data.length
  · have hD : Describes c.data
        { width := w, base, offsets := records leValue w n ((c.data.drop 48).take (w * n)),
          infos := records leValue 4 n ((c.data.drop (up4 (48 + n * w))).take (4 * n)),
          files := (records decodeFileInfo 8 (field c.data (up4 (48 + n * w) + 4 * n) 4)
            ((c.data.drop (up4 (48 + n * w) + 4 * n + 4)).take
              (8 * field c.data (up4 (48 + n * w) + 4 * n) 4))).map (fun p => (p.directory, p.filename)),
          strs := (c.data.drop so).take ss } := by
      obtain ⟨_, c1, c2, c3⟩ := hc
      have hu : 48 + n * w ≤ up4 (48 + n * w) := by unfold up4; omega
      have hsl : ((c.data.drop so).take ss).length = ss := by
        simp only [List.length_take, List.length_drop]; omega
      constructor
      · rw [num_iff]; exact ⟨by omega, hm.symm⟩
      · rw [num_iff]; exact ⟨by omega, hv.symm⟩
      · rw [num_iff]; exact ⟨by omega, rfl⟩
      · rw [num_iff]; exact ⟨by omega, rfl⟩
      · rw [num_iff]; exact ⟨by omega, by simp only [records_length]; exact hn⟩
      · refine ⟨so, ?_, ?_, ?_⟩
        · rw [num_iff]; exact ⟨by omega, rfl⟩
        · rw [num_iff]; exact ⟨by omega, by simp only [hsl]; exact hss⟩
        · rw [isSlice_iff]; simp only [hsl]; exact ⟨c3, trivial⟩
      · intro i o hi
        simp only at hi
        have hin : i < n := by
          have := (List.getElem?_eq_some_iff.mp hi).1
          rwa [records_length] at this
        rw [records_field _ _ _ _ _ hin] at hi
        rw [num_iff]
        have : i * w + w ≤ n * w := by
          calc i * w + w = (i + 1) * w := by ring
            _ ≤ n * w := Nat.mul_le_mul_right _ hin
        exact ⟨by simp only; omega, (Option.some.inj hi).symm⟩
      · simp only [records_length]
      · intro i o hi
        simp only at hi
        have hin : i < n := by
          have := (List.getElem?_eq_some_iff.mp hi).1
          rwa [records_length] at this
        rw [records_field _ _ _ _ _ hin] at hi
        rw [num_iff]
        unfold GsymFile.infoTab
        simp only [records_length]
        refine ⟨by omega, ?_⟩
        rw [← Option.some.inj hi, Nat.mul_comm i 4]
      · rw [num_iff]
        unfold GsymFile.fileCount GsymFile.infoTab
        simp only [records_length, List.length_map]
        exact ⟨by omega, trivial⟩
      · intro i p hi
        simp only [List.getElem?_map] at hi
        set fn := field c.data (up4 (48 + n * w) + 4 * n) 4
        obtain ⟨q, hq, rfl⟩ := Option.map_eq_some_iff.mp hi
        have hin : i < fn := by
          have := (List.getElem?_eq_some_iff.mp hq).1
          rwa [records_length] at this
        rw [records_slice _ _ _ _ _ _ hin] at hq
        have hq := Option.some.inj hq
        unfold decodeFileInfo at hq
        rw [field_sub _ _ _ _ _ (by norm_num), field_sub _ _ _ _ _ (by norm_num),
          Nat.mul_comm i 8] at hq
        subst hq
        unfold GsymFile.fileTab GsymFile.fileCount GsymFile.infoTab
        simp only [records_length]
        rw [num_iff, num_iff]
        exact ⟨⟨by omega, rfl⟩, by omega, rfl⟩
    refine ⟨_, hD, ?_⟩
    obtain ⟨ctx', h1, h2⟩ := parseHeader_complete ha hD
    rw [parseHeader_eq, if_pos ⟨h48, hm, hv⟩] at h1
    rw [h1] at h
    cases h
    exact h2
  · rw [hno hc h48] at h
    cases h

theorem parseHeader_err {c : Cursor} {e : Err} (ha : c.addr % 4 = 0)
    (h : parseHeader c = .error e) : e = .invalidData := by
  rw [parseHeader_eq] at h
  split_ifs at h with hh
  · obtain ⟨hok, hno⟩ := parseTables_eq c (field c.data 6 1) (field c.data 8 8) (field c.data 16 4)
      (field c.data 20 4) (field c.data 24 4) ha (field_lt c.data 16 4)
    set w := field c.data 6 1 with hw
    set n := field c.data 16 4 with hn
    by_cases hc : 48 ≤ c.data.length ∧
      up4 (48 + n * w) + 4 * n + 4 + 8 * field c.data (up4 (48 + n * w) + 4 * n) 4 ≤ c.data.length ∧
      up4 (48 + n * w) + 4 * n + 4 ≤ c.data.length ∧
      field c.data 20 4 + field c.data 24 4 ≤ c.data.length
    · rw [hok hc] at h; cases h
    · rw [hno hc hh.1] at h; exact (Except.error.inj h).symm
  · exact (Except.error.inj h).symm

/-! ### Using the context -/

theorem getStr_iff (ctx : Context) (off : Nat) (s : Bytes) :
    ctx.getStr off = some s ↔ NameAt ctx.strTab off s := by
  unfold Context.getStr NameAt
  obtain ⟨h1, h2⟩ := C11_read_cstr ⟨off, ctx.strTab.drop off⟩
  by_cases ho : off ≤ ctx.strTab.length
  · rw [if_pos ho]
    by_cases h0 : ∀ b ∈ ctx.strTab.drop off, b ≠ 0
    · rw [h2 h0]
      simp only [toOption]
      constructor
      · intro h; cases h
      · rintro ⟨rest, h, _⟩
        exact absurd rfl (h0 0 (by rw [h]; simp))
    · push Not at h0
      obtain ⟨b, hb, rfl⟩ := h0
      obtain ⟨s', r', hs'⟩ := List.append_of_mem hb
      -- split at the first NUL
      have : ∃ s rest, ctx.strTab.drop off = s ++ 0 :: rest ∧ ∀ b ∈ s, b ≠ 0 := by
        clear h1 h2 hs'
        revert hb
        generalize ctx.strTab.drop off = l
        intro hb
        induction l with
        | nil => simp at hb
        | cons x t ih =>
          by_cases hx : x = 0
          · exact ⟨[], t, by simp [hx], by simp⟩
          · obtain ⟨s, r, g1, g2⟩ := ih (by
              rcases List.mem_cons.mp hb with h | h
              · exact absurd h.symm hx
              · exact h)
            exact ⟨x :: s, r, by simp [g1], by
              intro b hb
              rcases List.mem_cons.mp hb with h | h
              · rw [h]; exact hx
              · exact g2 b h⟩
      obtain ⟨s0, r0, g1, g2⟩ := this
      rw [h1 s0 r0 g1 g2]
      simp only [toOption, Option.some.injEq]
      constructor
      · rintro rfl; exact ⟨r0, g1, g2⟩
      · rintro ⟨r, k1, k2⟩
        rw [g1] at k1
        have := h1 s r (by rw [← k1]; exact g1) k2
        have h1' := h1 s0 r0 g1 g2
        rw [h1'] at this
        simpa using congrArg Prod.fst this
  · rw [if_neg ho]
    constructor
    · intro h; cases h
    · rintro ⟨r, h, _⟩
      rw [List.drop_of_length_le (by omega)] at h
      simp at h

theorem getUtf8_iff (ctx : Context) (off : Nat) (s : Bytes) :
    ctx.getUtf8 off = some s ↔ NameAt ctx.strTab off s ∧ isUtf8 s = true := by
  unfold Context.getUtf8
  cases hg : ctx.getStr off with
  | none =>
    simp only [reduceCtorEq, false_iff]
    rintro ⟨h, _⟩
    rw [← getStr_iff] at h
    rw [hg] at h; cases h
  | some t =>
    simp only
    have ht := (getStr_iff _ _ _).mp hg
    constructor
    · intro h
      split_ifs at h with hu
      cases h
      exact ⟨ht, hu⟩
    · rintro ⟨h, hu⟩
      rw [← getStr_iff] at h
      rw [hg] at h; cases h
      rw [if_pos hu]

theorem sliceFrom_some {c : Cursor} {off : Nat} (h : off ≤ c.data.length) :
    sliceFrom c off = some ⟨c.addr + off, c.data.drop off⟩ := if_pos h

theorem toOption_uint (w : Nat) (c : Cursor) :
    toOption (readUint w c).1 = if w ≤ c.data.length then some (field c.data 0 w) else none := by
  split_ifs with h
  · rw [readUint_ok h]; rfl
  · rw [readUint_none (by omega)]; rfl

theorem addrAt_eq {ctx : Context} {c : Cursor} {f : GsymFile} (hr : Rep ctx c f)
    (hw : f.width = 1 ∨ f.width = 2 ∨ f.width = 4 ∨ f.width = 8) {i o : Nat}
    (hi : f.offsets[i]? = some o) : ctx.addrAt i = checkedAdd f.base o := by
  have hin : i < f.offsets.length := (List.getElem?_eq_some_iff.mp hi).1
  have hmul : i * f.width + f.width ≤ f.offsets.length * f.width := by
    calc i * f.width + f.width = (i + 1) * f.width := by ring
      _ ≤ _ := Nat.mul_le_mul_right _ hin
  have hlt : i * f.width < u64Size := by
    have := hr.countLt
    unfold u32Size at this
    unfold u64Size
    rcases hw with h | h | h | h <;> rw [h] <;> omega
  have ho : field (ctx.addrTab.data.drop (i * f.width)) 0 f.width = o := by
    rw [← hr.tab, records_get leValue _ _ _ _ hin] at hi
    exact Option.some.inj hi
  unfold Context.addrAt checkedMul
  rw [hr.width, if_pos hlt, hr.base]
  simp only [Option.bind_eq_bind, Option.bind_some]
  rw [sliceFrom_some (by rw [hr.tabLen]; omega)]
  simp only [Option.bind_some]
  have hl : f.width ≤ ctx.addrTab.data.length - i * f.width := by rw [hr.tabLen]; omega
  rcases hw with h | h | h | h <;>
  · rw [h] at ho hl ⊢
    simp only [readU8, readU16, readU32, readU64, toOption_uint, List.length_drop]
    rw [if_pos hl, ho]
    rfl

theorem findAddr_eq {ctx : Context} {c : Cursor} {f : GsymFile} (hr : Rep ctx c f)
    (ha : c.addr % 8 = 0)
    (hw : f.width = 1 ∨ f.width = 2 ∨ f.width = 4 ∨ f.width = 8) (addr : Nat) :
    ctx.findAddr addr = if f.base ≤ addr then
      findMatchOrLowerBoundByKey f.offsets (addr - f.base) id else none := by
  unfold Context.findAddr
  rw [hr.base, hr.width, hr.count]
  split_ifs with hb
  · have hk : findAddrImpl f.width ctx.addrTab f.offsets.length (addr - f.base) =
        findMatchOrLowerBoundByKey f.offsets (addr - f.base) id := by
      unfold findAddrImpl
      have hlen : f.width * f.offsets.length = ctx.addrTab.data.length := by
        rw [hr.tabLen, Nat.mul_comm]
      have h8 := hr.countLt
      unfold u32Size at h8
      rw [C11_read_pod_slice_ref_complete f.width f.width f.offsets.length ctx.addrTab
        (by omega) (by rw [hr.tabAddr]; rcases hw with h | h | h | h <;> rw [h] <;> omega)
        (by omega) (by unfold u64Size; rcases hw with h | h | h | h <;> rw [h] <;> omega)]
      simp only
      rw [hlen, List.take_length, hr.tab]
    rcases hw with h | h | h | h <;> rw [h] at hk ⊢ <;> simp only <;> exact hk
  · rfl

theorem addrInfo_eq {ctx : Context} {c : Cursor} {f : GsymFile} (hr : Rep ctx c f) {i info : Nat}
    (hi : f.infos[i]? = some info) :
    ctx.addrInfo i = if info + 8 ≤ c.data.length then
      some ⟨field c.data info 4, field c.data (info + 4) 4,
        ⟨c.addr + info + 8, c.data.drop (info + 8)⟩⟩ else none := by
  unfold Context.addrInfo
  rw [hr.infos, hi, hr.raw]
  simp only [Option.bind_eq_bind, Option.bind_some]
  unfold sliceFrom
  split_ifs with h1 h2 h2
  · simp only [Option.bind_some]
    unfold readAddrInfo readU32
    rw [readUint_ok (by simp only [List.length_drop]; omega)]
    simp only
    rw [readUint_ok (by simp only [List.length_drop]; omega)]
    simp only [List.drop_drop]
    rfl
  · simp only [Option.bind_some]
    unfold readAddrInfo readU32
    by_cases h4 : info + 4 ≤ c.data.length
    · rw [readUint_ok (by simp only [List.length_drop]; omega)]
      simp only
      rw [readUint_none (by simp only [List.length_drop]; omega)]
    · rw [readUint_none (by simp only [List.length_drop]; omega)]
  · omega
  · rfl

theorem infoAt_iff (d : Bytes) (off size nm : Nat) : InfoAt d off size nm ↔
    off + 8 ≤ d.length ∧ size = field d off 4 ∧ nm = field d (off + 4) 4 := by
  unfold InfoAt
  rw [num_iff, num_iff]
  constructor
  · rintro ⟨⟨a, b⟩, c, e⟩; exact ⟨by omega, b, e⟩
  · rintro ⟨a, b, c⟩; exact ⟨⟨by omega, b⟩, by omega, c⟩

end Blazesym.Gsym
