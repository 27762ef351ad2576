import Verif.Gsym.LineTab
import Verif.Gsym.LineSpec
import Verif.Gsym.ParserLemmas
import Mathlib.Data.Int.DivMod
import Mathlib.Tactic.Ring

set_option autoImplicit false

namespace Blazesym.Gsym
open Blazesym.Util Blazesym.Spec Blazesym.Spec.Gsym

/-- The model's header and row for those of the specification. -/
def mh (h : LineHdr) : LineTableHeader := ⟨h.min, h.max, h.first⟩
def mr (r : Row) : LineTableRow := ⟨r.addr, r.file, r.line.toNat⟩

theorem rd_bind_eq {α β : Type} (m : Rd α) (f : α → Rd β) (c : Cursor) :
    (m >>= f) c = match m c with
      | (.ok a, c') => f a c'
      | (.error e, c') => (.error e, c') := rfl

theorem step_u8 {α : Type} (b : UInt8) (t : Bytes) (addr : Nat) (f : Nat → Rd α) :
    (readU8 >>= f) ⟨addr, b :: t⟩ = f b.toNat ⟨addr + 1, t⟩ := by
  unfold readU8
  rw [step_uint]
  simp [leValue]

theorem step_uleb {α : Type} {n : Nat} (hn : n < 2 ^ 64) (rest : Bytes) (addr : Nat)
    (f : Nat → Rd α) :
    (readU64Leb128 >>= f) ⟨addr, uleb n ++ rest⟩ = f n ⟨addr + (uleb n).length, rest⟩ := by
  rw [rd_bind_eq, C12_uleb_roundtrip n hn]

theorem step_sleb {α : Type} {z : Int} (h0 : -9223372036854775808 ≤ z) (h1 : z < 9223372036854775808) (rest : Bytes)
    (addr : Nat) (f : Int → Rd α) :
    (readI64Leb128 >>= f) ⟨addr, sleb z ++ rest⟩ = f z ⟨addr + (sleb z).length, rest⟩ := by
  rw [rd_bind_eq, C12_sleb_roundtrip z (by norm_num; exact h0) (by norm_num; exact h1)]

theorem step_lift {α β : Type} (x : Except Fail α) (f : α → Rd β) (c : Cursor) :
    (Rd.lift x >>= f) c = match x with
      | .ok a => f a c
      | .error e => (.error e, c) := by
  cases x <;> rfl

theorem header_parse' {h : LineHdr} (h1 : -2147483648 ≤ h.min ∧ h.min < 2147483648)
    (h2 : -2147483649 ≤ h.max ∧ h.max < 2147483648) (h4 : h.first < 2147483648) (rest : Bytes) (addr : Nat) :
    LineTableHeader.parse ⟨addr, h.bytes ++ rest⟩ = (.ok (mh h), ⟨addr + h.bytes.length, rest⟩) := by
  unfold LineTableHeader.parse LineHdr.bytes
  rw [List.append_assoc, List.append_assoc, step_sleb (by omega) (by omega),
    step_sleb (by omega) (by omega), step_uleb (by omega)]
  show (_, _) = _
  rw [Nat.mod_eq_of_lt (by unfold u32Size; omega)]
  simp only [List.length_append, Nat.add_assoc]
  rfl

theorem header_parse {h : LineHdr} (hh : h.InRange) (rest : Bytes) (addr : Nat) :
    LineTableHeader.parse ⟨addr, h.bytes ++ rest⟩ = (.ok (mh h), ⟨addr + h.bytes.length, rest⟩) := by
  obtain ⟨h1, h2, h3, h4⟩ := hh
  exact header_parse' (by omega) (by omega) h4 rest addr

theorem asU32_nonneg {z : Int} (h0 : 0 ≤ z) (h1 : z < 4294967296) : asU32 z = z.toNat := by
  unfold asU32; rw [Int.emod_eq_of_lt h0 (by omega)]

theorem asU64_nonneg {z : Int} (h0 : 0 ≤ z) (h1 : z < 18446744073709551616) : asU64 z = z.toNat := by
  unfold asU64; rw [Int.emod_eq_of_lt h0 (by omega)]

theorem asI32_id {z : Int} (h0 : -2147483648 ≤ z) (h1 : z < 2147483648) : asI32 z = z := by
  unfold asI32; rw [Int.emod_eq_of_lt (by omega) (by omega)]; ring

theorem chkI64_ok {z : Int} (h0 : -9223372036854775808 ≤ z) (h1 : z < 9223372036854775808) :
    chkI64 z = .ok z := if_pos ⟨h0, h1⟩

theorem chkI32_ok {z : Int} (h0 : -2147483648 ≤ z) (h1 : z < 2147483648) :
    chkI32 z = .ok z := if_pos ⟨h0, h1⟩

theorem chkU64_ok {n : Nat} (h : n < 2 ^ 64) : chkU64 n = .ok n := if_pos h

theorem fok_bind {α β : Type} (a : α) (f : α → Except Fail β) : (Except.ok a >>= f) = f a := rfl

theorem runSpecial_steps {row : LineTableRow} {header : LineTableHeader} {op : Nat}
    {d range lineDelta fileLine : Int} {addr : Nat}
    (h1 : chkI64 (header.maxDelta - header.minDelta) = .ok d) (h2 : chkI64 (d + 1) = .ok range)
    (h3 : range ≠ 0)
    (h4 : chkI64 (header.minDelta + ((op : Int) - 4).tmod range) = .ok lineDelta)
    (h5 : chkI32 (asI32 row.fileLine + asI32 lineDelta) = .ok fileLine)
    (h6 : chkU64 (row.addr + asU64 (((op : Int) - 4).tdiv range)) = .ok addr) :
    runSpecial row header op = .ok { row with fileLine := asU32 fileLine, addr := addr } := by
  unfold runSpecial
  rw [h1, fok_bind, h2, fok_bind, if_neg h3, h4, fok_bind, h5, fok_bind, h6, fok_bind]

theorem runSpecial_eq {h : LineHdr} (hh : h.InRange) {r : Row} (k : Nat) (hk : k < 252)
    (hr0 : 0 ≤ r.line) (hr1 : r.line < 2147483648) (hs0 : 0 ≤ (step h r (.special k)).line)
    (hs1 : (step h r (.special k)).line < 2147483648) (hsa : (step h r (.special k)).addr < 2 ^ 64) :
    runSpecial (mr r) (mh h) (k + 4) = .ok (mr (step h r (.special k))) := by
  obtain ⟨h1, h2, h3, _⟩ := hh
  simp only [step] at hs0 hs1 hsa ⊢
  have hrange : h.max - h.min + 1 = h.range := rfl
  have hrp : 0 < h.range := by unfold LineHdr.range; omega
  have hru : h.range ≤ 4294967296 := by unfold LineHdr.range; omega
  have hadj : ((k + 4 : Nat) : Int) - 4 = (k : Int) := by push_cast; ring
  have hmod0 : 0 ≤ (k : Int) % h.range := Int.emod_nonneg _ (by omega)
  have hmod1 : (k : Int) % h.range < h.range := Int.emod_lt_of_pos _ hrp
  have hdiv0 : 0 ≤ (k : Int) / h.range := Int.ediv_nonneg (by positivity) (by omega)
  have hdiv1 : (k : Int) / h.range ≤ k := Int.ediv_le_self _ (by positivity)
  have hmin : (mh h).minDelta = h.min := rfl
  have hmax : (mh h).maxDelta = h.max := rfl
  have hle : h.min + (k : Int) % h.range ≤ h.max := by
    have : h.range = h.max - h.min + 1 := rfl
    omega
  have hl : ((mr r).fileLine : Int) = r.line := by
    show ((r.line.toNat : Nat) : Int) = _
    omega
  have hra : (mr r).addr = r.addr := rfl
  have hk' : (k : Int) < 252 := by exact_mod_cast hk
  rw [runSpecial_steps (d := h.max - h.min) (range := h.range)
    (lineDelta := h.min + (k : Int) % h.range)
    (fileLine := r.line + (h.min + (k : Int) % h.range))
    (addr := r.addr + ((k : Int) / h.range).toNat)
    (by rw [hmin, hmax]; exact chkI64_ok (by omega) (by omega))
    (by rw [hrange]; exact chkI64_ok (by omega) (by omega)) (by omega)
    (by rw [hadj, hmin, Int.tmod_eq_emod_of_nonneg (by positivity)]
        exact chkI64_ok (by omega) (by omega))
    (by rw [hl, asI32_id (by omega) (by omega), asI32_id (by omega) (by omega)]
        exact chkI32_ok (by omega) (by omega))
    (by rw [hadj, Int.tdiv_eq_ediv_of_nonneg (by positivity), asU64_nonneg hdiv0 (by omega), hra]
        exact chkU64_ok hsa), asU32_nonneg hs0 (by omega)]
  rfl

/-- The outcome of `run_op` for an operator. -/
def outcome (op : LineOp) : RunResult := if op.emits then .newRow else .ok

theorem runOp_eq {h : LineHdr} (hh : h.InRange) {r : Row} {op : LineOp} (hop : op.InRange)
    (hr0 : 0 ≤ r.line) (hr1 : r.line < 2147483648) (hs0 : 0 ≤ (step h r op).line)
    (hs1 : (step h r op).line < 2147483648) (hsa : (step h r op).addr < 2 ^ 64)
    (rest : Bytes) (addr : Nat) :
    runOp (mr r) (mh h) ⟨addr, op.bytes ++ rest⟩ =
      (.ok (mr (step h r op), outcome op), ⟨addr + op.bytes.length, rest⟩) := by
  unfold runOp
  cases op with
  | setFile f =>
    simp only [LineOp.bytes, List.cons_append, LineOp.InRange] at hop ⊢
    rw [step_u8]
    simp only [show (1 : UInt8).toNat = 1 from rfl]
    rw [step_uleb (by omega)]
    rw [Nat.mod_eq_of_lt (show f < u32Size by unfold u32Size; omega)]
    show (_, _) = _
    simp only [List.length_cons]
    rw [show addr + 1 + (uleb f).length = addr + ((uleb f).length + 1) by omega]
    rfl
  | advancePc d =>
    simp only [LineOp.bytes, List.cons_append, LineOp.InRange] at hop ⊢
    rw [step_u8]
    simp only [show (2 : UInt8).toNat = 2 from rfl]
    rw [step_uleb hop, step_lift]
    unfold chkU64
    rw [if_pos (by unfold u64Size; exact hsa)]
    show (_, _) = _
    simp only [List.length_cons]
    rw [show addr + 1 + (uleb d).length = addr + ((uleb d).length + 1) by omega]
    rfl
  | advanceLine z =>
    simp only [LineOp.bytes, List.cons_append, LineOp.InRange, step] at hop hs0 hs1 ⊢
    rw [step_u8]
    simp only [show (3 : UInt8).toNat = 3 from rfl]
    rw [step_sleb hop.1 hop.2, step_lift]
    have hl : ((mr r).fileLine : Int) = r.line := by
      show ((r.line.toNat : Nat) : Int) = _
      omega
    rw [hl]
    rw [chkI64_ok (by omega) (by omega)]
    show (_, _) = _
    simp only [List.length_cons]
    rw [show addr + 1 + (sleb z).length = addr + ((sleb z).length + 1) by omega,
      asU32_nonneg hs0 (by omega)]
    rfl
  | special k =>
    simp only [LineOp.bytes, List.cons_append, List.nil_append, LineOp.InRange] at hop ⊢
    rw [step_u8]
    have hb : (UInt8.ofNat (k + 4)).toNat = k + 4 := by
      rw [UInt8.toNat_ofNat']; omega
    rw [hb]
    simp only
    rw [step_lift, runSpecial_eq hh k hop hr0 hr1 hs0 hs1 hsa]
    rfl

/-- What the loop computes, on operators. -/
def scan (h : LineHdr) (addr : Nat) : Row → Row → Nat → List LineOp → Option Row
  | cur, _, cnt, [] => if cnt = 0 then none else some cur
  | cur, last, cnt, op :: ops =>
    let r := step h cur op
    if op.emits then
      if addr < r.addr then (if cnt = 0 then none else some last)
      else scan h addr r r (cnt + 1) ops
    else scan h addr r last cnt ops

theorem lineLoop_empty (hd : LineTableHeader) (addr fuel cnt a : Nat) (row last : LineTableRow) :
    lineLoop hd addr fuel row last cnt ⟨a, []⟩ = .ok (if cnt = 0 then none else some row) := by
  cases fuel <;> simp [lineLoop]

theorem opBytes_ne (op : LineOp) : op.bytes ≠ [] := by cases op <;> simp [LineOp.bytes]

theorem sane_head {h : LineHdr} {r : Row} {ops : List LineOp} (hs : Sane h r ops) :
    r.addr < 2 ^ 64 ∧ 0 ≤ r.line ∧ r.line < 2147483648 := by
  cases ops with
  | nil => exact hs
  | cons op t => exact ⟨hs.1, hs.2.1, hs.2.2.1⟩

theorem uleb_truncated {t : Bytes} (h : t.length ≤ 9) (hx : ∀ x ∈ t, 128 ≤ x.toNat) (a : Nat) :
    ∃ c', readU64Leb128 ⟨a, t⟩ = (.error .none, c') :=
  ⟨_, C12_uleb_truncated t a hx (by omega)⟩

theorem sleb_truncated {t : Bytes} (h : t.length ≤ 9) (hx : ∀ x ∈ t, 128 ≤ x.toNat) (a : Nat) :
    ∃ c', readI64Leb128 ⟨a, t⟩ = (.error .none, c') :=
  ⟨_, (C12_sleb_malformed t a hx).1 (by omega)⟩

theorem lineLoop_tail (hd : LineTableHeader) (addr fuel cnt a : Nat) (row last : LineTableRow)
    {tail : Bytes} (ht : EndsWith tail) :
    lineLoop hd addr fuel row last cnt ⟨a, tail⟩ = .ok (if cnt = 0 then none else some row) := by
  rcases ht with rfl | ⟨t, rfl⟩ | ⟨b, t, rfl, hb, hl, hx⟩
  · exact lineLoop_empty _ _ _ _ _ _ _
  · cases fuel with
    | zero => rfl
    | succ fuel =>
      unfold lineLoop
      rw [if_neg (by simp)]
      unfold runOp
      rw [step_u8]
      rfl
  · cases fuel with
    | zero => rfl
    | succ fuel =>
      unfold lineLoop
      rw [if_neg (by simp)]
      have : ∃ c', runOp row hd ⟨a, b :: t⟩ = (.error .none, c') := by
        unfold runOp
        rw [step_u8]
        rcases hb with rfl | rfl | rfl
        · obtain ⟨c', hc⟩ := uleb_truncated hl hx (a + 1)
          exact ⟨c', by simp only [show (1 : UInt8).toNat = 1 from rfl]; rw [rd_bind_eq, hc]⟩
        · obtain ⟨c', hc⟩ := uleb_truncated hl hx (a + 1)
          exact ⟨c', by simp only [show (2 : UInt8).toNat = 2 from rfl]; rw [rd_bind_eq, hc]⟩
        · obtain ⟨c', hc⟩ := sleb_truncated hl hx (a + 1)
          exact ⟨c', by simp only [show (3 : UInt8).toNat = 3 from rfl]; rw [rd_bind_eq, hc]⟩
      obtain ⟨c', hc⟩ := this
      rw [hc]

theorem lineLoop_eq {h : LineHdr} (hh : h.InRange) (addr : Nat) {tail : Bytes}
    (ht : EndsWith tail) (ops : List LineOp) (cur last : Row) (cnt fuel a : Nat)
    (hs : Sane h cur ops) (hf : (encode ops ++ tail).length ≤ fuel) :
    lineLoop (mh h) addr fuel (mr cur) (mr last) cnt ⟨a, encode ops ++ tail⟩ =
      .ok ((scan h addr cur last cnt ops).map mr) := by
  induction ops generalizing cur last cnt fuel a with
  | nil =>
    simp only [encode, List.flatMap_nil, List.nil_append, scan]
    rw [lineLoop_tail _ _ _ _ _ _ _ ht]
    split_ifs <;> rfl
  | cons op ops ih =>
    obtain ⟨_, s2, s3, s4, s5⟩ := hs
    obtain ⟨t1, t2, t3⟩ := sane_head s5
    have he : encode (op :: ops) ++ tail = op.bytes ++ (encode ops ++ tail) := by
      simp [encode]
    have hne := opBytes_ne op
    have hpos : 0 < op.bytes.length := List.length_pos_of_ne_nil hne
    rw [he] at hf ⊢
    rw [List.length_append] at hf
    cases fuel with
    | zero => omega
    | succ fuel =>
      unfold lineLoop
      rw [if_neg (by simp [hne]), runOp_eq hh s4 s2 s3 t2 t3 t1]
      unfold outcome scan
      cases hem : op.emits with
      | false =>
        simp only [Bool.false_eq_true, if_false]
        exact ih _ _ _ _ _ s5 (by omega)
      | true =>
        simp only [if_true]
        have : (mr (step h cur op)).addr = (step h cur op).addr := rfl
        rw [this]
        by_cases hlt : addr < (step h cur op).addr
        · rw [if_pos hlt, if_pos hlt]
          by_cases h0 : cnt = 0
          · simp [h0]
          · rw [if_neg (by omega), if_neg h0]; rfl
        · rw [if_neg hlt, if_neg hlt]
          exact ih _ _ _ _ _ s5 (by omega)

theorem parse_eq {h : LineHdr} (hh : h.InRange) (symAddr addr a : Nat) {tail : Bytes}
    (ht : EndsWith tail) (ops : List LineOp) (hs : Sane h (start h symAddr) ops) :
    parseLineTabInfo ⟨a, h.bytes ++ encode ops ++ tail⟩ symAddr addr =
      .ok ((scan h addr (start h symAddr) (start h symAddr) 0 ops).map mr) := by
  unfold parseLineTabInfo
  rw [List.append_assoc, header_parse hh]
  simp only
  have : LineTableRow.fromHeader (mh h) symAddr = mr (start h symAddr) := rfl
  rw [this]
  exact lineLoop_eq hh addr ht ops _ _ _ _ _ hs (le_refl _)

/-! ### What `scan` returns -/

theorem step_addr_le (h : LineHdr) (r : Row) (op : LineOp) : r.addr ≤ (step h r op).addr := by
  cases op <;> simp [step]

theorem step_noemit_addr (h : LineHdr) (r : Row) {op : LineOp} (he : op.emits = false) :
    (step h r op).addr = r.addr := by
  cases op <;> simp [step, LineOp.emits] at he ⊢

/-- Rows are ordered by address. -/
theorem rows_ge (h : LineHdr) (ops : List LineOp) (r : Row) : ∀ x ∈ rows h r ops, r.addr ≤ x.addr := by
  induction ops generalizing r with
  | nil => simp [rows]
  | cons op ops ih =>
    intro x hx
    unfold rows at hx
    split_ifs at hx
    · rcases List.mem_cons.mp hx with rfl | hx
      · exact step_addr_le _ _ _
      · exact le_trans (step_addr_le _ _ _) (ih _ x hx)
    · exact le_trans (step_addr_le _ _ _) (ih _ x hx)

theorem scan_above (h : LineHdr) (addr : Nat) (ops : List LineOp) (cur last : Row) (cnt : Nat)
    (hall : ∀ x ∈ rows h cur ops, addr < x.addr) :
    scan h addr cur last cnt ops = if cnt = 0 then none else
      some (if rows h cur ops = [] then final h cur ops else last) := by
  induction ops generalizing cur with
  | nil => simp [scan, rows, final]
  | cons op ops ih =>
    unfold scan
    rw [rows] at hall ⊢
    cases he : op.emits with
    | true =>
      simp only [he, if_true] at hall ⊢
      rw [if_pos (hall _ (List.mem_cons_self))]
      simp
    | false =>
      simp only [he, Bool.false_eq_true, if_false] at hall ⊢
      rw [ih _ hall]
      rfl

theorem scan_last (h : LineHdr) (addr : Nat) (ops : List LineOp) (cur last : Row) (cnt : Nat)
    (r : Row) (later : List Row) (hl : IsLastNotAbove (rows h cur ops) addr r later) :
    scan h addr cur last cnt ops = some (if later = [] then final h cur ops else r) := by
  induction ops generalizing cur last cnt with
  | nil => obtain ⟨pre, h1, _⟩ := hl; simp [rows] at h1
  | cons op ops ih =>
    unfold scan
    simp only
    obtain ⟨pre, h1, h2, h3⟩ := hl
    cases he : op.emits with
    | true =>
      simp only [rows, he, if_true] at h1 ⊢
      cases pre with
      | nil =>
        simp only [List.nil_append, List.cons.injEq] at h1
        obtain ⟨rfl, rfl⟩ := h1
        rw [if_neg (by omega), scan_above h addr ops _ _ _ h3, if_neg (by omega)]
        rfl
      | cons p pre =>
        simp only [List.cons_append, List.cons.injEq] at h1
        obtain ⟨rfl, h1⟩ := h1
        have hle : (step h cur op).addr ≤ addr :=
          le_trans (rows_ge h ops _ r (by rw [h1]; simp)) h2
        rw [if_neg (by omega), ih _ _ _ ⟨pre, h1, h2, h3⟩]
        rfl
    | false =>
      simp only [rows, he, Bool.false_eq_true, if_false] at h1 ⊢
      rw [ih _ _ _ ⟨pre, h1, h2, h3⟩]
      rfl

end Blazesym.Gsym
