import Verif.Gsym.LineLemmas

/-! # C19: GSYM line tables -/

set_option autoImplicit false

namespace Blazesym.Gsym
open Blazesym.Util Blazesym.Spec Blazesym.Spec.Gsym

/-- The result of a lookup, in terms of a row of the specification. -/
def ofRow (r : Row) : LineTableRow := { addr := r.addr, fileIdx := r.file, fileLine := r.line.toNat }

/-- **C19**: for every line program, an address from a row up to the next one is attributed
to the file and line of that row. -/
theorem C19_row {h : LineHdr} (hh : h.InRange) (ops : List LineOp) (tail : Bytes)
    (ht : EndsWith tail) (symAddr addr a : Nat) (hs : Sane h (start h symAddr) ops) (r : Row)
    (later : List Row) (hr : IsLastNotAbove (rows h (start h symAddr) ops) addr r later)
    (hne : later ≠ []) :
    parseLineTabInfo ⟨a, h.bytes ++ encode ops ++ tail⟩ symAddr addr = .ok (some (ofRow r)) := by
  rw [parse_eq hh symAddr addr a ht ops hs, scan_last h addr ops _ _ _ r later hr, if_neg hne]
  rfl

/-- **C19** (partial): an address not below the last row is attributed to it, provided that
nothing follows the last row but the end marker.  Missing: operators after the last row
(`C19_trailing_operators`). -/
theorem C19_last_row_partial {h : LineHdr} (hh : h.InRange) (ops : List LineOp) (tail : Bytes)
    (ht : EndsWith tail) (symAddr addr a : Nat) (hs : Sane h (start h symAddr) ops) (r : Row)
    (hr : IsLastNotAbove (rows h (start h symAddr) ops) addr r [])
    (hend : ∃ ops' op, ops = ops' ++ [op] ∧ op.emits = true) :
    parseLineTabInfo ⟨a, h.bytes ++ encode ops ++ tail⟩ symAddr addr = .ok (some (ofRow r)) := by
  rw [parse_eq hh symAddr addr a ht ops hs, scan_last h addr ops _ _ _ r [] hr, if_pos rfl]
  have : final h (start h symAddr) ops = r := by
    obtain ⟨ops', op, rfl, hem⟩ := hend
    obtain ⟨pre, h1, _⟩ := hr
    clear hs
    revert h1
    generalize start h symAddr = cur
    intro h1
    induction ops' generalizing cur pre with
    | nil =>
      simp only [List.nil_append, rows, hem, if_true] at h1
      have : pre = [] := by
        cases pre with
        | nil => rfl
        | cons p q => simp at h1
      subst this
      simp only [List.nil_append, List.cons.injEq, and_true] at h1
      exact h1
    | cons o t ih =>
      simp only [List.cons_append, rows] at h1
      split_ifs at h1
      · cases pre with
        | nil =>
          simp only [List.nil_append, List.cons.injEq] at h1
          exfalso
          have hne : ∀ c, rows h c (t ++ [op]) ≠ [] := by
            intro c
            clear ih h1
            induction t generalizing c with
            | nil => simp [rows, hem]
            | cons o t ih =>
              simp only [List.cons_append, rows]
              split_ifs
              · simp
              · exact ih _
          exact hne _ h1.2
        | cons p q =>
          simp only [List.cons_append, List.cons.injEq] at h1
          exact ih _ _ h1.2
      · exact ih _ _ h1
  rw [this]
  rfl

/-- **C19** (defect): an address not below the last row is attributed to the *state after
the program*, so operators that follow the last row change its file and line. -/
theorem C19_trailing_operators {h : LineHdr} (hh : h.InRange) (ops : List LineOp) (tail : Bytes)
    (ht : EndsWith tail) (symAddr addr a : Nat) (hs : Sane h (start h symAddr) ops)
    (hne : rows h (start h symAddr) ops ≠ [])
    (hall : ∀ x ∈ rows h (start h symAddr) ops, x.addr ≤ addr) :
    parseLineTabInfo ⟨a, h.bytes ++ encode ops ++ tail⟩ symAddr addr =
      .ok (some (ofRow (final h (start h symAddr) ops))) := by
  rw [parse_eq hh symAddr addr a ht ops hs]
  obtain ⟨pre, r, hp⟩ : ∃ pre r, rows h (start h symAddr) ops = pre ++ [r] :=
    ⟨_, _, (List.dropLast_append_getLast hne).symm⟩
  rw [scan_last h addr ops _ _ _ r [] ⟨pre, hp, hall r (by rw [hp]; simp), by simp⟩, if_pos rfl]
  rfl

/-- **C19**: an address below the first row, or any address if there are no rows, has no
line. -/
theorem C19_no_row {h : LineHdr} (hh : h.InRange) (ops : List LineOp) (tail : Bytes)
    (ht : EndsWith tail) (symAddr addr a : Nat) (hs : Sane h (start h symAddr) ops)
    (hall : ∀ x ∈ rows h (start h symAddr) ops, addr < x.addr) :
    parseLineTabInfo ⟨a, h.bytes ++ encode ops ++ tail⟩ symAddr addr = .ok none := by
  rw [parse_eq hh symAddr addr a ht ops hs, scan_above h addr ops _ _ _ hall, if_pos rfl]
  rfl

/-- **C19**: the rows are in ascending address order, so the last row not above an address
is the one whose code contains the address. -/
theorem C19_rows_ascending (h : LineHdr) (ops : List LineOp) (r : Row) :
    (rows h r ops).Pairwise (fun x y => x.addr ≤ y.addr) := by
  induction ops generalizing r with
  | nil => simp [rows]
  | cons op ops ih =>
    rw [rows]
    split_ifs
    · exact List.pairwise_cons.mpr ⟨rows_ge h ops _, ih _⟩
    · exact ih _

/-! ### Arbitrary bytes -/

theorem fbind_ok {α β : Type} {x : Except Fail α} {f : α → Except Fail β} {y : β}
    (h : (x >>= f) = .ok y) : ∃ a, x = .ok a ∧ f a = .ok y := by
  cases x with
  | error e => cases h
  | ok a => exact ⟨a, rfl, h⟩

theorem chkU64_val {n m : Nat} (h : chkU64 n = .ok m) : m = n := by
  unfold chkU64 at h
  split_ifs at h
  cases h; rfl

theorem runSpecial_addr {row row' : LineTableRow} {hd : LineTableHeader} {op : Nat}
    (h : runSpecial row hd op = .ok row') : row.addr ≤ row'.addr := by
  unfold runSpecial at h
  obtain ⟨d, _, h⟩ := fbind_ok h
  obtain ⟨rg, _, h⟩ := fbind_ok h
  by_cases h0 : rg = 0
  · rw [if_pos h0] at h; cases h
  · rw [if_neg h0] at h
    obtain ⟨ld, _, h⟩ := fbind_ok h
    obtain ⟨fl, _, h⟩ := fbind_ok h
    obtain ⟨ad, h1, h⟩ := fbind_ok h
    have := chkU64_val h1
    have h := (Except.ok.inj h)
    rw [← h, this]
    exact Nat.le_add_right _ _

theorem rd_ok {α β : Type} {m : Rd α} {f : α → Rd β} {c c' : Cursor} {y : β}
    (h : (m >>= f) c = (.ok y, c')) : ∃ a c'', m c = (.ok a, c'') ∧ f a c'' = (.ok y, c') := by
  rw [rd_bind_eq] at h
  cases hm : m c with
  | mk r c'' =>
    rw [hm] at h
    cases r with
    | error e => cases h
    | ok a => exact ⟨a, c'', rfl, h⟩

theorem lift_ok {α : Type} {x : Except Fail α} {c c' : Cursor} {a : α}
    (h : Rd.lift x c = (.ok a, c')) : x = .ok a ∧ c' = c := by
  unfold Rd.lift at h
  exact ⟨congrArg Prod.fst h, (congrArg Prod.snd h).symm⟩

/-- Whatever the bytes, an operator that succeeds never moves the address back, and moves
it only if it adds a row. -/
theorem runOp_addr {row row' : LineTableRow} {hd : LineTableHeader} {c c' : Cursor}
    {res : RunResult} (h : runOp row hd c = (.ok (row', res), c')) :
    row.addr ≤ row'.addr ∧ (res ≠ .newRow → row'.addr = row.addr) := by
  unfold runOp at h
  obtain ⟨op, c1, _, h⟩ := rd_ok h
  split at h
  · have := congrArg Prod.fst h
    simp only [pure, Rd.pure] at this
    cases this; exact ⟨le_refl _, fun _ => rfl⟩
  · obtain ⟨f, c2, _, h⟩ := rd_ok h
    have := congrArg Prod.fst h
    simp only [pure, Rd.pure] at this
    cases this; exact ⟨le_refl _, fun _ => rfl⟩
  · obtain ⟨f, c2, _, h⟩ := rd_ok h
    obtain ⟨ad, c3, h1, h⟩ := rd_ok h
    have := congrArg Prod.fst h
    simp only [pure, Rd.pure] at this
    cases this
    refine ⟨?_, fun hc => absurd rfl hc⟩
    have := chkU64_val (lift_ok h1).1
    simp only; omega
  · obtain ⟨f, c2, _, h⟩ := rd_ok h
    obtain ⟨ad, c3, h1, h⟩ := rd_ok h
    have := congrArg Prod.fst h
    simp only [pure, Rd.pure] at this
    cases this; exact ⟨le_refl _, fun _ => rfl⟩
  · obtain ⟨r, c2, h1, h⟩ := rd_ok h
    have := congrArg Prod.fst h
    simp only [pure, Rd.pure] at this
    cases this
    exact ⟨runSpecial_addr (lift_ok h1).1, fun hc => absurd rfl hc⟩

theorem lineLoop_bounds (hd : LineTableHeader) (addr symAddr : Nat) (fuel : Nat)
    (row last : LineTableRow) (cnt : Nat) (c : Cursor) (r : LineTableRow)
    (hrow : symAddr ≤ row.addr ∧ (0 < cnt → row.addr ≤ addr))
    (hlast : symAddr ≤ last.addr ∧ (0 < cnt → last.addr ≤ addr))
    (h : lineLoop hd addr fuel row last cnt c = .ok (some r)) :
    symAddr ≤ r.addr ∧ r.addr ≤ addr := by
  have fin : ∀ (x : LineTableRow), symAddr ≤ x.addr → (0 < cnt → x.addr ≤ addr) →
      (Except.ok (if cnt = 0 then none else some x) : Except Err (Option LineTableRow)) =
        .ok (some r) → symAddr ≤ r.addr ∧ r.addr ≤ addr := by
    intro x h1 h2 h3
    by_cases h0 : cnt = 0
    · rw [if_pos h0] at h3; cases h3
    · rw [if_neg h0] at h3; cases h3; exact ⟨h1, h2 (by omega)⟩
  induction fuel generalizing row last cnt c with
  | zero => exact fin _ hrow.1 hrow.2 h
  | succ fuel ih =>
    unfold lineLoop at h
    by_cases he : c.data = []
    · rw [if_pos he] at h; exact fin _ hrow.1 hrow.2 h
    · rw [if_neg he] at h
      split at h
      · rename_i row' c' hro
        obtain ⟨k1, k2⟩ := runOp_addr hro
        have := k2 (by simp)
        exact ih _ _ _ _ ⟨by omega, fun hc => by rw [this]; exact hrow.2 hc⟩ hlast h fin
      · rename_i row' c' hro
        obtain ⟨k1, _⟩ := runOp_addr hro
        by_cases hlt : addr < row'.addr
        · rw [if_pos hlt] at h
          by_cases h0 : cnt + 1 = 1
          · rw [if_pos h0] at h; cases h
          · rw [if_neg h0] at h; cases h; exact ⟨hlast.1, hlast.2 (by omega)⟩
        · rw [if_neg hlt] at h
          refine ih row' row' (cnt + 1) c' ⟨by omega, fun _ => by omega⟩
            ⟨by omega, fun _ => by omega⟩ h ?_
          intro x h1 h2 h3
          rw [if_neg (by omega)] at h3
          cases h3
          exact ⟨h1, h2 (by omega)⟩
      · rename_i row' c' hro
        obtain ⟨k1, k2⟩ := runOp_addr hro
        have := k2 (by simp)
        exact fin row' (by omega) (fun hc => by rw [this]; exact hrow.2 hc) h
      · exact fin _ hrow.1 hrow.2 h
      · cases h

/-- **C19**: whatever the bytes, a reported row is not above the address and not below the
start of the symbol. -/
theorem C19_bounds (c : Cursor) (symAddr addr : Nat) (r : LineTableRow)
    (h : parseLineTabInfo c symAddr addr = .ok (some r)) : symAddr ≤ r.addr ∧ r.addr ≤ addr := by
  unfold parseLineTabInfo at h
  split at h
  · cases h
  · cases h
  · exact lineLoop_bounds _ addr symAddr _ _ _ _ _ r ⟨le_refl _, fun h => absurd h (by simp)⟩
      ⟨le_refl _, fun h => absurd h (by simp)⟩ h

/-- **C19**: whatever the bytes, a lookup fails with invalid data exactly if the header of
the table is cut off; malformed operators are tolerated. -/
theorem C19_invalid_data (c : Cursor) (symAddr addr : Nat) :
    parseLineTabInfo c symAddr addr = .error .invalidData ↔
      (LineTableHeader.parse c).1 = .error .none := by
  unfold parseLineTabInfo
  have hl : ∀ (hd : LineTableHeader) (fuel : Nat) (row last : LineTableRow) (cnt : Nat) (c : Cursor),
      lineLoop hd addr fuel row last cnt c ≠ .error .invalidData := by
    intro hd fuel
    induction fuel with
    | zero => intro row last cnt c h; cases h
    | succ fuel ih =>
      intro row last cnt c h
      unfold lineLoop at h
      by_cases he : c.data = []
      · rw [if_pos he] at h; cases h
      · rw [if_neg he] at h
        split at h
        · exact ih _ _ _ _ h
        · rename_i row' c' _
          by_cases hlt : addr < row'.addr
          · rw [if_pos hlt] at h
            by_cases h0 : cnt + 1 = 1
            · rw [if_pos h0] at h; cases h
            · rw [if_neg h0] at h; cases h
          · rw [if_neg hlt] at h; exact ih _ _ _ _ h
        · cases h
        · cases h
        · cases h
  split
  · rename_i c' hx; simp [hx]
  · rename_i c' hx; simp [hx]
  · rename_i hd c' hx
    simp only [hx]
    constructor
    · intro h; exact absurd h (hl _ _ _ _ _ _)
    · intro h; cases h

/-- **C19**: a header that is cut off anywhere is invalid data. -/
theorem C19_header_truncated {h : LineHdr} (hh : h.InRange) (p q : Bytes)
    (hp : h.bytes = p ++ q) (hq : q ≠ []) (symAddr addr a : Nat) :
    parseLineTabInfo ⟨a, p⟩ symAddr addr = .error .invalidData := by
  rw [C19_invalid_data]
  obtain ⟨h1, h2, h3, h4⟩ := hh
  unfold LineHdr.bytes at hp
  have hcut : ∀ (x p q : Bytes), x = p ++ q → q ≠ [] → (∃ bs b, x = bs ++ [b] ∧
      (∀ y ∈ bs, 128 ≤ y.toNat) ∧ bs.length ≤ 9) → (∀ y ∈ p, 128 ≤ y.toNat) ∧ p.length ≤ 9 := by
    rintro x p q hx hq ⟨bs, b, e1, e2, e3⟩
    obtain ⟨q', z, rfl⟩ : ∃ q' z, q = q' ++ [z] := ⟨_, _, (List.dropLast_append_getLast hq).symm⟩
    rw [e1, ← List.append_assoc] at hx
    obtain ⟨k1, _⟩ := List.append_inj' hx rfl
    rw [k1] at e2 e3
    exact ⟨fun y hy => e2 y (by simp [hy]), by rw [List.length_append] at e3; omega⟩
  have hsl : ∀ z : Int, -2147483648 ≤ z → z < 2147483648 → ∃ bs b, sleb z = bs ++ [b] ∧
      (∀ y ∈ bs, 128 ≤ y.toNat) ∧ bs.length ≤ 9 := by
    intro z z0 z1
    obtain ⟨bs, b, g1, g2, g3, g4, g5, g6, g7⟩ := sleb_shape z
    exact ⟨bs, b, g1, g2, g7 9 (le_trans (by norm_num) z0) (lt_trans z1 (by norm_num))⟩
  have hul : ∃ bs b, uleb h.first = bs ++ [b] ∧ (∀ y ∈ bs, 128 ≤ y.toNat) ∧ bs.length ≤ 9 := by
    obtain ⟨bs, b, g1, g2, g3, g4, g5⟩ := uleb_shape h.first
    exact ⟨bs, b, g1, g2, g5 9 (lt_trans h4 (by norm_num))⟩
  unfold LineTableHeader.parse
  rw [List.append_assoc] at hp
  rcases List.append_eq_append_iff.mp hp with ⟨p1, rfl, hp1⟩ | ⟨q1, hx, rfl⟩
  · rw [step_sleb (by omega) (by omega)]
    rcases List.append_eq_append_iff.mp hp1 with ⟨p2, rfl, hp2⟩ | ⟨q2, hx, rfl⟩
    · rw [step_sleb (by omega) (by omega), rd_bind_eq]
      obtain ⟨k1, k2⟩ := hcut _ p2 q hp2 hq hul
      rw [C12_uleb_truncated p2 _ k1 (by omega)]
    · by_cases hq2 : q2 = []
      · subst hq2
        rw [List.append_nil] at hx
        rw [← hx]
        have := step_sleb (z := h.max) (by omega) (by omega) [] (a + (sleb h.min).length)
          (fun maxDelta => do
            let firstLine ← readU64Leb128
            pure (⟨h.min, maxDelta, firstLine % u32Size⟩ : LineTableHeader))
        rw [List.append_nil] at this
        rw [this, rd_bind_eq]
        rw [C12_uleb_truncated [] _ (by simp) (by simp)]
      · obtain ⟨k1, k2⟩ := hcut _ p1 q2 hx hq2 (hsl _ (by omega) (by omega))
        rw [rd_bind_eq, (C12_sleb_malformed p1 _ k1).1 (by omega)]
  · by_cases hq1 : q1 = []
    · subst hq1
      rw [List.append_nil] at hx
      rw [← hx]
      have := step_sleb (z := h.min) (by omega) (by omega) [] a
        (fun minDelta => do
          let maxDelta ← readI64Leb128
          let firstLine ← readU64Leb128
          pure (⟨minDelta, maxDelta, firstLine % u32Size⟩ : LineTableHeader))
      rw [List.append_nil] at this
      rw [this, rd_bind_eq, (C12_sleb_malformed [] _ (by simp)).1 (by simp)]
    · obtain ⟨k1, k2⟩ := hcut _ p q1 hx hq1 (hsl _ (by omega) (by omega))
      rw [rd_bind_eq, (C12_sleb_malformed p _ k1).1 (by omega)]

/-- **C19** (defect): advancing the address beyond the address space panics. -/
theorem C19_pc_overflow_panics {h : LineHdr} (hh : h.InRange) (delta : Nat) (hd : delta < 2 ^ 64)
    (symAddr addr a : Nat) (hov : 2 ^ 64 ≤ symAddr + delta) (rest : Bytes) :
    parseLineTabInfo ⟨a, h.bytes ++ ((LineOp.advancePc delta).bytes ++ rest)⟩ symAddr addr =
      .error .panic := by
  unfold parseLineTabInfo
  rw [header_parse hh]
  simp only [LineOp.bytes, List.cons_append, List.length_cons]
  unfold lineLoop
  rw [if_neg (by simp)]
  have : ∃ c', runOp (LineTableRow.fromHeader (mh h) symAddr) (mh h)
      ⟨a + h.bytes.length, 2 :: (uleb delta ++ rest)⟩ = (.error .panic, c') := by
    unfold runOp
    rw [step_u8]
    simp only [show (2 : UInt8).toNat = 2 from rfl]
    rw [step_uleb hd, step_lift]
    have hp : chkU64 ((LineTableRow.fromHeader (mh h) symAddr).addr + delta) = .error .panic := by
      unfold chkU64 LineTableRow.fromHeader
      rw [if_neg (by unfold u64Size; simp only; omega)]
    rw [hp]
    exact ⟨_, rfl⟩
  obtain ⟨c', hc⟩ := this
  rw [hc]

theorem runSpecial_panic {row : LineTableRow} {header : LineTableHeader} {op : Nat}
    {d range lineDelta : Int}
    (h1 : chkI64 (header.maxDelta - header.minDelta) = .ok d) (h2 : chkI64 (d + 1) = .ok range)
    (h3 : range ≠ 0)
    (h4 : chkI64 (header.minDelta + ((op : Int) - 4).tmod range) = .ok lineDelta)
    (h5 : chkI32 (asI32 row.fileLine + asI32 lineDelta) = .error .panic) :
    runSpecial row header op = .error .panic := by
  unfold runSpecial
  rw [h1, fok_bind, h2, fok_bind, if_neg h3, h4, fok_bind, h5]
  rfl

theorem runSpecial_overflow {h : LineHdr} (hh : h.InRange) {r : Row} (k : Nat) (hk : k < 252)
    (hr0 : 0 ≤ r.line) (hr1 : r.line < 2147483648) (hs : 2147483648 ≤ (step h r (.special k)).line) :
    runSpecial (mr r) (mh h) (k + 4) = .error .panic := by
  obtain ⟨h1, h2, h3, _⟩ := hh
  simp only [step] at hs
  have hrange : h.max - h.min + 1 = h.range := rfl
  have hrp : 0 < h.range := by unfold LineHdr.range; omega
  have hru : h.range ≤ 4294967296 := by unfold LineHdr.range; omega
  have hadj : ((k + 4 : Nat) : Int) - 4 = (k : Int) := by push_cast; ring
  have hmod0 : 0 ≤ (k : Int) % h.range := Int.emod_nonneg _ (by omega)
  have hmod1 : (k : Int) % h.range < h.range := Int.emod_lt_of_pos _ hrp
  have hmin : (mh h).minDelta = h.min := rfl
  have hmax : (mh h).maxDelta = h.max := rfl
  have hle : h.min + (k : Int) % h.range ≤ h.max := by
    have : h.range = h.max - h.min + 1 := rfl
    omega
  have hl : ((mr r).fileLine : Int) = r.line := by
    show ((r.line.toNat : Nat) : Int) = _
    omega
  exact runSpecial_panic (d := h.max - h.min) (range := h.range)
    (lineDelta := h.min + (k : Int) % h.range)
    (by rw [hmin, hmax]; exact chkI64_ok (by omega) (by omega))
    (by rw [hrange]; exact chkI64_ok (by omega) (by omega)) (by omega)
    (by rw [hadj, hmin, Int.tmod_eq_emod_of_nonneg (by positivity)]
        exact chkI64_ok (by omega) (by omega))
    (by rw [hl, asI32_id (by omega) (by omega), asI32_id (by omega) (by omega)]
        unfold chkI32
        rw [if_neg (by omega)])

/-- **C19** (defect): a special operator that takes the line beyond the greatest 31 bit number
panics, although line numbers have 32 bits.  So `C19_row` cannot do without its condition that
the lines stay below. -/
theorem C19_line_overflow_panics {h : LineHdr} (hh : h.InRange) (k : Nat) (hk : k < 252)
    (symAddr addr a : Nat) (hov : 2147483648 ≤ (step h (start h symAddr) (.special k)).line) (rest : Bytes) :
    parseLineTabInfo ⟨a, h.bytes ++ ((LineOp.special k).bytes ++ rest)⟩ symAddr addr = .error .panic := by
  unfold parseLineTabInfo
  rw [header_parse hh]
  simp only [LineOp.bytes, List.cons_append, List.nil_append, List.length_cons]
  unfold lineLoop
  rw [if_neg (by simp)]
  have : ∃ c', runOp (LineTableRow.fromHeader (mh h) symAddr) (mh h)
      ⟨a + h.bytes.length, UInt8.ofNat (k + 4) :: rest⟩ = (.error .panic, c') := by
    unfold runOp
    rw [step_u8]
    have hk' : (UInt8.ofNat (k + 4)).toNat = k + 4 := by
      rw [UInt8.toNat_ofNat']; omega
    rw [hk']
    simp only
    rw [step_lift]
    have hp : runSpecial (LineTableRow.fromHeader (mh h) symAddr) (mh h) (k + 4) = .error .panic :=
      runSpecial_overflow hh (r := start h symAddr) k hk (Int.natCast_nonneg _) (by
        have := hh.2.2.2
        show ((h.first : Nat) : Int) < _
        omega) hov
    rw [hp]
    exact ⟨_, rfl⟩
  obtain ⟨c', hc⟩ := this
  rw [hc]

example : parseLineTabInfo ⟨0, (⟨0, 1, 2147483647⟩ : LineHdr).bytes ++ ((LineOp.special 1).bytes ++ [])⟩ 0x100 0x100 =
    .error .panic := C19_line_overflow_panics (by simp [LineHdr.InRange]) 1 (by decide) _ _ _
    (by simp [step, start, LineHdr.range]) _

/-- **C19**: a table whose header allows no line delta at all ends at the first special
operator, which could not be decoded: nothing is attributed, and nothing panics. -/
theorem C19_empty_range {h : LineHdr} (h1 : -2147483648 ≤ h.min ∧ h.min < 2147483648)
    (h2 : h.max = h.min - 1) (h4 : h.first < 2147483648) (k : Nat) (hk : k < 252)
    (symAddr addr a : Nat) (rest : Bytes) :
    parseLineTabInfo ⟨a, h.bytes ++ ((LineOp.special k).bytes ++ rest)⟩ symAddr addr = .ok none := by
  unfold parseLineTabInfo
  rw [header_parse' h1 (by omega) h4]
  simp only [LineOp.bytes, List.cons_append, List.nil_append, List.length_cons]
  unfold lineLoop
  rw [if_neg (by simp)]
  have : ∃ c', runOp (LineTableRow.fromHeader (mh h) symAddr) (mh h)
      ⟨a + h.bytes.length, UInt8.ofNat (k + 4) :: rest⟩ = (.error .none, c') := by
    unfold runOp
    rw [step_u8]
    have hk' : (UInt8.ofNat (k + 4)).toNat = k + 4 := by
      rw [UInt8.toNat_ofNat']; omega
    rw [hk']
    simp only
    rw [step_lift]
    have hp : runSpecial (LineTableRow.fromHeader (mh h) symAddr) (mh h) (k + 4) = .error .none := by
      unfold runSpecial
      have e1 : (mh h).maxDelta - (mh h).minDelta = -1 := by
        show h.max - h.min = -1
        omega
      simp only [e1]
      rw [chkI64_ok (by omega) (by omega)]
      have hb : ∀ {α β : Type} (a : α) (f : α → Except Fail β), (Except.ok a >>= f) = f a := fun _ _ => rfl
      rw [hb, chkI64_ok (by omega) (by omega), hb]
      rfl
    rw [hp]
    exact ⟨_, rfl⟩
  obtain ⟨c', hc⟩ := this
  rw [hc]
  rfl

/-! ### Examples -/

example : parseLineTabInfo ⟨0, (⟨3, 2, 7⟩ : LineHdr).bytes ++ ((LineOp.special 9).bytes ++ [])⟩ 0x100 0x100 =
    .ok none := C19_empty_range (by decide) (by decide) (by decide) 9 (by decide) _ _ _ _

/-- Lines 10 and 12 at 0x100, 0x104; then line 20 of file 2 at 0x110. -/
def exHdr : LineHdr := ⟨-4, 10, 10⟩
def exOps : List LineOp :=
  [.special 4, .special 66, .setFile 2, .advanceLine 8, .advancePc 12]

example : rows exHdr (start exHdr 0x100) exOps =
    [⟨0x100, 1, 10⟩, ⟨0x104, 1, 12⟩, ⟨0x110, 2, 20⟩] := by decide

theorem ex_sane : exHdr.InRange ∧ Sane exHdr (start exHdr 0x100) exOps := by
  refine ⟨by simp [LineHdr.InRange, exHdr], ?_⟩
  simp [Sane, exOps, exHdr, step, start, LineOp.InRange, LineHdr.range]

example : parseLineTabInfo ⟨0, exHdr.bytes ++ encode exOps ++ [0]⟩ 0x100 0x107 =
    .ok (some ⟨0x104, 1, 12⟩) :=
  C19_row ex_sane.1 exOps [0] (Or.inr (Or.inl ⟨[], rfl⟩)) 0x100 0x107 0 ex_sane.2 ⟨0x104, 1, 12⟩
    [⟨0x110, 2, 20⟩] ⟨[⟨0x100, 1, 10⟩], by decide, by decide, by decide⟩ (by simp)

example : parseLineTabInfo ⟨0, exHdr.bytes ++ encode exOps ++ [0]⟩ 0x100 0x200 =
    .ok (some ⟨0x110, 2, 20⟩) :=
  C19_last_row_partial ex_sane.1 exOps [0] (Or.inr (Or.inl ⟨[], rfl⟩)) 0x100 0x200 0 ex_sane.2
    ⟨0x110, 2, 20⟩ ⟨[⟨0x100, 1, 10⟩, ⟨0x104, 1, 12⟩], by decide, by decide, by decide⟩
    ⟨[.special 4, .special 66, .setFile 2, .advanceLine 8], .advancePc 12, rfl, rfl⟩

example : parseLineTabInfo ⟨0, exHdr.bytes ++ encode exOps ++ []⟩ 0x100 0x99 = .ok none :=
  C19_no_row ex_sane.1 exOps [] (Or.inl rfl) 0x100 0x99 0 ex_sane.2 (by decide)

/-- **C19** (defect, instance): the row for line 10 of file 1, followed by operators that add
no row, is reported as line 15 of file 3. -/
theorem C19_trailing_operators_witness :
    rows exHdr (start exHdr 0x100) [.special 4, .setFile 3, .advanceLine 5] = [⟨0x100, 1, 10⟩] ∧
    parseLineTabInfo ⟨0, exHdr.bytes ++ encode [.special 4, .setFile 3, .advanceLine 5] ++ [0]⟩
      0x100 0x100 = .ok (some ⟨0x100, 3, 15⟩) := by
  refine ⟨by decide, ?_⟩
  exact C19_trailing_operators ex_sane.1 [.special 4, .setFile 3, .advanceLine 5] [0]
    (Or.inr (Or.inl ⟨[], rfl⟩)) 0x100 0x100 0
    (by simp [Sane, exHdr, step, start, LineOp.InRange, LineHdr.range]) (by decide) (by decide)

end Blazesym.Gsym
