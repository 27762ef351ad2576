import Verif.PerfMap.PerfMap
import Verif.Breakpad.LookupLemmas
import Verif.Maps.MapsProps
import Verif.Util.TextLemmas

/-! # C28: perf map files -/

set_option autoImplicit false

namespace Blazesym.Spec.PerfMap
open Blazesym.PerfMap
open Blazesym.Spec.Maps (Blank)

/-- The line `START SIZE symbolname` of a function: the numbers are hexadecimal, the name is the
rest of the line. -/
def Line (line : Bytes) (f : Function) : Prop :=
  ∃ start size : Bytes, ∃ w w' : UInt8,
    line = start ++ w :: (size ++ w' :: f.name) ∧ Blank w ∧ Blank w' ∧
    (∀ b ∈ start, ¬ Blank b) ∧ (∀ b ∈ size, ¬ Blank b) ∧
    NumText 16 start f.addr ∧ f.addr < 2 ^ 64 ∧ NumText 16 size f.size ∧ f.size < 2 ^ 64 ∧
    Blazesym.isUtf8 f.name = true

/-- The lines of a text, which end at a line feed or carriage return, without empty ones. -/
def lines (data : Bytes) : List Bytes :=
  (fields (fun b => decide (b = 10 ∨ b = 13)) data).filter (fun l => decide (l ≠ []))

end Blazesym.Spec.PerfMap

namespace Blazesym.PerfMap
open Blazesym.Util Blazesym.Spec Blazesym.Spec.PerfMap Blazesym.Symbolize Blazesym.Maps Blazesym.Spec.Maps
open Blazesym.Spec.Breakpad (Covers IsLastStart Fits)
open Blazesym.Breakpad (covers coverScan coverLookup coverLookup_some coverLookup_ok coverLookup_which
  coverLookup_panic)

theorem orInvalid_ok {α : Type} {o : Option α} {a : α} : orInvalid o = .ok a ↔ o = some a := by
  cases o <;> simp [orInvalid]

theorem orInvalid_err {α : Type} {o : Option α} {e : Err} (h : orInvalid o = .error e) : e = .invalidData := by
  cases o <;> simp [orInvalid] at h; exact h.symm

theorem utf8OrInvalid_ok {s s' : Bytes} : utf8OrInvalid s = .ok s' ↔ isUtf8 s = true ∧ s' = s := by
  unfold utf8OrInvalid
  split
  · rename_i h; simp [h, eq_comm]
  · rename_i h; simp [h]

theorem utf8OrInvalid_err {s : Bytes} {e : Err} (h : utf8OrInvalid s = .error e) : e = .invalidData := by
  unfold utf8OrInvalid at h
  split at h <;> simp at h
  exact h.symm

/-- Text that only has ASCII characters is valid UTF-8. -/
theorem isUtf8_ascii {s : Bytes} (h : ∀ b ∈ s, b.toNat < 128) : isUtf8 s = true := by
  rw [isUtf8_iff]
  refine ⟨s.map (fun b => Char.ofNat b.toNat), ?_⟩
  have key : ∀ (s : Bytes), (∀ b ∈ s, b.toNat < 128) →
      (s.map (fun b => Char.ofNat b.toNat)).flatMap String.utf8EncodeChar = s := by
    intro s
    induction s with
    | nil => intro _; rfl
    | cons b t ih =>
      intro h
      rw [List.map_cons, List.flatMap_cons, ih (fun x hx => h x (by simp [hx]))]
      have h1 : ∀ n : Fin 128, String.utf8EncodeChar (Char.ofNat n.val) = [UInt8.ofNat n.val] := by decide
      have := h1 ⟨b.toNat, h b (by simp)⟩
      simp only at this
      rw [this]
      simp
  unfold List.utf8Encode
  rw [key s h]
  exact ByteArray.ext (by simp)

theorem numText_ascii {base : Nat} (hb : base ≤ 36) {s : Bytes} {v : Nat} (h : NumText base s v) :
    ∀ b ∈ s, b.toNat < 128 := by
  have hd : ∀ c, IsDigit base c → c.toNat < 128 := by
    intro c hc
    unfold IsDigit digitVal at hc
    split_ifs at hc <;> omega
  obtain ⟨ds, h1 | h1, _, h3, _⟩ := h
  · subst h1; exact fun b hb => hd b (h3 b hb)
  · subst h1
    intro b hb
    rcases List.mem_cons.mp hb with rfl | hb
    · decide
    · exact hd b (h3 b hb)

theorem hex_iff (s : Bytes) (v : Nat) : fromStrRadix u64Size 16 s = some v ↔ NumText 16 s v ∧ v < 2 ^ 64 :=
  fromStrRadix_iff (by omega) (by omega) (by decide) s v

/-- **C28** (lines): a line is accepted exactly if it has the documented form, and yields the
numbers and the name that it consists of. -/
theorem C28_line (line : Bytes) (f : Function) : parsePerfMapLine line = .ok f ↔ Line line f := by
  unfold parsePerfMapLine
  simp only [bind_ok_iff, Prod.exists, orInvalid_ok, utf8OrInvalid_ok, hex_iff, splitBytes_some_iff]
  constructor
  · rintro ⟨a, r, ⟨w, h1, h2, h3⟩, a', ⟨_, rfl⟩, addr, ⟨h4, h5⟩, s, r', ⟨w', g1, g2, g3⟩, s', ⟨_, rfl⟩, size,
      ⟨g4, g5⟩, name, ⟨i1, rfl⟩, hf⟩
    simp only [pure, Except.pure, Except.ok.injEq] at hf
    subst hf
    refine ⟨a', s', w, w', by rw [h1, g1], (isAsciiWs_iff _).mp h2, (isAsciiWs_iff _).mp g2,
      fun b hb => (isAsciiWs_false_iff b).mp (h3 b hb), fun b hb => (isAsciiWs_false_iff b).mp (g3 b hb),
      h4, h5, g4, g5, i1⟩
  · rintro ⟨start, size, w, w', h1, h2, h3, h4, h5, h6, h7, h8, h9, h10⟩
    refine ⟨start, _, ⟨w, h1, (isAsciiWs_iff _).mpr h2, fun b hb => (isAsciiWs_false_iff b).mpr (h4 b hb)⟩, start,
      ⟨isUtf8_ascii (numText_ascii (by omega) h6), rfl⟩, f.addr, ⟨h6, h7⟩, size, f.name,
      ⟨w', rfl, (isAsciiWs_iff _).mpr h3, fun b hb => (isAsciiWs_false_iff b).mpr (h5 b hb)⟩, size,
      ⟨isUtf8_ascii (numText_ascii (by omega) h8), rfl⟩, f.size, ⟨h8, h9⟩, f.name, ⟨h10, rfl⟩, rfl⟩

theorem line_error {line : Bytes} {e : Err} (h : parsePerfMapLine line = .error e) : e = .invalidData := by
  unfold parsePerfMapLine at h
  rcases bind_err h with h | ⟨x, _, h⟩
  · exact orInvalid_err h
  rcases bind_err h with h | ⟨x, _, h⟩
  · exact utf8OrInvalid_err h
  rcases bind_err h with h | ⟨x, _, h⟩
  · exact orInvalid_err h
  rcases bind_err h with h | ⟨x, _, h⟩
  · exact orInvalid_err h
  rcases bind_err h with h | ⟨x, _, h⟩
  · exact utf8OrInvalid_err h
  rcases bind_err h with h | ⟨x, _, h⟩
  · exact orInvalid_err h
  rcases bind_err h with h | ⟨x, _, h⟩
  · exact utf8OrInvalid_err h
  cases h

theorem collect_ok {α β : Type} (f : α → Except Err β) (l : List α) (out : List β) :
    collect (l.map f) = .ok out ↔ List.Forall₂ (fun a b => f a = .ok b) l out := by
  induction l generalizing out with
  | nil => simp [collect, eq_comm]
  | cons a t ih =>
    rw [List.map_cons]
    cases h : f a with
    | error e =>
      simp only [collect, reduceCtorEq, false_iff]
      intro hh
      cases hh with
      | cons h1 _ => rw [h] at h1; cases h1
    | ok b =>
      unfold collect
      cases hc : collect (t.map f) with
      | error e =>
        simp only [reduceCtorEq, false_iff]
        intro hh
        cases hh with
        | cons _ h2 => rw [(ih _).mpr h2] at hc; cases hc
      | ok l =>
        simp only [Except.ok.injEq]
        constructor
        · rintro rfl; exact .cons h ((ih _).mp hc)
        · intro hh
          cases hh with
          | cons h1 h2 =>
            rw [h] at h1
            cases h1
            have := (ih _).mpr h2
            rw [hc] at this
            cases this
            rfl

theorem collect_err {α β : Type} (f : α → Except Err β) (l : List α) {e : Err}
    (h : collect (l.map f) = .error e) : ∃ a ∈ l, f a = .error e := by
  induction l with
  | nil => simp [collect] at h
  | cons a t ih =>
    rw [List.map_cons] at h
    cases hf : f a with
    | error e' =>
      rw [hf] at h
      simp only [collect, Except.error.injEq] at h
      subst h
      exact ⟨a, by simp, hf⟩
    | ok b =>
      rw [hf] at h
      unfold collect at h
      cases hc : collect (t.map f) with
      | error e' =>
        rw [hc] at h
        simp only [Except.error.injEq] at h
        subst h
        obtain ⟨x, hx, hx'⟩ := ih hc
        exact ⟨x, by simp [hx], hx'⟩
      | ok l => rw [hc] at h; cases h

theorem lines_eq (data : Bytes) :
    (split (fun b => b == 10 || b == 13) data).filter (fun line => !line.isEmpty) = lines data := by
  rw [split_eq]
  unfold lines
  have h1 : (fun b : UInt8 => b == 10 || b == 13) = fun b => decide (b = 10 ∨ b = 13) := by
    funext b; simp [Bool.decide_or, BEq.beq]
  have h2 : (fun l : Bytes => !l.isEmpty) = fun l => decide (l ≠ []) := by
    funext l; cases l <;> simp
  rw [h1, h2]

/-- **C28** (parsing): a perf map is read exactly if all its lines are well-formed; the result is
the functions of its lines sorted by start and size. -/
theorem C28_parse (data : Bytes) (out : List Function) :
    parsePerfMap data = .ok out ↔
      ∃ fs, List.Forall₂ Line (lines data) fs ∧ StableSorted (fun f => pairKey f.addr f.size) fs out := by
  unfold parsePerfMap
  rw [lines_eq]
  constructor
  · intro h
    cases hc : collect ((lines data).map parsePerfMapLine) with
    | error e => rw [hc] at h; cases h
    | ok fs =>
      rw [hc] at h
      simp only [Except.ok.injEq] at h
      subst h
      refine ⟨fs, ?_, sortByKey_stable _ _⟩
      exact ((collect_ok _ _ _).mp hc).imp (fun a b => (C28_line a b).mp)
  · rintro ⟨fs, h1, h2⟩
    have := (collect_ok parsePerfMapLine (lines data) fs).mpr (h1.imp (fun a b => (C28_line a b).mpr))
    rw [this]
    simp only [Except.ok.injEq]
    exact StableSorted.unique (sortByKey_stable _ _) h2

/-- **C28** (malformed): anything else is invalid data, and there is a malformed line. -/
theorem C28_malformed {data : Bytes} {e : Err} (h : parsePerfMap data = .error e) :
    e = .invalidData ∧ ∃ l ∈ lines data, ¬ ∃ f, Line l f := by
  unfold parsePerfMap at h
  rw [lines_eq] at h
  cases hc : collect ((lines data).map parsePerfMapLine) with
  | ok fs => rw [hc] at h; cases h
  | error e' =>
    rw [hc] at h
    simp only [Except.error.injEq] at h
    subst h
    obtain ⟨l, hl, he⟩ := collect_err _ _ hc
    refine ⟨line_error he, l, hl, ?_⟩
    rintro ⟨f, hf⟩
    rw [(C28_line l f).mpr hf] at he
    cases he

/-! ### Lookup -/

/-- The symbol reported for a function. -/
def symOf (f : Function) : ResolvedSym :=
  { name := f.name, module := none, addr := f.addr, size := some f.size, lang := .unknown, codeInfo := none, inlined := [] }

theorem scan_eq (addr : Nat) (l : List Function) :
    scan addr l = (coverScan (fun f => f.addr) (fun f => f.size) addr l).map
      (fun o => match o with | some f => .ok (symOf f) | none => .error .unknownAddr) := by
  induction l with
  | nil => rfl
  | cons f t ih =>
    unfold scan coverScan
    by_cases h : f.addr > addr
    · rw [if_pos h, if_pos h]; rfl
    · rw [if_neg h, if_neg h]
      have : matches? f addr = covers f.addr f.size addr := rfl
      rw [this]
      cases covers f.addr f.size addr with
      | error e => rfl
      | ok b => cases b <;> simp [ih, symOf, Except.map]

theorem findSym_eq (fs : List Function) (addr : Nat) (opts : FindSymOpts) :
    findSym fs addr opts = (coverLookup (fun f => f.addr) (fun f => f.size) fs addr).map
      (fun o => match o with | some f => .ok (symOf f) | none => .error .unknownAddr) := by
  unfold findSym coverLookup
  cases findMatchOrLowerBoundByKey fs addr (fun l => l.addr) with
  | none => rfl
  | some idx => exact scan_eq addr _

/-- The function a lookup goes by: it covers the address and no other one starts between its
start and the address. -/
def For (fs : List Function) (addr : Nat) (f : Function) : Prop :=
  f ∈ fs ∧ Covers f.addr f.size addr ∧ IsLastStart (fun f => f.addr) fs addr f.addr

theorem parsed_sorted {data : Bytes} {fs : List Function} (h : parsePerfMap data = .ok fs) :
    SortedBy fs (fun f => pairKey f.addr f.size) := by
  obtain ⟨_, _, h2⟩ := (C28_parse data fs).mp h
  exact h2.1

/-- **C28** (soundness): the reported function contains the address, no function starts between
its start and the address, and the symbol has its name, address and size. -/
theorem C28_lookup_sound {data : Bytes} {fs : List Function} (hp : parsePerfMap data = .ok fs) {addr : Nat}
    {opts : FindSymOpts} {sym : ResolvedSym} (h : findSym fs addr opts = .ok (.ok sym)) :
    ∃ f, For fs addr f ∧ sym = symOf f := by
  rw [findSym_eq] at h
  cases hc : coverLookup (fun f => f.addr) (fun f => f.size) fs addr with
  | error e => rw [hc] at h; cases h
  | ok o =>
    rw [hc] at h
    cases o with
    | none => simp [Except.map] at h
    | some f =>
      simp only [Except.map, Except.ok.injEq] at h
      exact ⟨f, coverLookup_some (parsed_sorted hp) hc, h.symm⟩

/-- **C28** (completeness, partial): if no function at or below the address reaches the end of the
address space, a symbol is reported exactly if a function with the nearest start contains the
address; otherwise the address is unknown.  Missing: functions that reach the end of the address
space, see `C28_overflow_panics`; functions with an earlier start are not considered, see
`C28_overlap_missed`. -/
theorem C28_lookup_complete_partial {data : Bytes} {fs : List Function} (hp : parsePerfMap data = .ok fs)
    {addr : Nat} (opts : FindSymOpts) (ho : Fits (fun f => f.addr) (fun f => f.size) fs addr) :
    ((∃ f, For fs addr f) ∧ ∃ sym, findSym fs addr opts = .ok (.ok sym)) ∨
    ((¬ ∃ f, For fs addr f) ∧ findSym fs addr opts = .ok (.error .unknownAddr)) := by
  rcases coverLookup_ok (parsed_sorted hp) ho with ⟨f, hf⟩ | ⟨h1, h2⟩
  · left
    refine ⟨⟨f, coverLookup_some (parsed_sorted hp) hf⟩, symOf f, ?_⟩
    rw [findSym_eq, hf]; rfl
  · right
    refine ⟨fun ⟨f, a, b, c⟩ => h2 f a c b, ?_⟩
    rw [findSym_eq, h1]; rfl

/-- **C28** (functions with the same start): the smallest one that contains the address is
reported, unless their start is the smallest of all and below the address. -/
theorem C28_same_start {data : Bytes} {fs : List Function} (hp : parsePerfMap data = .ok fs)
    {addr : Nat} {opts : FindSymOpts} (ho : Fits (fun f => f.addr) (fun f => f.size) fs addr)
    {sym : ResolvedSym} (h : findSym fs addr opts = .ok (.ok sym))
    (hc : sym.addr = addr ∨ ∃ x ∈ fs, x.addr < sym.addr) :
    ∃ f, For fs addr f ∧ sym = symOf f ∧ ∀ g, For fs addr g → f.size ≤ g.size := by
  rw [findSym_eq] at h
  cases hl : coverLookup (fun f => f.addr) (fun f => f.size) fs addr with
  | error e => rw [hl] at h; cases h
  | ok o =>
    rw [hl] at h
    cases o with
    | none => simp [Except.map] at h
    | some f =>
      simp only [Except.map, Except.ok.injEq] at h
      subst h
      have hs := parsed_sorted hp
      have hfor := coverLookup_some hs hl
      refine ⟨f, hfor, rfl, ?_⟩
      obtain ⟨pre, post, h1, h2⟩ := (coverLookup_which hs ho hl).1 hc
      rintro g ⟨g1, g2, g3⟩
      have hstart : g.addr = f.addr :=
        le_antisymm (hfor.2.2.2 g g1 g3.1) (g3.2 f hfor.1 hfor.2.2.1)
      rw [h1] at g1
      rcases List.mem_append.mp g1 with hg | hg
      · exact absurd g2 (h2 g hg hstart)
      · rcases List.mem_cons.mp hg with rfl | hg
        · exact le_refl _
        · rw [h1] at hs
          have := (List.pairwise_append.mp hs).2.1
          have := (List.pairwise_cons.mp this).1 g hg
          rw [pairKey_le] at this
          omega

/-- **C28** (overflow): a function that reaches the end of the address space makes every lookup
panic that goes by it. -/
theorem C28_overflow_panics {data : Bytes} {fs : List Function} (hp : parsePerfMap data = .ok fs)
    {addr : Nat} (opts : FindSymOpts) {f : Function} (hf : f ∈ fs) (honly : ∀ x ∈ fs, x.addr = f.addr → x = f)
    (hlast : IsLastStart (fun f => f.addr) fs addr f.addr) (hov : 2 ^ 64 ≤ f.addr + f.size)
    (hz : ¬ (f.addr = addr ∧ f.size = 0)) : findSym fs addr opts = .error .panic := by
  rw [findSym_eq, coverLookup_panic (parsed_sorted hp) hf honly hlast hov hz]
  rfl

/-- The text of two functions, the second inside the first. -/
def demo : Bytes := ascii "1000 100 outer\n\r\n1010 8 f g\n"

theorem demo_parse : parsePerfMap demo = .ok [⟨ascii "outer", 0x1000, 0x100⟩, ⟨ascii "f g", 0x1010, 8⟩] := by
  decide +kernel

/-- **C28** (overlap): an address that is only contained in a function that started earlier than
another one before the address is not found. -/
theorem C28_overlap_missed : ∃ fs, parsePerfMap demo = .ok fs ∧
    (∃ f ∈ fs, f.addr ≤ 0x1020 ∧ 0x1020 < f.addr + f.size) ∧
    findSym fs 0x1020 .basic = .ok (.error .unknownAddr) := by
  refine ⟨_, demo_parse, ⟨_, List.mem_cons_self .., ?_⟩, ?_⟩ <;> decide +kernel

/-- **C28** (path): the file is `/tmp/perf-PID.map`. -/
theorem C28_path (pid : Nat) (h : pid < 2 ^ 32) :
    ∃ ds, path pid = ascii "/tmp/perf-" ++ ds ++ ascii ".map" ∧ (∀ c ∈ ds, IsDigit 10 c) ∧ numVal 10 ds = pid := by
  obtain ⟨h1, h2⟩ := fmtLoop_spec 10 (by omega) (by omega) 20 pid (lt_trans h (by decide))
  refine ⟨fmtDec pid, ?_, h1, h2⟩
  unfold path
  rw [show ascii "/tmp/perf-" = ascii "/tmp" ++ ascii "/" ++ ascii "perf-" by decide +kernel]
  simp only [List.append_assoc]

/-- The hypotheses of the lookup theorems are met by the example. -/
example : ∃ fs, parsePerfMap demo = .ok fs ∧ Fits (fun f => f.addr) (fun f => f.size) fs 0x1012 ∧
    findSym fs 0x1012 .basic = .ok (.ok (symOf ⟨ascii "f g", 0x1010, 8⟩)) ∧
    (0x1010 = 0x1012 ∨ ∃ x ∈ fs, x.addr < 0x1010) := by
  refine ⟨_, demo_parse, ?_, by decide +kernel, Or.inr ⟨_, List.mem_cons_self .., by decide⟩⟩
  intro e he
  rcases List.mem_cons.mp he with rfl | he
  · decide
  · rcases List.mem_cons.mp he with rfl | he
    · decide
    · simp at he

/-- A line with a missing name, and a function that reaches the end of the address space. -/
example : parsePerfMap (ascii "1000 10") = .error .invalidData ∧
    ∃ fs, parsePerfMap (ascii "fffffffffffffff0 10 last") = .ok fs ∧
      findSym fs 0xfffffffffffffff8 .basic = .error .panic := by
  refine ⟨by decide +kernel, [⟨ascii "last", 0xfffffffffffffff0, 0x10⟩], by decide +kernel, by decide +kernel⟩

end Blazesym.PerfMap
