import Verif.Normalize.UserProps
import Mathlib.Data.Nat.Bitwise

/-! Property theorems C02 for the four sources of mappings. -/

set_option autoImplicit false

namespace Blazesym.Normalize
open Blazesym.Util Blazesym.Maps Blazesym.Symbolize Blazesym.Spec.Normalize Blazesym.Spec.Maps

/-- The entry for a mapping as the ioctl describes it. -/
def fromKernel (pid : Nat) (buildIds : Bool) (r : RawVma) : Entry :=
  ⟨r.start, r.stop, 4 * (r.flags % 2) + 2 * (r.flags / 2 % 2) + r.flags / 4 % 2, r.offset,
    (if r.name = [] then none
     else if r.name.head? = some 47 then
       some (.path ⟨mapsFile pid r.start r.stop, (stripSuffix r.name (ascii " (deleted)")).getD r.name⟩)
     else some (.component r.name)),
    if buildIds = true ∧ r.buildId ≠ [] then some r.buildId else none⟩

/-- The readable mappings. -/
def readable (pid : Nat) (buildIds : Bool) (vs : List RawVma) : List Entry :=
  (vs.filter (fun v => decide (v.flags % 2 = 1))).map (fromKernel pid buildIds)

theorem and_pow (n k : Nat) : (n &&& 2 ^ k ≠ 0) ↔ n / 2 ^ k % 2 = 1 := by
  rw [Nat.and_two_pow]
  rw [Nat.testBit_eq_decide_div_mod_eq]
  by_cases h : n / 2 ^ k % 2 = 1
  · simp [h]
  · simp [h]

theorem vmaFlagsToPerm_eq (n : Nat) :
    vmaFlagsToPerm n = 4 * (n % 2) + 2 * (n / 2 % 2) + n / 4 % 2 := by
  have h0 := and_pow n 0
  have h1 := and_pow n 1
  have h2 := and_pow n 2
  simp only [pow_zero, Nat.div_one, pow_one] at h0 h1
  norm_num at h2
  unfold vmaFlagsToPerm
  simp only [ne_eq] at h0 h1 h2 ⊢
  simp only [h0, h1, h2]
  rcases Nat.mod_two_eq_zero_or_one n with a | a <;>
  rcases Nat.mod_two_eq_zero_or_one (n / 2) with b | b <;>
  rcases Nat.mod_two_eq_zero_or_one (n / 4) with c | c <;>
  simp [a, b, c, permR, permW, permX]

theorem parsePathName_name (name : Bytes) (pid start stop : Nat) :
    parsePathName name pid start stop = (if name = [] then none
     else if name.head? = some 47 then
       some (.path ⟨mapsFile pid start stop, (stripSuffix name (ascii " (deleted)")).getD name⟩)
     else some (.component name)) := by
  unfold parsePathName
  cases name with
  | nil => rfl
  | cons b t => by_cases hb : b = 47 <;> simp [hb]

theorem find?_filter_map {α β : Type} (p : α → Bool) (f : α → β) (q : β → Bool) (r : α → Bool)
    (h : ∀ a, p a = (r a && q (f a))) (l : List α) :
    ((l.filter r).map f).find? q = (l.find? p).map f := by
  induction l with
  | nil => rfl
  | cons a t ih =>
    rw [List.filter_cons, List.find?_cons, h a]
    cases hr : r a with
    | false => simpa using ih
    | true =>
      simp only [if_true, List.map_cons, List.find?_cons, Bool.true_and]
      cases hq : q (f a) with
      | true => rfl
      | false => simpa using ih

/-- **C02** (query): asking for an address yields the readable mapping that covers it or the
next one, with its data. -/
theorem C02_query (kernel : Nat → Except Err (Option RawVma)) (vs : List RawVma) (pid : Nat) (buildIds : Bool)
    (hk : ∀ a, kernel a = .ok (kernelAnswer vs a)) (addr : Nat) :
    queryProcmap kernel pid buildIds addr = .ok (coveringOrNext (readable pid buildIds vs) addr) := by
  unfold queryProcmap
  rw [hk]
  have : coveringOrNext (readable pid buildIds vs) addr = (kernelAnswer vs addr).map (fromKernel pid buildIds) := by
    unfold coveringOrNext readable kernelAnswer
    apply find?_filter_map
    intro a
    rfl
  rw [this]
  cases kernelAnswer vs addr with
  | none => rfl
  | some r =>
    simp only [Option.map_some]
    rw [vmaFlagsToPerm_eq, parsePathName_name]
    unfold fromKernel
    have : (buildIds = true ∧ r.buildId.length > 0) ↔ (buildIds = true ∧ r.buildId ≠ []) := by
      rw [← List.length_pos_iff]
    simp only [this]

theorem readable_relevant (pid : Nat) (buildIds : Bool) (vs : List RawVma) :
    ∀ e ∈ readable pid buildIds vs, filterRelevant e = true := by
  intro e he
  unfold readable at he
  obtain ⟨v, hv, rfl⟩ := List.mem_map.mp he
  have hv := (List.mem_filter.mp hv).2
  simp only [decide_eq_true_eq] at hv
  unfold filterRelevant fromKernel
  simp only [hv]
  rcases Nat.mod_two_eq_zero_or_one (v.flags / 2) with b | b <;>
  rcases Nat.mod_two_eq_zero_or_one (v.flags / 4) with c | c <;>
  simp [b, c, permR, permX]

theorem enumerate_suffix (q : Nat → Except Err (Option Entry)) (es : List Entry)
    (hq : ∀ a, q a = .ok (coveringOrNext es a)) (hrel : ∀ e ∈ es, filterRelevant e = true) (hl : Listing es)
    (post pre : List Entry) (hes : es = pre ++ post) (addr fuel : Nat) (hf : post.length < fuel)
    (hpre : ∀ x ∈ pre, x.stop ≤ addr) (hpost : ∀ x ∈ post, addr < x.stop) :
    enumerate q fuel addr = .ok post := by
  induction post generalizing pre addr fuel with
  | nil =>
    cases fuel with
    | zero => simp at hf
    | succ fuel =>
      simp only [enumerate, hq]
      have : coveringOrNext es addr = none := by
        unfold coveringOrNext
        rw [List.find?_eq_none]
        intro x hx
        rw [hes] at hx
        have := hpre x (by simpa using hx)
        simp only [decide_eq_true_eq]; omega
      rw [this]
  | cons e t ih =>
    cases fuel with
    | zero => simp at hf
    | succ fuel =>
      simp only [enumerate, hq]
      have hc : coveringOrNext es addr = some e := by
        unfold coveringOrNext
        rw [hes, List.find?_append]
        have : pre.find? (fun e => decide (addr < e.stop)) = none := by
          rw [List.find?_eq_none]
          intro x hx
          have := hpre x hx
          simp only [decide_eq_true_eq]; omega
        rw [this]
        have := hpost e (by simp)
        simp [this]
      rw [hc]
      simp only
      have hl' := hl
      rw [hes] at hl'
      obtain ⟨k1, k2, k3⟩ := listing_append hl'
      rw [ih (pre ++ [e]) (by rw [hes]; simp) e.stop fuel (by simp at hf; omega) (by
          intro x hx
          rcases List.mem_append.mp hx with hx | hx
          · have := k1 x hx; omega
          · simp only [List.mem_singleton] at hx; subst hx; omega) (by
          intro x hx
          have := k2 x hx
          have := hl.2 x (by rw [hes]; simp [hx])
          omega)]
      simp only [hrel e (by rw [hes]; simp), if_true]

/-- **C02** (reading all mappings by queries): this ends after one query per mapping and one
more, and yields exactly the readable mappings in order. -/
theorem C02_enumerate (kernel : Nat → Except Err (Option RawVma)) (vs : List RawVma) (pid : Nat)
    (buildIds : Bool) (hk : ∀ a, kernel a = .ok (kernelAnswer vs a)) (hl : Listing (readable pid buildIds vs))
    (budget : Nat) (hb : vs.length < budget) :
    enumerate (queryProcmap kernel pid buildIds) budget 0 = .ok (readable pid buildIds vs) := by
  apply enumerate_suffix _ _ (C02_query kernel vs pid buildIds hk) (readable_relevant pid buildIds vs) hl
    _ [] rfl 0 budget
  · have : (readable pid buildIds vs).length ≤ vs.length := by
      unfold readable; rw [List.length_map]; exact List.length_filter_le _ _
    exact lt_of_le_of_lt this hb
  · simp
  · intro x hx; have := hl.2 x hx; omega

/-- The settings of a normalizer that uses the `maps` file. -/
def mapsSetup (cacheVmas buildIds : Bool) (pid : Nat) (text : Bytes) (kernel : Nat → Except Err (Option RawVma)) :
    Setup := ⟨false, cacheVmas, buildIds, pid, .ok text, kernel⟩

/-- The settings of a normalizer that uses the ioctl. -/
def querySetup (cacheVmas buildIds : Bool) (pid : Nat) (text : Bytes) (kernel : Nat → Except Err (Option RawVma)) :
    Setup := ⟨true, cacheVmas, buildIds, pid, .ok text, kernel⟩

/-- **C02** (maps file): with or without caching, the mappings used are exactly the readable or
executable ones of the file. -/
theorem C02_source_maps (cacheVmas buildIds : Bool) (pid budget : Nat) (kernel : Nat → Except Err (Option RawVma))
    (vs : List Vma) (lines : List Bytes) (h : List.Forall₂ Printed vs lines) (hr : ∀ v ∈ vs, Regular v) :
    let es := (vs.filter (fun v => v.r || v.x)).map (reported pid)
    entriesFor (mapsSetup cacheVmas buildIds pid lines.flatten kernel) budget none =
      .ok (.list (es.map .ok), if cacheVmas then some es else none) := by
  intro es
  unfold entriesFor mapsSetup
  simp only [Bool.false_eq_true, if_false]
  cases cacheVmas with
  | false =>
    simp only [Bool.false_eq_true, if_false, not_false_eq_true, if_true]
    rw [C17_entries pid vs lines h hr]
    simp [es]
  | true =>
    simp only [not_true_eq_false, if_false, if_true]
    rw [C17_collect pid vs lines h hr]

/-- **C02** (ioctl): the source used yields the same results as a list of exactly the readable
mappings (`Provides`), with or without caching. -/
theorem C02_source_query (cacheVmas buildIds : Bool) (pid budget : Nat) (text : Bytes)
    (kernel : Nat → Except Err (Option RawVma)) (vs : List RawVma)
    (hk : ∀ a, kernel a = .ok (kernelAnswer vs a)) (hl : Listing (readable pid buildIds vs))
    (hb : vs.length < budget) (addrs : List Nat) (hne : readable pid buildIds vs ≠ [])
    (hr : addrs = [] ∨ ∃ a ∈ addrs, ∃ e ∈ readable pid buildIds vs, a < e.stop) :
    ∃ src c, entriesFor (querySetup cacheVmas buildIds pid text kernel) budget none = .ok (src, c) ∧
      Provides src (readable pid buildIds vs) addrs ∧
      (cacheVmas = true → c = some (readable pid buildIds vs)) := by
  unfold entriesFor querySetup
  simp only [if_true]
  cases cacheVmas with
  | false =>
    simp only [Bool.false_eq_true, not_false_eq_true, if_true]
    exact ⟨_, _, rfl, ⟨hne, Or.inr ⟨_, rfl, C02_query kernel vs pid buildIds hk, hr⟩⟩, fun h => by cases h⟩
  | true =>
    simp only [not_true_eq_false, if_false]
    rw [C02_enumerate kernel vs pid buildIds hk hl budget hb]
    exact ⟨_, _, rfl, ⟨hne, Or.inl rfl⟩, fun _ => rfl⟩

/-- **C02** (cached mappings): later calls use the mappings of the first one, whatever has
happened to the process since (provided that its `maps` file can be opened where it is). -/
theorem C02_source_cached (su : Setup) (budget : Nat) (l : List Entry) (hc : su.cacheVmas = true)
    (ho : su.useProcmapQuery = true → ∃ text, su.maps = .ok text) :
    entriesFor su budget (some l) = .ok (.list (l.map .ok), some l) := by
  unfold entriesFor
  by_cases hu : su.useProcmapQuery = true
  · obtain ⟨text, ht⟩ := ho hu
    rw [if_pos hu, ht]
    simp [hc]
  · rw [if_neg hu]
    simp [hc]

/-- **C02** a process that cannot be looked at: the error is reported. -/
theorem C02_source_error (su : Setup) (budget : Nat) (e : Err) (hm : su.maps = .error e) :
    entriesFor su budget none = .error e := by
  unfold entriesFor
  rw [hm]
  cases su.useProcmapQuery <;> cases su.cacheVmas <;> rfl

/-- **C02** (whole call, maps file; partial as `C02_normalize_partial`): a process whose
mappings the kernel printed to `lines`, described by path, has every address normalized as
documented. -/
theorem C02_maps_file_partial (env : Env) (sortedAddrs cacheVmas buildIds : Bool) (pid budget : Nat)
    (kernel : Nat → Except Err (Option RawVma)) (vs : List Vma) (lines : List Bytes) (addrs : List Nat)
    (h : List.Forall₂ Printed vs lines) (hr : ∀ v ∈ vs, Regular v)
    (hasc : vs.Pairwise (fun a b => a.stop ≤ b.start)) (hneg : ∀ v ∈ vs, v.start < v.stop)
    (hsome : ∃ v ∈ vs, v.r = true ∨ v.x = true)
    (hs : sortedAddrs = true → addrs.Pairwise (· ≤ ·)) (ha : env.apkToElf = false) :
    let es := (vs.filter (fun v => v.r || v.x)).map (reported pid)
    (∀ a ∈ addrs, ∃ v m, describe env es a = .ok (v, m)) → (∀ a ∈ addrs, ¬ InVdsoGap env es a) →
    ∃ src c metas outs,
      entriesFor (mapsSetup cacheVmas buildIds pid lines.flatten kernel) budget none = .ok (src, c) ∧
      normalizeUserAddrs env sortedAddrs src addrs = .ok metas outs ∧
      List.Forall₂ (fun a (o : Nat × Nat) => ∃ m, metas[o.2]? = some m ∧ describe env es a = .ok (o.1, m))
        addrs outs := by
  intro es hok hg
  have hl : Listing es := by
    refine ⟨?_, ?_⟩
    · show ((vs.filter _).map _).Pairwise _
      rw [List.pairwise_map]
      exact (hasc.filter _).imp (fun h => h)
    · intro e he
      obtain ⟨v, hv, rfl⟩ := List.mem_map.mp he
      exact hneg v (List.mem_filter.mp hv).1
  have hne : es ≠ [] := by
    obtain ⟨v, hv, hv'⟩ := hsome
    have : reported pid v ∈ es := List.mem_map.mpr ⟨v, List.mem_filter.mpr ⟨hv, by simpa using hv'⟩, rfl⟩
    intro h0
    rw [h0] at this
    cases this
  have hcons : Consistent env es addrs := by
    cases hmf : env.mapFiles with
    | false =>
      refine C02_consistent env es addrs hmf ha ?_
      intro e he
      obtain ⟨v, _, rfl⟩ := List.mem_map.mp he
      rfl
    | true =>
      refine C02_consistent_map_files env pid es addrs hmf ha hl ?_
      intro e he
      obtain ⟨v, hv, rfl⟩ := List.mem_map.mp he
      have hreg := hr v (List.mem_filter.mp hv).1
      refine ⟨hreg.1, hreg.2.1, ?_⟩
      intro p hp
      simp only [reported, reportedName] at hp ⊢
      by_cases h1 : v.name = []
      · simp [h1] at hp
      · by_cases h2 : v.name.head? = some 47
        · simp only [h1, h2, if_false, if_true, Option.some.injEq, PathName.path.injEq] at hp
          rw [← hp]
        · simp [h1, h2] at hp
  obtain ⟨metas, outs, h1, h2⟩ := C02_normalize_partial env sortedAddrs (.list (es.map .ok)) es addrs hl
    ⟨hne, Or.inl rfl⟩ hs hok hg hcons
  exact ⟨_, _, metas, outs, C02_source_maps cacheVmas buildIds pid budget kernel vs lines h hr, h1, h2⟩

/-- **C02** (defect): an address in a mapping that is executable but not readable is normalized
if the maps file is used and unmapped if the ioctl is. -/
theorem C02_execute_only (env : Env) (pid : Nat) (buildIds : Bool) (pre post : List Vma) (v : Vma)
    (raw : Vma → RawVma) (hraw : ∀ v, (raw v).start = v.start ∧ (raw v).stop = v.stop ∧ (raw v).flags % 2 = v.r.toNat)
    (hasc : (pre ++ v :: post).Pairwise (fun a b => a.stop ≤ b.start)) (hneg : ∀ u ∈ pre ++ v :: post, u.start < u.stop)
    (hv : v.r = false ∧ v.x = true) (addr : Nat) (ha : v.start ≤ addr ∧ addr < v.stop) :
    mappingOf (((pre ++ v :: post).filter (fun v => v.r || v.x)).map (reported pid)) addr = some (reported pid v) ∧
    describe env (readable pid buildIds ((pre ++ v :: post).map raw)) addr = .ok (addr, .unknown .unmapped) := by
  constructor
  · have hl : Listing (((pre ++ v :: post).filter (fun v => v.r || v.x)).map (reported pid)) := by
      refine ⟨?_, ?_⟩
      · rw [List.pairwise_map]
        exact (hasc.filter _).imp (fun h => h)
      · intro e he
        obtain ⟨v, hv, rfl⟩ := List.mem_map.mp he
        exact hneg v (List.mem_filter.mp hv).1
    rw [List.filter_append, List.filter_cons_of_pos (by simp [hv.2]), List.map_append, List.map_cons] at hl ⊢
    exact mappingOf_at hl ha.1 ha.2
  · apply describe_none
    unfold mappingOf readable
    rw [List.find?_eq_none]
    intro e he
    obtain ⟨r, hr, rfl⟩ := List.mem_map.mp he
    obtain ⟨hr1, hr2⟩ := List.mem_filter.mp hr
    obtain ⟨u, hu, rfl⟩ := List.mem_map.mp hr1
    obtain ⟨a1, a2, a3⟩ := hraw u
    simp only [decide_eq_true_eq] at hr2
    simp only [fromKernel, Bool.and_eq_true, decide_eq_true_eq, not_and, a1, a2]
    have hune : u ≠ v := by
      rintro rfl
      rw [a3, hv.1] at hr2
      simp at hr2
    rw [List.pairwise_append, List.pairwise_cons] at hasc
    obtain ⟨_, ⟨h1, _⟩, h2⟩ := hasc
    rcases List.mem_append.mp hu with hu | hu
    · have := h2 u hu v (by simp); omega
    · rcases List.mem_cons.mp hu with rfl | hu
      · exact absurd rfl hune
      · have := h1 u hu; omega

/-! Concrete cases. -/

/-- A symbol of the vDSO. -/
def exampleSym : Sym := ⟨ascii "f", some (ascii "[vdso]"), 16, 0, some 1, none, []⟩

/-- A world for the examples: no archives, one build ID, a vDSO with a symbol at 16. -/
def exampleEnv : Env where
  mapFiles := false
  apkToElf := false
  readBuildId := fun p => if p = ascii "/bin/a" then .ok (some [1, 2]) else .error .notFound
  translateApk := fun _ _ => .ok none
  vdso := fun _ _ =>
    .ok ⟨fun o => .ok (some o), fun v => if v = 16 then .ok (.sym exampleSym) else .ok (.unknown .unknownAddr)⟩

def exampleText : Bytes :=
  ascii "1000-2000 r-xp 3000 08:01 7                          /bin/a\n" ++
  ascii "2000-3000 -w-p 4000 08:01 7                          /bin/a\n" ++
  ascii "4000-5000 r--p 0 00:00 0 \n" ++
  ascii "5000-6000 r--p 0 08:01 9                             /x/b.apk\n" ++
  ascii "7000-8000 r-xp 0 00:00 0                             [vdso]\n"

example : parseFiltered exampleText 5 =
    (([⟨0x1000, 0x2000, 5, 0x3000, some (.path ⟨ascii "/proc/5/map_files/1000-2000", ascii "/bin/a"⟩), none⟩,
      ⟨0x4000, 0x5000, 4, 0, none, none⟩,
      ⟨0x5000, 0x6000, 4, 0, some (.path ⟨ascii "/proc/5/map_files/5000-6000", ascii "/x/b.apk"⟩), none⟩,
      ⟨0x7000, 0x8000, 5, 0, some (.component (ascii "[vdso]")), none⟩] : List Entry).map .ok) := by
  decide +kernel

example : normalizeUserAddrs exampleEnv true (.list (parseFiltered exampleText 5))
    [0x1000, 0x1001, 0x2001, 0x4000, 0x5004, 0x7010, 0x7011, 0x9000] =
    .ok [.elf (ascii "/bin/a") (some [1, 2]), .unknown .unmapped, .unknown .missingComponent, .apk (ascii "/x/b.apk"),
         .sym exampleSym, .unknown .unknownAddr]
      [(0x3000, 0), (0x3001, 0), (0x2001, 1), (0x4000, 2), (4, 3), (0x10, 4), (0x11, 5), (0x9000, 1)] := by
  decide +kernel

example : normalizeUserAddrs { exampleEnv with mapFiles := true } true (.list (parseFiltered exampleText 5))
    [0x1001, 0x5004] =
    .ok [.elf (ascii "/proc/5/map_files/1000-2000") none, .apk (ascii "/proc/5/map_files/5000-6000")]
      [(0x3001, 0), (4, 1)] := by
  decide +kernel

/-- The file was replaced: second mapping, other build ID. -/
example : normalizeUserAddrs exampleEnv true
    (.list [.ok ⟨0x1000, 0x2000, 5, 0, parsePathName (ascii "/bin/a (deleted)") 5 0x1000 0x2000, some [1]⟩,
      .ok ⟨0x3000, 0x4000, 5, 0, parsePathName (ascii "/bin/a") 5 0x3000 0x4000, some [2]⟩]) [0x1000, 0x3000] =
    .ok [.elf (ascii "/bin/a") (some [1])] [(0, 0), (0, 0)] := by
  decide +kernel

example : HasExtension (ascii "/x.y/b.apk") (ascii "apk") ∧ ¬ HasExtension (ascii "/x/.apk") (ascii "apk") ∧
    ¬ HasExtension (ascii "/x.apk/b") (ascii "apk") := by
  refine ⟨?_, ?_, ?_⟩
  · rw [← extension_iff _ _ (by decide) (by decide)]; decide +kernel
  · rw [← extension_iff _ _ (by decide) (by decide)]; decide +kernel
  · rw [← extension_iff _ _ (by decide) (by decide)]; decide +kernel

end Blazesym.Normalize
