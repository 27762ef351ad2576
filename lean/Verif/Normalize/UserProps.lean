import Verif.Normalize.UserLemmas
import Verif.Normalize.WalkProps
import Verif.Util.ReorderProps
import Verif.Maps.MapsProps

/-! Property theorems C02, C03. -/

set_option autoImplicit false

namespace Blazesym.Normalize
open Blazesym.Util Blazesym.Maps Blazesym.Symbolize Blazesym.Spec.Normalize

/-- The source of entries knows exactly the mappings `es`, in order.  For a source that is
queried, some mapping ends above some of the addresses (see `C02_query_all_above_fails`). -/
def Provides (src : Source) (es : List Entry) (addrs : List Nat) : Prop :=
  es ≠ [] ∧ (src = .list (es.map .ok) ∨
    ∃ q, src = .query q ∧ (∀ a, q a = .ok (coveringOrNext es a)) ∧
      (addrs = [] ∨ ∃ a ∈ addrs, ∃ e ∈ es, a < e.stop))

theorem Provides.perm {src : Source} {es : List Entry} {l1 l2 : List Nat} (h : Provides src es l1)
    (hp : l2.Perm l1) : Provides src es l2 := by
  refine ⟨h.1, ?_⟩
  rcases h.2 with h | ⟨q, h1, h2, h3⟩
  · exact Or.inl h
  · refine Or.inr ⟨q, h1, h2, ?_⟩
    rcases h3 with rfl | ⟨a, ha, h3⟩
    · exact Or.inl hp.eq_nil
    · exact Or.inr ⟨a, hp.mem_iff.mpr ha, h3⟩

theorem walk_provides {S : Type} (h : Handler S) {src : Source} {es : List Entry} {addrs : List Nat} (s : S)
    (hp : Provides src es addrs) (hl : Listing es) (hs : addrs.Pairwise (· ≤ ·)) :
    walk h addrs src s = each h.unknown h.entryAddr es addrs s := by
  rcases hp.2 with rfl | ⟨q, rfl, hq, hr⟩
  · exact C02_walk h es addrs s hl hp.1 hs
  · refine C02_walk_query h es addrs s q hq hl ?_ hs
    rcases hr with rfl | ⟨a, ha, e, he, hlt⟩
    · obtain ⟨e, he⟩ := List.exists_mem_of_ne_nil es hp.1
      exact ⟨e, he, by have := hl.2 e he; simp; omega⟩
    · refine ⟨e, he, ?_⟩
      cases addrs with
      | nil => cases ha
      | cons b t =>
        simp only [List.head?_cons, Option.getD_some]
        rcases List.mem_cons.mp ha with rfl | ha
        · exact hlt
        · have := (List.pairwise_cons.mp hs).1 a ha; omega

theorem normalizeSorted_length {env : Env} {src : Source} {addrs : List Nat} {m : List UserMeta}
    {o : List (Nat × Nat)} (h : normalizeSorted env src addrs = .ok (m, o)) : o.length = addrs.length := by
  unfold normalizeSorted at h
  cases hw : walk (normHandler env) addrs src NState.init with
  | error e => rw [hw] at h; cases h
  | ok s =>
    rw [hw] at h
    simp only at h
    by_cases hc : s.outputs.length = addrs.length
    · rw [if_pos hc] at h; cases h; exact hc
    · rw [if_neg hc] at h; cases h

theorem walk_tidy {env : Env} {src : Source} {addrs : List Nat} {s : NState}
    (h : walk (normHandler env) addrs src NState.init = .ok s) : Tidy addrs.length s :=
  walk_ind (normHandler env) (fun n s => Tidy n s)
    (fun _ a _ hp => tidy_step hp (Step.unknown a .unmapped))
    (fun _ a e s s' hp hs => by
      obtain ⟨v, m, hstep⟩ := (handleEntryAddr_step env a e s).2.2.1 s' hs
      exact tidy_step hp hstep) addrs src NState.init s tidy_init h

theorem normalizeSorted_eq (env : Env) (src : Source) (addrs : List Nat) :
    normalizeSorted env src addrs =
      (walk (normHandler env) addrs src NState.init).map (fun s => (s.metas, s.outputs)) := by
  unfold normalizeSorted
  cases hw : walk (normHandler env) addrs src NState.init with
  | error e => rfl
  | ok s =>
    simp only
    rw [if_pos (walk_tidy hw).count]
    rfl

/-- The two ways of calling, in terms of sorted addresses. -/
theorem normalizeUserAddrs_cases (env : Env) (sortedAddrs : Bool) (src : Source) (addrs : List Nat) :
    ∃ sorted : List Nat, sorted.Perm addrs ∧ (sortedAddrs = true → sorted = addrs) ∧
      (sortedAddrs = false → sorted.Pairwise (· ≤ ·)) ∧
      ((∃ e, normalizeSorted env src sorted = .error e ∧ normalizeUserAddrs env sortedAddrs src addrs = .err e) ∨
        ∃ m o o', normalizeSorted env src sorted = .ok (m, o) ∧
          normalizeUserAddrs env sortedAddrs src addrs = .ok m o' ∧ (∀ x, x ∈ o ↔ x ∈ o') ∧
          ∀ P : Nat → Nat × Nat → Prop, List.Forall₂ P sorted o → List.Forall₂ P addrs o') := by
  unfold normalizeUserAddrs
  cases sortedAddrs with
  | true =>
    refine ⟨addrs, List.Perm.refl _, fun _ => rfl, fun h => (by cases h), ?_⟩
    simp only [if_true]
    cases h : normalizeSorted env src addrs with
    | error e => exact Or.inl ⟨e, rfl, rfl⟩
    | ok r => exact Or.inr ⟨r.1, r.2, r.2, rfl, rfl, fun _ => Iff.rfl, fun _ h => h⟩
  | false =>
    obtain ⟨sorted, h1, h2, h3⟩ := C01_results_kept addrs (normalizeSorted env src)
      (fun l r outs h => normalizeSorted_length h)
    refine ⟨sorted, h1, fun h => (by cases h), fun _ => h2, ?_⟩
    rw [if_neg (by decide)]
    rcases h3 with ⟨e, k1, k2⟩ | ⟨m, o, o', k1, k2, k3, k4⟩
    · rw [k2]; exact Or.inl ⟨e, k1, rfl⟩
    · rw [k2]; exact Or.inr ⟨m, o, o', k1, rfl, k3, k4⟩

/-- **C02** (partial: what is missing are addresses in the vDSO outside of its symbols,
`C02_vdso_gap`, and files that occur with different build IDs, `C02_same_path_shares`): for
all addresses, in any order, and every source of mappings, the result has for every address,
in its place, the offset and the record that are documented for this address on its own. -/
theorem C02_normalize_partial (env : Env) (sortedAddrs : Bool) (src : Source) (es : List Entry) (addrs : List Nat)
    (hl : Listing es) (hp : Provides src es addrs) (hs : sortedAddrs = true → addrs.Pairwise (· ≤ ·))
    (hok : ∀ a ∈ addrs, ∃ v m, describe env es a = .ok (v, m))
    (hg : ∀ a ∈ addrs, ¬ InVdsoGap env es a) (hc : Consistent env es addrs) :
    ∃ metas outs, normalizeUserAddrs env sortedAddrs src addrs = .ok metas outs ∧
      List.Forall₂ (fun a (o : Nat × Nat) => ∃ m, metas[o.2]? = some m ∧ describe env es a = .ok (o.1, m))
        addrs outs := by
  obtain ⟨sorted, h1, h2, h3, h4⟩ := normalizeUserAddrs_cases env sortedAddrs src addrs
  have hsorted : sorted.Pairwise (· ≤ ·) := by
    cases sortedAddrs with
    | true => rw [h2 rfl]; exact hs rfl
    | false => exact h3 rfl
  have hmem : ∀ a, a ∈ sorted ↔ a ∈ addrs := fun a => h1.mem_iff
  obtain ⟨s', g1, g2⟩ := each_good env es sorted
    (fun a ha b hb => hc a ((hmem a).mp ha) b ((hmem b).mp hb))
    (fun a ha => hok a ((hmem a).mp ha)) (fun a ha => hg a ((hmem a).mp ha))
    sorted [] rfl NState.init (good_init env es)
  have hn : normalizeSorted env src sorted = .ok (s'.metas, s'.outputs) := by
    rw [normalizeSorted_eq, walk_provides _ _ (hp.perm h1) hl hsorted, g1]
    rfl
  rcases h4 with ⟨e, k1, _⟩ | ⟨m, o, o', k1, k2, _, k4⟩
  · rw [hn] at k1; cases k1
  · rw [hn] at k1
    cases k1
    exact ⟨s'.metas, o', k2, k4 _ g2.2.1⟩

/-- **C02** the call fails only if there is an address for which this failure is documented. -/
theorem C02_error (env : Env) (sortedAddrs : Bool) (src : Source) (es : List Entry) (addrs : List Nat) (err : Err)
    (hl : Listing es) (hp : Provides src es addrs) (hs : sortedAddrs = true → addrs.Pairwise (· ≤ ·))
    (h : normalizeUserAddrs env sortedAddrs src addrs = .err err) :
    ∃ a ∈ addrs, describe env es a = .error err := by
  obtain ⟨sorted, h1, h2, h3, h4⟩ := normalizeUserAddrs_cases env sortedAddrs src addrs
  have hsorted : sorted.Pairwise (· ≤ ·) := by
    cases sortedAddrs with
    | true => rw [h2 rfl]; exact hs rfl
    | false => exact h3 rfl
  rcases h4 with ⟨e, k1, k2⟩ | ⟨m, o, o', _, k2, _, _⟩
  · rw [k2] at h
    cases h
    rw [normalizeSorted_eq, walk_provides _ _ (hp.perm h1) hl hsorted] at k1
    cases he : each (normHandler env).unknown (normHandler env).entryAddr es sorted NState.init with
    | error e =>
      rw [he] at k1
      cases k1
      obtain ⟨a, ha, hd⟩ := each_error env es sorted _ _ he
      exact ⟨a, h1.mem_iff.mp ha, hd⟩
    | ok s => rw [he] at k1; cases k1
  · rw [k2] at h; cases h

/-- **C02** if a failure is documented for an address the call does fail. -/
theorem C02_fails (env : Env) (sortedAddrs : Bool) (src : Source) (es : List Entry) (addrs : List Nat)
    (hl : Listing es) (hp : Provides src es addrs) (hs : sortedAddrs = true → addrs.Pairwise (· ≤ ·))
    (a : Nat) (ha : a ∈ addrs) (err : Err) (hne : err ≠ .panic) (hd : describe env es a = .error err) :
    ∃ err', normalizeUserAddrs env sortedAddrs src addrs = .err err' := by
  obtain ⟨sorted, h1, h2, h3, h4⟩ := normalizeUserAddrs_cases env sortedAddrs src addrs
  have hsorted : sorted.Pairwise (· ≤ ·) := by
    cases sortedAddrs with
    | true => rw [h2 rfl]; exact hs rfl
    | false => exact h3 rfl
  rcases h4 with ⟨e, _, k2⟩ | ⟨m, o, o', k1, _, _, _⟩
  · exact ⟨e, k2⟩
  · rw [normalizeSorted_eq, walk_provides _ _ (hp.perm h1) hl hsorted] at k1
    obtain ⟨e', he⟩ := each_fails env es sorted NState.init a err (h1.mem_iff.mpr ha) hne hd
    rw [he] at k1; cases k1

/-- **C02** (defect): for an address in the vDSO that belongs to no symbol, the offset in the
vDSO is reported instead of the address. -/
theorem C02_vdso_gap (env : Env) (sortedAddrs : Bool) (src : Source) (es : List Entry) (addr virt : Nat)
    (e : Entry) (reason : Reason) (hl : Listing es) (hp : Provides src es [addr])
    (hm : mappingOf es addr = some e) (hg : VdsoGap env e addr virt reason)
    (ho : addr - e.start + e.offset < 2 ^ 64) :
    normalizeUserAddrs env sortedAddrs src [addr] = .ok [.unknown reason] [(virt, 0)] ∧
      describe env es addr = .ok (addr, .unknown reason) := by
  constructor
  · obtain ⟨sorted, h1, _, _, h4⟩ := normalizeUserAddrs_cases env sortedAddrs src [addr]
    have hso : sorted = [addr] := List.perm_singleton.mp h1
    subst hso
    have hn : normalizeSorted env src [addr] = .ok ([.unknown reason], [(virt, 0)]) := by
      rw [normalizeSorted_eq, walk_provides _ _ hp hl (by simp)]
      simp only [each, hm, normHandler, (handleEntryAddr_step env addr e NState.init).2.2.2.2 virt reason hg ho]
      rfl
    rcases h4 with ⟨e, k1, _⟩ | ⟨m, o, o', k1, k2, k3, k4⟩
    · rw [hn] at k1; cases k1
    · rw [hn] at k1
      cases k1
      have := k4 (fun _ o => o = (virt, 0)) (by simp)
      cases this with
      | cons h t =>
        cases t
        rw [k2, h]
  · rw [describe_some hm]
    obtain ⟨h1, parser, h2, h3, h4⟩ := hg
    unfold describeIn
    simp only [h1, h2, h3, h4, bind, Except.bind]
    rw [if_neg (by omega), if_neg (by simp)]

/-- **C02** (defect): two mappings of files with the same path, but different build IDs
(the first file was deleted and replaced), share the record of the first. -/
theorem C02_same_path_shares (env : Env) (e1 e2 : Entry) (p1 p2 : EntryPath) (b1 b2 : Bytes)
    (a1 a2 : Nat) (hm : env.mapFiles = false) (hl : Listing [e1, e2])
    (h1 : e1.pathName = some (.path p1)) (h2 : e2.pathName = some (.path p2))
    (hsame : p1.symbolicPath = p2.symbolicPath)
    (hx : extension p1.symbolicPath ≠ ascii "apk" ∧ extension p1.symbolicPath ≠ ascii "zip")
    (hb1 : e1.buildId = some b1) (hb2 : e2.buildId = some b2)
    (i1 : e1.start ≤ a1 ∧ a1 < e1.stop) (i2 : e2.start ≤ a2 ∧ a2 < e2.stop)
    (o1 : a1 - e1.start + e1.offset < 2 ^ 64) (o2 : a2 - e2.start + e2.offset < 2 ^ 64) :
    normalizeUserAddrs env true (.list ([e1, e2].map .ok)) [a1, a2] =
      .ok [.elf p1.symbolicPath (some b1)] [(a1 - e1.start + e1.offset, 0), (a2 - e2.start + e2.offset, 0)] ∧
    describe env [e1, e2] a2 = .ok (a2 - e2.start + e2.offset, .elf p1.symbolicPath (some b2)) := by
  have hle : e1.stop ≤ e2.start := by have := hl.1; simp at this; exact this
  have m1 : mappingOf [e1, e2] a1 = some e1 := mappingOf_at (pre := []) hl i1.1 i1.2
  have m2 : mappingOf [e1, e2] a2 = some e2 := mappingOf_at (pre := [e1]) (post := []) hl i2.1 i2.2
  constructor
  rotate_left
  · rw [describe_some m2]
    unfold describeIn
    simp only [h2]
    rw [if_neg (by omega), if_neg (by rw [← apkExt_iff, ← hsame]; rintro (h | h); exacts [hx.1 h, hx.2 h])]
    simp [buildIdOf, hb2, hm, hsame, bind, Except.bind]
  unfold normalizeUserAddrs
  rw [if_pos rfl, normalizeSorted_eq, C02_walk _ _ _ _ hl (by simp) (by simp; omega)]
  have hx2 : ¬ (extension p2.symbolicPath = ascii "apk" ∨ extension p2.symbolicPath = ascii "zip") := by
    rw [← hsame]; rintro (h | h)
    · exact hx.1 h
    · exact hx.2 h
  have hx1 : ¬ (extension p1.symbolicPath = ascii "apk" ∨ extension p1.symbolicPath = ascii "zip") := by
    rw [hsame]; exact hx2
  have s1 : handleEntryAddr env a1 e1 NState.init = .ok ⟨[(a1 - e1.start + e1.offset, 0)],
      [.elf p1.symbolicPath (some b1)], [(p1.symbolicPath, 0)], []⟩ := by
    unfold handleEntryAddr addU64
    rw [if_pos (by unfold u64Size; omega)]
    simp only [h1, hm]
    rw [if_neg hx1]
    simp [addNormalizedOffset, NState.init, elfMeta, hb1]
  have s2 : handleEntryAddr env a2 e2 ⟨[(a1 - e1.start + e1.offset, 0)],
      [.elf p1.symbolicPath (some b1)], [(p1.symbolicPath, 0)], []⟩ =
      .ok ⟨[(a1 - e1.start + e1.offset, 0), (a2 - e2.start + e2.offset, 0)],
      [.elf p1.symbolicPath (some b1)], [(p1.symbolicPath, 0)], []⟩ := by
    unfold handleEntryAddr addU64
    rw [if_pos (by unfold u64Size; omega)]
    simp only [h2, hm]
    rw [if_neg hx2]
    simp [addNormalizedOffset, hsame]
  simp only [each, m1, m2, normHandler, s1, s2]
  rfl

/-- **C03** (records): every output refers to a record, every record is referred to, no file and
no reason has more than one record; for all addresses, sources of mappings (complete or not),
options and contents of files. -/
theorem C03_records (env : Env) (sortedAddrs : Bool) (src : Source) (addrs : List Nat) (metas : List UserMeta)
    (outs : List (Nat × Nat)) (h : normalizeUserAddrs env sortedAddrs src addrs = .ok metas outs) :
    outs.length = addrs.length ∧
    (∀ o ∈ outs, o.2 < metas.length) ∧ (∀ i < metas.length, ∃ o ∈ outs, o.2 = i) ∧
    (∀ (i j : Nat) m n, metas[i]? = some m → metas[j]? = some n → fileOf m ≠ none → fileOf m = fileOf n → i = j) ∧
    (∀ (i j : Nat) r, metas[i]? = some (.unknown r) → metas[j]? = some (.unknown r) → i = j) := by
  obtain ⟨sorted, h1, _, _, h4⟩ := normalizeUserAddrs_cases env sortedAddrs src addrs
  rcases h4 with ⟨e, _, k2⟩ | ⟨m, o, o', k1, k2, k3, k4⟩
  · rw [k2] at h; cases h
  · rw [k2] at h
    cases h
    rw [normalizeSorted_eq] at k1
    cases hw : walk (normHandler env) sorted src NState.init with
    | error e => rw [hw] at k1; cases k1
    | ok s =>
      rw [hw] at k1
      cases k1
      obtain ⟨t1, t2, t3, t4, t5⟩ := walk_tidy hw
      refine ⟨?_, ?_, ?_, ?_, ?_⟩
      · have := k4 (fun _ _ => True) (by
          rw [List.forall₂_iff_get]
          exact ⟨t1.symm, fun _ _ _ => trivial⟩)
        exact this.length_eq.symm
      · intro o ho; exact t2 o ((k3 o).mpr ho)
      · intro i hi
        obtain ⟨o, ho, rfl⟩ := t3 i hi
        exact ⟨o, (k3 o).mp ho, rfl⟩
      · intro i j m n hi hj hne heq
        cases hf : fileOf m with
        | none => exact absurd hf hne
        | some k =>
          have a := (t4 k i).mpr ⟨m, hi, hf⟩
          have b := (t4 k j).mpr ⟨n, hj, by rw [← heq, hf]⟩
          rw [a] at b
          exact Option.some.inj b
      · intro i j r hi hj
        have a := (t5 r i).mpr hi
        have b := (t5 r j).mpr hj
        rw [a] at b
        exact Option.some.inj b

/-! ### When files go with one record -/

theorem describeIn_file {env : Env} {e : Entry} {a v : Nat} {m : UserMeta}
    (h : describeIn env e a = .ok (v, m)) (hf : fileOf m ≠ none) :
    ∃ p, e.pathName = some (.path p) ∧
      let file := if env.mapFiles then p.mapsFile else p.symbolicPath
      ((extension p.symbolicPath = ascii "apk" ∨ extension p.symbolicPath = ascii "zip") →
        env.apkToElf = false → m = .apk file) ∧
      (¬ (extension p.symbolicPath = ascii "apk" ∨ extension p.symbolicPath = ascii "zip") →
        ∃ b, buildIdOf env e file = .ok b ∧ m = .elf file b) := by
  unfold describeIn at h
  simp only at h
  by_cases hoff : a - e.start + e.offset ≥ 2 ^ 64
  · rw [if_pos hoff] at h; cases h
  rw [if_neg hoff] at h
  cases hp : e.pathName with
  | none => rw [hp] at h; cases h; exact absurd rfl hf
  | some pn =>
    rw [hp] at h
    cases pn with
    | component c =>
      exfalso
      simp only at h
      by_cases hc : c ≠ ascii "[vdso]"
      · rw [if_pos hc] at h; cases h; exact hf rfl
      · rw [if_neg hc] at h
        obtain ⟨parser, _, h⟩ := bind_ok h
        obtain ⟨o, _, h⟩ := bind_ok h
        cases o with
        | none => cases h; exact hf rfl
        | some virt =>
          obtain ⟨r, _, h⟩ := bind_ok h
          cases r <;> (cases h; exact hf rfl)
    | path p =>
      refine ⟨p, rfl, ?_⟩
      simp only at h ⊢
      generalize (if env.mapFiles = true then p.mapsFile else p.symbolicPath) = file at h ⊢
      refine ⟨fun hx ha => ?_, fun hx => ?_⟩
      · rw [if_pos ((apkExt_iff _).mp hx), if_neg (by simp [ha])] at h
        cases h; rfl
      · rw [if_neg (fun hh => hx ((apkExt_iff _).mpr hh))] at h
        obtain ⟨b, hb, h⟩ := bind_ok h
        cases h
        exact ⟨b, hb, rfl⟩

theorem describe_in {env : Env} {es : List Entry} {a v : Nat} {m : UserMeta}
    (h : describe env es a = .ok (v, m)) (hf : fileOf m ≠ none) :
    ∃ e ∈ es, mappingOf es a = some e ∧ describeIn env e a = .ok (v, m) := by
  cases hm : mappingOf es a with
  | none => rw [describe_none hm] at h; cases h; exact absurd rfl hf
  | some e =>
    rw [describe_some hm] at h
    exact ⟨e, List.mem_of_find?_eq_some hm, rfl, h⟩

/-- **C02** if build IDs are read from the files rather than given by the kernel, a file always
has the same record; so `C02_normalize_partial` applies.  (Reporting paths as mapped.) -/
theorem C02_consistent (env : Env) (es : List Entry) (addrs : List Nat)
    (hm : env.mapFiles = false) (ha : env.apkToElf = false) (hb : ∀ e ∈ es, e.buildId = none) :
    Consistent env es addrs := by
  intro a _ b _ v w m n h1 h2 hf hfe
  obtain ⟨e1, he1, _, d1⟩ := describe_in h1 hf
  obtain ⟨e2, he2, _, d2⟩ := describe_in h2 (by rw [← hfe]; exact hf)
  obtain ⟨p1, q1, r1⟩ := describeIn_file d1 hf
  obtain ⟨p2, q2, r2⟩ := describeIn_file d2 (by rw [← hfe]; exact hf)
  simp only [hm, Bool.false_eq_true, if_false] at r1 r2
  by_cases x1 : extension p1.symbolicPath = ascii "apk" ∨ extension p1.symbolicPath = ascii "zip"
  · have g1 := r1.1 x1 ha
    by_cases x2 : extension p2.symbolicPath = ascii "apk" ∨ extension p2.symbolicPath = ascii "zip"
    · have g2 := r2.1 x2 ha
      rw [g1, g2] at hfe ⊢
      simp only [fileOf, Option.some.injEq] at hfe
      rw [hfe]
    · obtain ⟨b2, _, g2⟩ := r2.2 x2
      rw [g1, g2] at hfe
      simp only [fileOf, Option.some.injEq] at hfe
      rw [← hfe] at x2
      exact absurd x1 x2
  · obtain ⟨b1, c1, g1⟩ := r1.2 x1
    by_cases x2 : extension p2.symbolicPath = ascii "apk" ∨ extension p2.symbolicPath = ascii "zip"
    · have g2 := r2.1 x2 ha
      rw [g1, g2] at hfe
      simp only [fileOf, Option.some.injEq] at hfe
      rw [hfe] at x1
      exact absurd x2 x1
    · obtain ⟨b2, c2, g2⟩ := r2.2 x2
      rw [g1, g2] at hfe
      simp only [fileOf, Option.some.injEq] at hfe
      rw [hfe] at c1
      unfold buildIdOf at c1 c2
      rw [hb e1 he1] at c1
      rw [hb e2 he2] at c2
      rw [c1] at c2
      cases c2
      rw [g1, g2, hfe]

theorem mapsFile_inj {pid s1 t1 s2 t2 : Nat} (h1 : s1 < 2 ^ 64) (h2 : t1 < 2 ^ 64) (h3 : s2 < 2 ^ 64)
    (h4 : t2 < 2 ^ 64) (h : mapsFile pid s1 t1 = mapsFile pid s2 t2) : s1 = s2 ∧ t1 = t2 := by
  unfold mapsFile at h
  simp only [List.append_assoc] at h
  have h := List.append_cancel_left (List.append_cancel_left (List.append_cancel_left h))
  have hd : ∀ n, n < 2 ^ 64 → ∀ c ∈ fmtHex n, c ≠ 45 := by
    intro n hn c hc
    have := (fmtHex_spec n hn).1 c hc
    rintro rfl
    revert this
    decide
  have key : ∀ (a b c d : Bytes), (∀ x ∈ a, x ≠ (45 : UInt8)) → (∀ x ∈ c, x ≠ (45 : UInt8)) →
      a ++ 45 :: b = c ++ 45 :: d → a = c ∧ b = d := by
    intro a
    induction a with
    | nil =>
      intro b c d _ hc h
      cases c with
      | nil => simp at h; exact ⟨rfl, h⟩
      | cons x t =>
        simp only [List.nil_append, List.cons_append, List.cons.injEq] at h
        exact absurd h.1.symm (hc x (by simp))
    | cons y t ih =>
      intro b c d ha hc h
      cases c with
      | nil =>
        simp only [List.nil_append, List.cons_append, List.cons.injEq] at h
        exact absurd h.1 (ha y (by simp))
      | cons x u =>
        simp only [List.cons_append, List.cons.injEq] at h
        obtain ⟨rfl, h⟩ := h
        obtain ⟨rfl, rfl⟩ := ih b u d (fun x hx => ha x (by simp [hx])) (fun x hx => hc x (by simp [hx])) h
        exact ⟨rfl, rfl⟩
  obtain ⟨k1, k2⟩ := key _ _ _ _ (hd s1 h1) (hd s2 h3) h
  exact ⟨fmtHex_inj h1 h3 k1, fmtHex_inj h2 h4 k2⟩

/-- Entries whose mapped file is the file in `/proc/<pid>/map_files` for their range. -/
def MapFilesOf (pid : Nat) (es : List Entry) : Prop :=
  ∀ e ∈ es, e.start < 2 ^ 64 ∧ e.stop < 2 ^ 64 ∧
    ∀ p, e.pathName = some (.path p) → p.mapsFile = mapsFile pid e.start e.stop

/-- **C02** (reporting paths in `/proc/<pid>/map_files`): every mapping has a record of its own,
also if the kernel gives build IDs. -/
theorem C02_consistent_map_files (env : Env) (pid : Nat) (es : List Entry) (addrs : List Nat)
    (hm : env.mapFiles = true) (ha : env.apkToElf = false) (hl : Listing es) (hf : MapFilesOf pid es) :
    Consistent env es addrs := by
  intro a _ b _ v w m n h1 h2 hfm hfe
  obtain ⟨e1, he1, _, d1⟩ := describe_in h1 hfm
  obtain ⟨e2, he2, _, d2⟩ := describe_in h2 (by rw [← hfe]; exact hfm)
  obtain ⟨p1, q1, r1⟩ := describeIn_file d1 hfm
  obtain ⟨p2, q2, r2⟩ := describeIn_file d2 (by rw [← hfe]; exact hfm)
  simp only [hm, if_true] at r1 r2
  obtain ⟨k1, k2, k3⟩ := hf e1 he1
  obtain ⟨l1, l2, l3⟩ := hf e2 he2
  have file1 : fileOf m = some p1.mapsFile := by
    by_cases x1 : extension p1.symbolicPath = ascii "apk" ∨ extension p1.symbolicPath = ascii "zip"
    · rw [r1.1 x1 ha]; rfl
    · obtain ⟨b1, _, g1⟩ := r1.2 x1; rw [g1]; rfl
  have file2 : fileOf n = some p2.mapsFile := by
    by_cases x1 : extension p2.symbolicPath = ascii "apk" ∨ extension p2.symbolicPath = ascii "zip"
    · rw [r2.1 x1 ha]; rfl
    · obtain ⟨b1, _, g1⟩ := r2.2 x1; rw [g1]; rfl
  rw [file1, file2, Option.some.injEq, k3 p1 q1, l3 p2 q2] at hfe
  obtain ⟨g1, g2⟩ := mapsFile_inj k1 k2 l1 l2 hfe
  have : e1 = e2 := by
    have hne1 := hl.2 e1 he1
    have hne2 := hl.2 e2 he2
    obtain ⟨i, hi, rfl⟩ := List.mem_iff_getElem.mp he1
    obtain ⟨j, hj, rfl⟩ := List.mem_iff_getElem.mp he2
    rcases Nat.lt_trichotomy i j with h | h | h
    · have := List.pairwise_iff_getElem.mp hl.1 i j hi hj h; omega
    · subst h; rfl
    · have := List.pairwise_iff_getElem.mp hl.1 j i hj hi h; omega
  subst this
  rw [q1] at q2
  cases q2
  by_cases x1 : extension p1.symbolicPath = ascii "apk" ∨ extension p1.symbolicPath = ascii "zip"
  · rw [r1.1 x1 ha, r2.1 x1 ha]
  · obtain ⟨b1, c1, g1⟩ := r1.2 x1
    obtain ⟨b2, c2, g2⟩ := r2.2 x1
    rw [c1] at c2
    cases c2
    rw [g1, g2]

end Blazesym.Normalize
