import Verif.Normalize.WalkLemmas
import Verif.Normalize.UserSpec
import Mathlib.Data.List.Forall2

/-! Helper lemmas for `Verif.Normalize.User`. -/

set_option autoImplicit false

namespace Blazesym.Normalize
open Blazesym.Util Blazesym.Maps Blazesym.Symbolize Blazesym.Spec.Normalize

/-! ### Extensions -/

theorem afterLast_split (c : UInt8) (l : Bytes) :
    ∃ dir, l = dir ++ (l.reverse.takeWhile (fun b => b != c)).reverse ∧
      (dir = [] ∨ ∃ d, dir = d ++ [c]) := by
  refine ⟨(l.reverse.dropWhile (fun b => b != c)).reverse, ?_, ?_⟩
  · rw [← List.reverse_append, List.takeWhile_append_dropWhile, List.reverse_reverse]
  · cases h : l.reverse.dropWhile (fun b => b != c) with
    | nil => left; rfl
    | cons a t =>
      right
      have := List.head_dropWhile_not (p := fun b => b != c) (l := l.reverse) (by rw [h]; simp)
      simp only [h, List.head_cons, bne_eq_false_iff_eq] at this
      exact ⟨t.reverse, by rw [List.reverse_cons, this]⟩

theorem afterLast_no (c : UInt8) (l : Bytes) :
    ∀ b ∈ (l.reverse.takeWhile (fun b => b != c)).reverse, b ≠ c := by
  intro b hb
  rw [List.mem_reverse] at hb
  have := List.all_eq_true.mp (List.all_takeWhile (l := l.reverse) (p := fun b => b != c)) b hb
  simpa using this

theorem afterLast_unique (c : UInt8) (dir name : Bytes) (h : ∀ b ∈ name, b ≠ c)
    (hd : dir = [] ∨ ∃ d, dir = d ++ [c]) :
    ((dir ++ name).reverse.takeWhile (fun b => b != c)).reverse = name := by
  have h1 : ∀ b ∈ name.reverse, (b != c) = true := by
    intro b hb
    simpa using h b (List.mem_reverse.mp hb)
  rw [List.reverse_append, List.takeWhile_append_of_pos h1]
  rcases hd with rfl | ⟨d, rfl⟩
  · simp
  · rw [List.reverse_append]
    simp

theorem extension_iff (path ext : Bytes) (h : 46 ∉ ext) (he : ext ≠ []) :
    extension path = ext ↔ HasExtension path ext := by
  rw [Util.hasExtension_iff path ext h he]
  unfold extension
  cases Util.extension path with
  | none => simp [eq_comm, he]
  | some x => simp

/-! ### Single steps -/

/-- What a step does to the state. -/
inductive Step (s : NState) : NState → Nat → UserMeta → Prop where
  | unknown (v : Nat) (r : Reason) : Step s (addUnknownAddr v r s) v (.unknown r)
  | known (v : Nat) (k : Bytes) (i : Nat) (m : UserMeta) (hk : fileOf m = some k)
      (h : s.metaLookup.lookup k = some i) : Step s { s with outputs := s.outputs ++ [(v, i)] } v m
  | new (v : Nat) (k : Bytes) (m : UserMeta) (hk : fileOf m = some k) (h : s.metaLookup.lookup k = none) :
      Step s { s with
        outputs := s.outputs ++ [(v, s.metas.length)]
        metas := s.metas ++ [m]
        metaLookup := (k, s.metas.length) :: s.metaLookup } v m
  | sym (v : Nat) (name : Sym) :
      Step s { s with outputs := s.outputs ++ [(v, s.metas.length)], metas := s.metas ++ [.sym name] } v (.sym name)

/-- `addNormalizedOffset` against the record it would create. -/
theorem addNormalizedOffset_step (off : Nat) (key : Bytes) (create : Unit → Except Err UserMeta) (s : NState)
    (hk : ∀ m, create () = .ok m → fileOf m = some key) :
    (∀ m, create () = .ok m → ∃ s', addNormalizedOffset off key create s = .ok s' ∧ Step s s' off m) ∧
    (∀ e, addNormalizedOffset off key create s = .error e → create () = .error e) ∧
    (∀ s', addNormalizedOffset off key create s = .ok s' →
      ∀ m0, fileOf m0 = some key → ∃ m, fileOf m = some key ∧ Step s s' off m) := by
  unfold addNormalizedOffset
  refine ⟨fun m hm => ?_, fun e he => ?_, fun s' hs' m0 hm0 => ?_⟩
  · cases hl : s.metaLookup.lookup key with
    | some i => exact ⟨_, rfl, Step.known off key i m (hk m hm) hl⟩
    | none => simp only [hm]; exact ⟨_, rfl, Step.new off key m (hk m hm) hl⟩
  · cases hl : s.metaLookup.lookup key with
    | some i => rw [hl] at he; cases he
    | none =>
      rw [hl] at he
      cases hc : create () with
      | error e' => simp only [hc] at he; cases he; rfl
      | ok m => simp only [hc] at he; cases he
  · cases hl : s.metaLookup.lookup key with
    | some i => rw [hl] at hs'; cases hs'; exact ⟨m0, hm0, Step.known off key i m0 hm0 hl⟩
    | none =>
      rw [hl] at hs'
      cases hc : create () with
      | error e' => simp only [hc] at hs'; cases hs'
      | ok m =>
        simp only [hc] at hs'
        cases hs'
        exact ⟨m, hk m hc, Step.new off key m (hk m hc) hl⟩

theorem apkExt_iff (p : Bytes) : (extension p = ascii "apk" ∨ extension p = ascii "zip") ↔
    (HasExtension p (ascii "apk") ∨ HasExtension p (ascii "zip")) := by
  rw [extension_iff p _ (by decide) (by decide), extension_iff p _ (by decide) (by decide)]

theorem elfMeta_eq (env : Env) (e : Entry) (path : Bytes) :
    elfMeta env e path = (buildIdOf env e path).map (fun b => .elf path b) := by
  unfold elfMeta buildIdOf
  cases e.buildId with
  | some b => rfl
  | none =>
    cases env.readBuildId path with
    | ok b => rfl
    | error err => cases err <;> rfl

theorem handleEntryAddr_step (env : Env) (addr : Nat) (e : Entry) (s : NState) :
    (∀ v m, describeIn env e addr = .ok (v, m) → (¬ ∃ virt r, VdsoGap env e addr virt r) →
      ∃ s', handleEntryAddr env addr e s = .ok s' ∧ Step s s' v m) ∧
    (∀ err, handleEntryAddr env addr e s = .error err → describeIn env e addr = .error err) ∧
    (∀ s', handleEntryAddr env addr e s = .ok s' → ∃ v m, Step s s' v m) ∧
    (∀ err, err ≠ .panic → describeIn env e addr = .error err → handleEntryAddr env addr e s = .error err) ∧
    (∀ virt r, VdsoGap env e addr virt r → addr - e.start + e.offset < 2 ^ 64 →
      handleEntryAddr env addr e s = .ok (addUnknownAddr virt r s)) := by
  unfold handleEntryAddr describeIn addU64
  simp only
  by_cases hoff : addr - e.start + e.offset ≥ 2 ^ 64
  · rw [if_pos hoff, if_neg (show ¬ addr - e.start + e.offset < u64Size by unfold u64Size; omega)]
    refine ⟨fun v m h => (by cases h), fun err h => (by cases h; rfl), fun s' h => (by cases h),
      fun err hne h => (by cases h; exact absurd rfl hne), fun _ _ _ h => absurd h (by omega)⟩
  rw [if_neg hoff, if_pos (show addr - e.start + e.offset < u64Size by unfold u64Size; omega)]
  simp only
  generalize ho : addr - e.start + e.offset = off
  cases hp : e.pathName with
  | none =>
    simp only
    refine ⟨fun v m h _ => ?_, fun err h => (by cases h), fun s' h => ?_, fun err _ h => (by cases h), fun _ _ h => ?_⟩
    · cases h; exact ⟨_, rfl, Step.unknown addr _⟩
    · cases h; exact ⟨_, _, Step.unknown addr _⟩
    · rw [VdsoGap, hp] at h; simp at h
  | some pn =>
    cases pn with
    | component c =>
      simp only
      by_cases hc : c = ascii "[vdso]"
      · rw [if_pos hc, if_neg (by simpa using hc)]
        unfold handleVdsoAddr VdsoGap
        simp only [hp, hc, true_and]
        cases hv : env.vdso e.start e.stop with
        | error er =>
          refine ⟨fun v m h => (by cases h), fun err h => (by cases h; rfl), fun s' h => (by cases h),
            fun err _ h => (by cases h; rfl), fun _ _ h => (by simp at h)⟩
        | ok parser =>
          simp only [bind, Except.bind]
          cases hfo : parser.fileOffsetToVirtOffset off with
          | error er =>
            refine ⟨fun v m h => (by cases h), fun err h => (by cases h; rfl), fun s' h => (by cases h),
              fun err _ h => (by cases h; rfl), ?_⟩
            rintro _ _ ⟨p, hpe, h, _⟩
            cases hpe; rw [ho, hfo] at h; cases h
          | ok o =>
            cases o with
            | none =>
              refine ⟨fun v m h _ => ?_, fun err h => (by cases h), fun s' h => ?_, fun err _ h => (by cases h), ?_⟩
              · cases h; exact ⟨_, rfl, Step.unknown addr _⟩
              · cases h; exact ⟨_, _, Step.unknown addr _⟩
              · rintro _ _ ⟨p, hpe, h, _⟩
                cases hpe; rw [ho, hfo] at h; cases h
            | some virt =>
              simp only
              cases hsy : parser.symbolize virt with
              | error er =>
                refine ⟨fun v m h => (by cases h), fun err h => (by cases h; rfl), fun s' h => (by cases h),
                  fun err _ h => (by cases h; rfl), ?_⟩
                rintro _ _ ⟨p, hpe, h, h'⟩
                cases hpe; rw [ho, hfo] at h; cases h
                rw [hsy] at h'; cases h'
              | ok r =>
                cases r with
                | sym name =>
                  refine ⟨fun v m h _ => ?_, fun err h => (by cases h), fun s' h => ?_, fun err _ h => (by cases h), ?_⟩
                  · cases h; exact ⟨_, rfl, Step.sym off name⟩
                  · cases h; exact ⟨_, _, Step.sym off name⟩
                  · rintro _ _ ⟨p, hpe, h, h'⟩
                    cases hpe; rw [ho, hfo] at h; cases h
                    rw [hsy] at h'; cases h'
                | unknown reason =>
                  refine ⟨fun v m h hg => ?_, fun err h => (by cases h), fun s' h => ?_, fun err _ h => (by cases h), ?_⟩
                  · exact absurd ⟨virt, reason, parser, rfl, ho ▸ hfo, hsy⟩ hg
                  · cases h; exact ⟨_, _, Step.unknown virt _⟩
                  · rintro _ _ ⟨p, hpe, h, h'⟩ _
                    cases hpe; rw [ho, hfo] at h; cases h
                    rw [hsy] at h'; cases h'
                    rfl
      · rw [if_neg hc, if_pos hc]
        refine ⟨fun v m h _ => ?_, fun err h => (by cases h), fun s' h => ?_, fun err _ h => (by cases h), fun _ _ h => ?_⟩
        · cases h; exact ⟨_, rfl, Step.unknown addr _⟩
        · cases h; exact ⟨_, _, Step.unknown addr _⟩
        · rw [VdsoGap, hp] at h
          simp only [Option.some.injEq, PathName.component.injEq] at h
          exact absurd h.1 hc
    | path ep =>
      simp only
      have hnog : ∀ virt r, ¬ VdsoGap env e addr virt r := by
        intro virt r h
        rw [VdsoGap, hp] at h
        simp at h
      generalize (if env.mapFiles = true then ep.mapsFile else ep.symbolicPath) = file
      by_cases hx : extension ep.symbolicPath = ascii "apk" ∨ extension ep.symbolicPath = ascii "zip"
      · rw [if_pos hx, if_pos ((apkExt_iff _).mp hx)]
        by_cases ha : env.apkToElf = true
        · rw [if_pos ha, if_pos ha]
          simp only [bind, Except.bind]
          cases ht : env.translateApk off file with
          | error er =>
            exact ⟨fun v m h => (by cases h), fun err h => (by cases h; rfl), fun s' h => (by cases h),
              fun err _ h => (by cases h; rfl), fun _ _ h => absurd h (hnog _ _)⟩
          | ok o =>
            cases o with
            | none =>
              refine ⟨fun v m h _ => ?_, fun err h => (by cases h), fun s' h => ?_, fun err _ h => (by cases h),
                fun _ _ h => absurd h (hnog _ _)⟩
              · cases h; exact ⟨_, rfl, Step.unknown addr _⟩
              · cases h; exact ⟨_, _, Step.unknown addr _⟩
            | some t =>
              obtain ⟨elfOff, elfPath, bid⟩ := t
              simp only
              obtain ⟨a1, a2, a3⟩ := addNormalizedOffset_step elfOff elfPath
                (fun _ => if e.buildId = none then .ok (.elf elfPath bid) else .error .panic) s (by
                  intro m hm
                  by_cases hb : e.buildId = none
                  · simp only [if_pos hb, Except.ok.injEq] at hm; rw [← hm]; rfl
                  · simp only [if_neg hb] at hm; cases hm)
              refine ⟨fun v m h _ => ?_, fun err h => ?_, fun s' h => ?_, fun err hne h => ?_,
                fun _ _ h => absurd h (hnog _ _)⟩
              · by_cases hb : e.buildId = none
                · rw [if_pos hb] at h; cases h; exact a1 _ (by rw [if_pos hb])
                · rw [if_neg hb] at h; cases h
              · have := a2 err h
                by_cases hb : e.buildId = none
                · rw [if_pos hb] at this; cases this
                · rw [if_neg hb] at this ⊢; exact congrArg _ (Except.error.inj this)
              · obtain ⟨m, _, hm⟩ := a3 s' h (.elf elfPath bid) rfl
                exact ⟨_, m, hm⟩
              · by_cases hb : e.buildId = none
                · rw [if_pos hb] at h; cases h
                · rw [if_neg hb] at h; cases h; exact absurd rfl hne
        · rw [if_neg ha, if_neg ha]
          obtain ⟨a1, a2, a3⟩ := addNormalizedOffset_step off file (fun _ => .ok (.apk file)) s (by
            intro m hm; cases hm; rfl)
          refine ⟨fun v m h _ => ?_, fun err h => ?_, fun s' h => ?_, fun err hne h => (by cases h),
            fun _ _ h => absurd h (hnog _ _)⟩
          · cases h; exact a1 _ rfl
          · have := a2 err h; cases this
          · obtain ⟨m, _, hm⟩ := a3 s' h (.apk file) rfl
            exact ⟨_, m, hm⟩
      · rw [if_neg hx, if_neg (fun h => hx ((apkExt_iff _).mpr h))]
        obtain ⟨a1, a2, a3⟩ := addNormalizedOffset_step off file (fun _ => elfMeta env e file) s (by
          intro m hm
          simp only [elfMeta_eq] at hm
          cases hb : buildIdOf env e file with
          | error er => rw [hb] at hm; cases hm
          | ok b => rw [hb] at hm; cases hm; rfl)
        simp only [elfMeta_eq] at a1 a2 a3 ⊢
        refine ⟨fun v m h _ => ?_, fun err h => ?_, fun s' h => ?_, fun err hne h => ?_,
          fun _ _ h => absurd h (hnog _ _)⟩
        · obtain ⟨b, hb, h⟩ := bind_ok h
          cases h
          exact a1 _ (by rw [hb]; rfl)
        · have := a2 err h
          cases hb : buildIdOf env e file with
          | error er => rw [hb] at this; cases this; rfl
          | ok b => rw [hb] at this; cases this
        · obtain ⟨m, _, hm⟩ := a3 s' h (.apk file) rfl
          exact ⟨_, m, hm⟩
        · exfalso
          rcases bind_err h with h | ⟨b, _, h⟩
          · unfold buildIdOf at h
            cases hb : e.buildId with
            | some b => rw [hb] at h; cases h
            | none =>
              rw [hb] at h
              cases hr : env.readBuildId file with
              | ok b => rw [hr] at h; cases h
              | error er =>
                rw [hr] at h
                cases er <;> first | (cases h; done) | (cases h; exact hne rfl)
          · cases h

/-! ### Invariants -/

theorem each_ind {S : Type} (unknown : Nat → S → S) (inMapping : Nat → Entry → S → Except Err S)
    (es : List Entry) (P : List Nat → S → Prop)
    (hu : ∀ done a s, P done s → mappingOf es a = none → P (done ++ [a]) (unknown a s))
    (he : ∀ done a e s s', P done s → mappingOf es a = some e → inMapping a e s = .ok s' → P (done ++ [a]) s')
    (addrs done : List Nat) (s s' : S) (h0 : P done s) (h : each unknown inMapping es addrs s = .ok s') :
    P (done ++ addrs) s' := by
  induction addrs generalizing done s with
  | nil => cases h; simpa using h0
  | cons a t ih =>
    simp only [each] at h
    cases hm : mappingOf es a with
    | none =>
      rw [hm] at h
      have := ih (done ++ [a]) _ (hu done a s h0 hm) h
      simpa using this
    | some e =>
      rw [hm] at h
      simp only at h
      cases hx : inMapping a e s with
      | error er => rw [hx] at h; cases h
      | ok s1 =>
        rw [hx] at h
        have := ih (done ++ [a]) _ (he done a e s s1 h0 hm hx) h
        simpa using this

/-- What holds of the state whatever was handled: one output per address, every output refers
to a record, every record is referred to, no file and no reason has two records, and the
tables describe the records. -/
structure Tidy (n : Nat) (s : NState) : Prop where
  count : s.outputs.length = n
  valid : ∀ o ∈ s.outputs, o.2 < s.metas.length
  used : ∀ i < s.metas.length, ∃ o ∈ s.outputs, o.2 = i
  look : ∀ (k : Bytes) (i : Nat), s.metaLookup.lookup k = some i ↔
    ∃ m, s.metas[i]? = some m ∧ fileOf m = some k
  unk : ∀ (r : Reason) (i : Nat), s.unknownCache.lookup r = some i ↔ s.metas[i]? = some (.unknown r)

theorem tidy_init : Tidy 0 NState.init := by
  refine ⟨rfl, ?_, ?_, ?_, ?_⟩ <;> simp [NState.init]

theorem getElem?_push {α : Type} (l : List α) (a b : α) (i : Nat) :
    (l ++ [a])[i]? = some b ↔ l[i]? = some b ∨ (i = l.length ∧ a = b) := by
  rcases Nat.lt_trichotomy i l.length with h | h | h
  · rw [List.getElem?_append_left h]
    constructor
    · exact Or.inl
    · rintro (h' | ⟨h', _⟩)
      · exact h'
      · omega
  · subst h
    simp
  · rw [List.getElem?_eq_none (by simp; omega), List.getElem?_eq_none (by omega)]
    simp; omega

theorem tidy_step {n : Nat} {s s' : NState} {v : Nat} {m : UserMeta} (h : Tidy n s) (hs : Step s s' v m) :
    Tidy (n + 1) s' := by
  obtain ⟨h1, h2, h3, h4, h5⟩ := h
  have push (m : UserMeta) (s'' : NState) (ho : s''.outputs = s.outputs ++ [(v, s.metas.length)])
      (hm : s''.metas = s.metas ++ [m]) :
      s''.outputs.length = n + 1 ∧ (∀ o ∈ s''.outputs, o.2 < s''.metas.length) ∧
        (∀ i < s''.metas.length, ∃ o ∈ s''.outputs, o.2 = i) := by
    rw [ho, hm]
    refine ⟨by simp [h1], ?_, ?_⟩
    · intro o ho
      rcases List.mem_append.mp ho with ho | ho
      · have := h2 o ho; simp; omega
      · simp only [List.mem_singleton] at ho; subst ho; simp
    · intro i hi
      by_cases hi' : i < s.metas.length
      · obtain ⟨o, ho, rfl⟩ := h3 i hi'; exact ⟨o, by simp [ho], rfl⟩
      · refine ⟨(v, s.metas.length), by simp, ?_⟩
        simp at hi ⊢; omega
  have reuse (i : Nat) (s'' : NState) (ho : s''.outputs = s.outputs ++ [(v, i)])
      (hm : s''.metas = s.metas) (hi : i < s.metas.length) :
      s''.outputs.length = n + 1 ∧ (∀ o ∈ s''.outputs, o.2 < s''.metas.length) ∧
        (∀ i < s''.metas.length, ∃ o ∈ s''.outputs, o.2 = i) := by
    rw [ho, hm]
    refine ⟨by simp [h1], ?_, ?_⟩
    · intro o ho
      rcases List.mem_append.mp ho with ho | ho
      · exact h2 o ho
      · simp only [List.mem_singleton] at ho; subst ho; exact hi
    · intro j hj
      obtain ⟨o, ho, rfl⟩ := h3 j hj; exact ⟨o, by simp [ho], rfl⟩
  cases hs with
  | unknown v r =>
    unfold addUnknownAddr
    cases hl : s.unknownCache.lookup r with
    | some i =>
      simp only
      have hi := (h5 r i).mp hl
      obtain ⟨a, b, c⟩ := reuse i { s with outputs := s.outputs ++ [(v, i)] } rfl rfl
        (List.getElem?_eq_some_iff.mp hi).1
      exact ⟨a, b, c, h4, h5⟩
    | none =>
      simp only
      obtain ⟨a, b, c⟩ := push (.unknown r) { s with
        outputs := s.outputs ++ [(v, s.metas.length)]
        metas := s.metas ++ [.unknown r]
        unknownCache := (r, s.metas.length) :: s.unknownCache } rfl rfl
      refine ⟨a, b, c, ?_, ?_⟩
      · intro k i
        simp only
        rw [h4]
        constructor
        · rintro ⟨m, hm, hk⟩; exact ⟨m, (getElem?_push _ _ _ _).mpr (Or.inl hm), hk⟩
        · rintro ⟨m, hm, hk⟩
          rcases (getElem?_push _ _ _ _).mp hm with hm | ⟨_, rfl⟩
          · exact ⟨m, hm, hk⟩
          · cases hk
      · intro r' i
        simp only
        rw [getElem?_push, List.lookup_cons]
        by_cases hr : r' = r
        · subst hr
          have hno : s.metas[i]? ≠ some (.unknown r') := by
            intro hc; rw [← h5] at hc; rw [hl] at hc; cases hc
          simp [hno, eq_comm]
        · have : (r' == r) = false := by simpa using hr
          rw [this]
          simp only
          rw [h5]
          simp [Ne.symm hr]
  | known v k i m hk hl =>
    have hi := (h4 k i).mp hl
    obtain ⟨m', hm', _⟩ := hi
    obtain ⟨a, b, c⟩ := reuse i { s with outputs := s.outputs ++ [(v, i)] } rfl rfl
      (List.getElem?_eq_some_iff.mp hm').1
    exact ⟨a, b, c, h4, h5⟩
  | new v k m hk hl =>
    obtain ⟨a, b, c⟩ := push m { s with
        outputs := s.outputs ++ [(v, s.metas.length)]
        metas := s.metas ++ [m]
        metaLookup := (k, s.metas.length) :: s.metaLookup } rfl rfl
    refine ⟨a, b, c, ?_, ?_⟩
    · intro k' i
      simp only
      rw [List.lookup_cons]
      by_cases hr : k' = k
      · subst hr
        simp only [beq_self_eq_true, Option.some.injEq]
        constructor
        · rintro rfl; exact ⟨m, (getElem?_push _ _ _ _).mpr (Or.inr ⟨rfl, rfl⟩), hk⟩
        · rintro ⟨m', hm', hk'⟩
          rcases (getElem?_push _ _ _ _).mp hm' with hm' | ⟨h, _⟩
          · have := (h4 k' i).mpr ⟨m', hm', hk'⟩
            rw [hl] at this; cases this
          · exact h.symm
      · have : (k' == k) = false := by simpa using hr
        rw [this]
        simp only
        rw [h4]
        constructor
        · rintro ⟨m, hm, hk⟩; exact ⟨m, (getElem?_push _ _ _ _).mpr (Or.inl hm), hk⟩
        · rintro ⟨m', hm', hk'⟩
          rcases (getElem?_push _ _ _ _).mp hm' with hm' | ⟨_, rfl⟩
          · exact ⟨m', hm', hk'⟩
          · rw [hk] at hk'; exact absurd (Option.some.inj hk').symm hr
    · intro r i
      simp only
      rw [getElem?_push, h5]
      constructor
      · exact Or.inl
      · rintro (h | ⟨_, rfl⟩)
        · exact h
        · cases hk
  | sym v name =>
    obtain ⟨a, b, c⟩ := push (.sym name) { s with
        outputs := s.outputs ++ [(v, s.metas.length)]
        metas := s.metas ++ [.sym name] } rfl rfl
    refine ⟨a, b, c, ?_, ?_⟩
    · intro k i
      simp only
      rw [h4]
      constructor
      · rintro ⟨m, hm, hk⟩; exact ⟨m, (getElem?_push _ _ _ _).mpr (Or.inl hm), hk⟩
      · rintro ⟨m, hm, hk⟩
        rcases (getElem?_push _ _ _ _).mp hm with hm | ⟨_, rfl⟩
        · exact ⟨m, hm, hk⟩
        · cases hk
    · intro r i
      simp only
      rw [getElem?_push, h5]
      simp

theorem forall₂_append {α β : Type} {R : α → β → Prop} {l1 l2 : List α} {r1 r2 : List β}
    (h1 : List.Forall₂ R l1 r1) (h2 : List.Forall₂ R l2 r2) : List.Forall₂ R (l1 ++ l2) (r1 ++ r2) := by
  induction h1 with
  | nil => exact h2
  | cons h _ ih => exact List.Forall₂.cons h ih

/-- One output per address handled, each with the record documented for it. -/
def Good (env : Env) (es : List Entry) (done : List Nat) (s : NState) : Prop :=
  Tidy done.length s ∧
  List.Forall₂ (fun a (o : Nat × Nat) => ∃ m, s.metas[o.2]? = some m ∧ describe env es a = .ok (o.1, m))
    done s.outputs ∧
  ∀ m ∈ s.metas, ∃ a ∈ done, ∃ v, describe env es a = .ok (v, m)

theorem good_step {env : Env} {es : List Entry} {all done : List Nat} {a : Nat} {s s' : NState} {v : Nat}
    {m : UserMeta} (hc : Consistent env es all) (hd : ∀ x ∈ done, x ∈ all) (ha : a ∈ all)
    (h : Good env es done s) (hda : describe env es a = .ok (v, m)) (hs : Step s s' v m) :
    Good env es (done ++ [a]) s' := by
  obtain ⟨ht, hf, hm⟩ := h
  have ht' := tidy_step ht hs
  refine ⟨by simpa using ht', ?_⟩
  have grow (ms : List UserMeta) (idx : Nat) (hpre : ∀ (i : Nat) x, s.metas[i]? = some x → ms[i]? = some x)
      (hi : ms[idx]? = some m) :
      List.Forall₂ (fun a (o : Nat × Nat) => ∃ m, ms[o.2]? = some m ∧ describe env es a = .ok (o.1, m))
        (done ++ [a]) (s.outputs ++ [(v, idx)]) := by
    refine forall₂_append (hf.imp ?_) ?_
    · rintro x o ⟨m, h1, h2⟩; exact ⟨m, hpre _ _ h1, h2⟩
    · exact List.Forall₂.cons ⟨m, hi, hda⟩ List.Forall₂.nil
  have old : ∀ m ∈ s.metas, ∃ x ∈ done ++ [a], ∃ v, describe env es x = .ok (v, m) := by
    intro m hmm
    obtain ⟨x, hx, h⟩ := hm m hmm
    exact ⟨x, by simp [hx], h⟩
  have new : ∀ x ∈ s.metas ++ [m], ∃ y ∈ done ++ [a], ∃ v, describe env es y = .ok (v, x) := by
    intro x hx
    rcases List.mem_append.mp hx with hx | hx
    · exact old x hx
    · simp only [List.mem_singleton] at hx; subst hx; exact ⟨a, by simp, v, hda⟩
  have pre : ∀ (i : Nat) x, s.metas[i]? = some x → (s.metas ++ [m])[i]? = some x :=
    fun i x h => (getElem?_push _ _ _ _).mpr (Or.inl h)
  have at' : (s.metas ++ [m])[s.metas.length]? = some m := by simp
  cases hs with
  | unknown v r =>
    unfold addUnknownAddr
    cases hl : s.unknownCache.lookup r with
    | some i => exact ⟨grow s.metas i (fun _ _ h => h) ((ht.unk r i).mp hl), old⟩
    | none => exact ⟨grow _ _ pre at', new⟩
  | known v k i m hk hl =>
    obtain ⟨m', h1, h2⟩ := (ht.look k i).mp hl
    have : m' = m := by
      obtain ⟨x, hx, w, hw⟩ := hm m' (List.mem_of_getElem? h1)
      exact hc x (hd x hx) a ha w v m' m hw hda (by rw [h2]; simp) (by rw [h2, hk])
    subst this
    exact ⟨grow s.metas i (fun _ _ h => h) h1, old⟩
  | new v k m hk hl => exact ⟨grow _ _ pre at', new⟩
  | sym v name => exact ⟨grow _ _ pre at', new⟩

theorem good_init (env : Env) (es : List Entry) : Good env es [] NState.init :=
  ⟨tidy_init, List.Forall₂.nil, by simp [NState.init]⟩

theorem describe_none {env : Env} {es : List Entry} {a : Nat} (h : mappingOf es a = none) :
    describe env es a = .ok (a, .unknown .unmapped) := by
  unfold describe; rw [h]

theorem describe_some {env : Env} {es : List Entry} {a : Nat} {e : Entry} (h : mappingOf es a = some e) :
    describe env es a = describeIn env e a := by
  unfold describe; rw [h]

/-- The walk, address by address, under the assumptions of C02. -/
theorem each_good (env : Env) (es : List Entry) (all : List Nat) (hc : Consistent env es all)
    (hok : ∀ a ∈ all, ∃ v m, describe env es a = .ok (v, m)) (hg : ∀ a ∈ all, ¬ InVdsoGap env es a)
    (addrs done : List Nat) (ha : done ++ addrs = all) (s : NState) (h : Good env es done s) :
    ∃ s', each (normHandler env).unknown (normHandler env).entryAddr es addrs s = .ok s' ∧ Good env es all s' := by
  induction addrs generalizing done s with
  | nil => exact ⟨s, rfl, by simpa [← ha] using h⟩
  | cons a t ih =>
    have hd : ∀ x ∈ done, x ∈ all := fun x hx => by rw [← ha]; simp [hx]
    have haa : a ∈ all := by rw [← ha]; simp
    simp only [each]
    cases hm : mappingOf es a with
    | none =>
      exact ih (done ++ [a]) (by simpa using ha) _
        (good_step hc hd haa h (describe_none hm) (Step.unknown a .unmapped))
    | some e =>
      obtain ⟨v, m, hvm⟩ := hok a haa
      have hvm' := hvm
      rw [describe_some hm] at hvm'
      obtain ⟨s1, h1, h2⟩ := (handleEntryAddr_step env a e s).1 v m hvm' (by
        rintro ⟨virt, r, hgap⟩
        exact hg a haa ⟨e, virt, r, hm, hgap⟩)
      simp only [normHandler, h1]
      exact ih (done ++ [a]) (by simpa using ha) s1 (good_step hc hd haa h hvm h2)

theorem each_tidy (env : Env) (es : List Entry) (addrs : List Nat) (s' : NState)
    (h : each (normHandler env).unknown (normHandler env).entryAddr es addrs NState.init = .ok s') :
    Tidy addrs.length s' := by
  have := each_ind (normHandler env).unknown (normHandler env).entryAddr es
    (fun done s => Tidy done.length s) (by
      intro done a s h _
      rw [List.length_append]
      exact tidy_step h (Step.unknown a .unmapped)) (by
      intro done a e s s' h _ hs
      obtain ⟨v, m, hstep⟩ := (handleEntryAddr_step env a e s).2.2.1 s' hs
      simpa using tidy_step h hstep) addrs [] NState.init s' tidy_init h
  simpa using this

theorem each_error (env : Env) (es : List Entry) (addrs : List Nat) (s : NState) (err : Err)
    (h : each (normHandler env).unknown (normHandler env).entryAddr es addrs s = .error err) :
    ∃ a ∈ addrs, describe env es a = .error err := by
  induction addrs generalizing s with
  | nil => cases h
  | cons a t ih =>
    simp only [each] at h
    cases hm : mappingOf es a with
    | none =>
      rw [hm] at h
      obtain ⟨x, hx, hx'⟩ := ih _ h
      exact ⟨x, by simp [hx], hx'⟩
    | some e =>
      rw [hm] at h
      simp only at h
      cases hx : (normHandler env).entryAddr a e s with
      | error er =>
        rw [hx] at h
        cases h
        exact ⟨a, by simp, by rw [describe_some hm]; exact (handleEntryAddr_step env a e s).2.1 err hx⟩
      | ok s1 =>
        rw [hx] at h
        obtain ⟨x, hx, hx'⟩ := ih _ h
        exact ⟨x, by simp [hx], hx'⟩

theorem each_fails (env : Env) (es : List Entry) (addrs : List Nat) (s : NState) (a : Nat) (err : Err)
    (ha : a ∈ addrs) (hne : err ≠ .panic) (h : describe env es a = .error err) :
    ∃ err', each (normHandler env).unknown (normHandler env).entryAddr es addrs s = .error err' := by
  induction addrs generalizing s with
  | nil => cases ha
  | cons b t ih =>
    simp only [each]
    rcases List.mem_cons.mp ha with rfl | ha
    · cases hm : mappingOf es a with
      | none => rw [describe_none hm] at h; cases h
      | some e =>
        rw [describe_some hm] at h
        have := (handleEntryAddr_step env a e s).2.2.2.1 err hne h
        simp only [normHandler, this]
        exact ⟨err, rfl⟩
    · cases hm : mappingOf es b with
      | none => exact ih _ ha
      | some e =>
        simp only
        cases hx : (normHandler env).entryAddr b e s with
        | error er => exact ⟨er, rfl⟩
        | ok s1 => exact ih _ ha

end Blazesym.Normalize
