import Verif.Kernel.BpfSysLemmas

/-!
# C71: source locations of BPF programs that come and go

Programs are loaded and unloaded at any time, also between the system calls of one request.
-/

set_option autoImplicit false

namespace Blazesym.Kernel
open Blazesym.Util Blazesym.Symbolize Blazesym.Spec Blazesym.Spec.Kernel

/-! ### What is remembered -/

theorem get_mem (c : InfoCache) (tag : Bytes) (info : ProgInfo) (h : c.get tag = some info) : (tag, info) ∈ c := by
  unfold InfoCache.get at h
  cases hf : c.find? (fun e => e.1 == tag) with
  | none => rw [hf] at h; cases h
  | some e =>
    rw [hf] at h
    have h1 : e.2 = info := by simpa using h
    have h2 : e.1 = tag := by simpa using List.find?_some hf
    rw [← h1, ← h2]
    exact List.mem_of_find?_eq_some hf

theorem insertTags_inv (P : Bytes → ProgInfo → Prop) (tag : Bytes) (info : ProgInfo) (ts : List Bytes)
    (ht : ∀ t ∈ ts, P t info) : ∀ (found : Option ProgInfo) (c : InfoCache),
    (∀ i, found = some i → P tag i) → (∀ e ∈ c, P e.1 e.2) →
    (∀ i, (insertTags tag info ts found c).1 = some i → P tag i) ∧
      ∀ e ∈ (insertTags tag info ts found c).2, P e.1 e.2 := by
  induction ts with
  | nil => intro found c h1 h2; exact ⟨h1, h2⟩
  | cons t ts ih =>
    intro found c h1 h2
    rw [insertTags]
    have h3 := ht t (by simp)
    refine ih (fun t' h' => ht t' (by simp [h'])) _ _ ?_ ?_
    · intro i hi
      split at hi
      · rename_i hc
        have hi := Option.some.inj hi
        subst hi
        have : tag = t := by simpa using (Bool.and_eq_true_iff.mp hc).2
        rw [this]; exact h3
      · exact h1 i hi
    · intro e he
      rcases List.mem_cons.mp he with rfl | he
      · exact h3
      · exact h2 e he

theorem lookupLoop_inv (P : Bytes → ProgInfo → Prop) (tag : Bytes) (answers : List (Except Err ProgInfo))
    (ha : ∀ info, Except.ok info ∈ answers → ∀ t, HasTag info t → P t info) :
    ∀ (found : Option ProgInfo) (c : InfoCache), (∀ i, found = some i → P tag i) → (∀ e ∈ c, P e.1 e.2) →
    (∀ i, (lookupLoop tag answers found c).1 = .ok (some i) → P tag i) ∧
      ∀ e ∈ (lookupLoop tag answers found c).2, P e.1 e.2 := by
  induction answers with
  | nil => intro found c h1 h2; exact ⟨fun i hi => h1 i (Except.ok.inj hi), h2⟩
  | cons a rest ih =>
    intro found c h1 h2
    cases a with
    | error e => exact ⟨fun i hi => (by cases hi), h2⟩
    | ok info =>
      rw [lookupLoop]
      have h3 := insertTags_inv P tag info (info.tag :: info.progTags)
        (fun t ht => ha info (by simp) t ((hasTag_iff info t).mp ht)) found c h1 h2
      exact ih (fun i hi => ha i (by simp [hi])) _ _ h3.1 h3.2

theorem lookupAt_inv (P : Bytes → ProgInfo → Prop) (sys : BpfHistory) (t : Nat) (c : InfoCache) (tag : Bytes)
    (hp : ∀ (t : Nat) (p : Program), p ∈ (sys t).programs → ∀ tag, HasTag p.info tag → P tag p.info)
    (hc : ∀ tag info, c.get tag = some info → P tag info) :
    (∀ i, (c.lookupAt sys t tag).1 = .ok (some i) → P tag i) ∧
      ∀ tag' info, (c.lookupAt sys t tag).2.1.get tag' = some info → P tag' info := by
  unfold InfoCache.lookupAt
  cases hg : c.get tag with
  | some info =>
    refine ⟨fun i hi => ?_, hc⟩
    have := Option.some.inj (Except.ok.inj hi)
    subst this
    exact hc _ _ hg
  | none =>
    simp only
    have h := lookupLoop_inv P tag (allRounds sys t).1 (fun info hi t' ht' => by
      obtain ⟨t, p, hp1, rfl⟩ := rounds_loaded _ _ _ _ _ hi
      exact hp t p hp1 t' ht') none [] (by simp) (by simp)
    unfold InfoCache.lookup
    rw [hg]
    exact ⟨h.1, fun tag' info hi => h.2 _ (get_mem _ _ _ hi)⟩

/-- What a state knows is about programs that were loaded. -/
structure Sound (sys : BpfHistory) (syms : List Ksym) (st : BpfState) : Prop where
  cache : ∀ tag info, st.cache.get tag = some info →
    ∃ (t : Nat) (p : Program), p ∈ (sys t).programs ∧ info = p.info ∧ HasTag info tag
  cells : ∀ i lines, st.cells i = some lines →
    ∃ prog, syms[i]? = some (.bpfProg prog) ∧ LinesFrom sys prog.tag lines

theorem retrieve_sound (sys : BpfHistory) (hr : Regular sys) (t : Nat) (c : InfoCache) (tag : Bytes)
    (hc : ∀ tag info, c.get tag = some info →
      ∃ (t : Nat) (p : Program), p ∈ (sys t).programs ∧ info = p.info ∧ HasTag info tag) :
    (∀ lines, (retrieveLines sys t c tag).1 = .ok lines → LinesFrom sys tag lines) ∧
    ∀ tag' info, (retrieveLines sys t c tag).2.1.get tag' = some info →
      ∃ (t : Nat) (p : Program), p ∈ (sys t).programs ∧ info = p.info ∧ HasTag info tag' := by
  have h := lookupAt_inv
    (fun tag info => ∃ (t : Nat) (p : Program), p ∈ (sys t).programs ∧ info = p.info ∧ HasTag info tag)
    sys t c tag (fun t p hp tag ht => ⟨t, p, hp, rfl, ht⟩) hc
  unfold retrieveLines
  revert h
  rcases c.lookupAt sys t tag with ⟨r, c', t'⟩
  rintro ⟨h1, h2⟩
  simp only at h1 h2
  rcases r with e | _ | info
  · exact ⟨fun l hl => (by cases hl), h2⟩
  · exact ⟨fun l hl => (by cases hl), h2⟩
  · obtain ⟨t1, p1, hp1, rfl, ht1⟩ := h1 info rfl
    simp only
    cases hf : (sys t').progFd p1.info.id with
    | error e => exact ⟨fun l hl => (by cases hl), h2⟩
    | ok p =>
      refine ⟨fun l hl => ?_, h2⟩
      obtain ⟨hp2, hp3⟩ := progFd_ok _ _ _ hf
      have : p = p1 := hr.once _ _ p hp2 p1 hp1 hp3
      subst this
      exact ⟨t', t' + 2, p, hp2, ht1, (queryAt_ok _ _ _ _ hl).2⟩

theorem lines_sound (sys : BpfHistory) (hr : Regular sys) (syms : List Ksym) (st : BpfState) (hs : Sound sys syms st)
    (i : Nat) (prog : BpfProg) (hi : syms[i]? = some (.bpfProg prog)) :
    (∀ lines, (st.lines sys i prog.tag).1 = .ok lines → LinesFrom sys prog.tag lines) ∧
      Sound sys syms (st.lines sys i prog.tag).2 := by
  unfold BpfState.lines
  cases hc : st.cells i with
  | some lines =>
    refine ⟨fun l hl => ?_, hs⟩
    have := Except.ok.inj hl
    subst this
    obtain ⟨prog', h1, h2⟩ := hs.cells i _ hc
    rw [hi] at h1
    have := Ksym.bpfProg.inj (Option.some.inj h1)
    subst this
    exact h2
  | none =>
    simp only
    have h := retrieve_sound sys hr st.time st.cache prog.tag hs.cache
    revert h
    rcases retrieveLines sys st.time st.cache prog.tag with ⟨r, c', t'⟩
    rintro ⟨h1, h2⟩
    simp only at h1 h2
    cases r with
    | error e => exact ⟨fun l hl => (by cases hl), ⟨h2, hs.cells⟩⟩
    | ok lines =>
      refine ⟨fun l hl => ?_, ⟨h2, fun j l hl => ?_⟩⟩
      · have := Except.ok.inj hl
        subst this
        exact h1 _ rfl
      · simp only at hl
        split at hl
        · rename_i hj
          subst hj
          have := Option.some.inj hl
          subst this
          exact ⟨prog, hi, h1 _ rfl⟩
        · exact hs.cells j l hl

/-- The ways a request can go. -/
theorem findSym_cases (sys : BpfHistory) (st : BpfState) (syms : List Ksym) (addr : Nat) (opts : FindSymOpts) :
    (∃ reason, findKsym syms addr = .error reason ∧ st.findSym sys syms addr opts = (.ok (.error reason), st)) ∨
    (∃ i a name, findMatchOrLowerBoundByKey syms addr Ksym.addr = some i ∧ syms[i]? = some (.kfunc a name) ∧
      st.findSym sys syms addr opts = (.ok (.ok ⟨name, none, a, none, .unknown, none, []⟩), st)) ∨
    (∃ i prog, findMatchOrLowerBoundByKey syms addr Ksym.addr = some i ∧ syms[i]? = some (.bpfProg prog) ∧
      ((opts = .basic ∧ st.findSym sys syms addr opts =
          (.ok (.ok ⟨prog.name, some (ascii "[bpf]"), prog.addr, none, .unknown, none, []⟩), st)) ∨
        (opts ≠ .basic ∧ st.findSym sys syms addr opts =
          ((prog.resolve addr opts (st.lines sys i prog.tag).1).map .ok, (st.lines sys i prog.tag).2)))) := by
  unfold BpfState.findSym findKsym
  cases hf : findMatchOrLowerBoundByKey syms addr Ksym.addr with
  | none =>
    refine Or.inl ⟨if syms.isEmpty then .missingSyms else .unknownAddr, ?_, rfl⟩
    simp only [Option.bind_none]
    split <;> rfl
  | some i =>
    cases hi : syms[i]? with
    | none =>
      refine Or.inl ⟨if syms.isEmpty then .missingSyms else .unknownAddr, ?_, by simp only [hi]⟩
      simp only [Option.bind_some, hi]
      split <;> rfl
    | some k =>
      refine Or.inr ?_
      cases k with
      | kfunc a name => exact Or.inl ⟨i, a, name, rfl, hi, by simp only [hi]⟩
      | bpfProg prog =>
        refine Or.inr ⟨i, prog, rfl, hi, ?_⟩
        simp only [hi]
        unfold BpfState.resolve
        cases opts with
        | basic =>
          refine Or.inl ⟨rfl, ?_⟩
          simp only [FindSymOpts.wantsCodeInfo, Bool.false_eq_true, if_false,
            (C58_symbol prog addr .basic (.ok none)).1 rfl]
        | codeInfo =>
          refine Or.inr ⟨by simp, ?_⟩
          simp only [FindSymOpts.wantsCodeInfo, if_true]
          cases prog.resolve addr .codeInfo (st.lines sys i prog.tag).1 <;> rfl
        | codeInfoAndInlined =>
          refine Or.inr ⟨by simp, ?_⟩
          simp only [FindSymOpts.wantsCodeInfo, if_true]
          cases prog.resolve addr .codeInfoAndInlined (st.lines sys i prog.tag).1 <;> rfl

theorem findSym_sound (sys : BpfHistory) (hr : Regular sys) (syms : List Ksym) (st : BpfState)
    (hs : Sound sys syms st) (addr : Nat) (opts : FindSymOpts) : Sound sys syms (st.findSym sys syms addr opts).2 := by
  rcases findSym_cases sys st syms addr opts with ⟨_, _, h⟩ | ⟨_, _, _, _, _, h⟩ | ⟨i, prog, _, hi, h⟩
  · rw [h]; exact hs
  · rw [h]; exact hs
  · rcases h with ⟨_, h⟩ | ⟨_, h⟩
    · rw [h]; exact hs
    · rw [h]; exact (lines_sound sys hr syms st hs i prog hi).2

theorem run_sound (sys : BpfHistory) (hr : Regular sys) (syms : List Ksym) (reqs : List (Nat × FindSymOpts)) :
    ∀ st : BpfState, Sound sys syms st → Sound sys syms (BpfState.run sys syms st reqs).2 := by
  induction reqs with
  | nil => intro st hs; exact hs
  | cons r rest ih =>
    intro st hs
    obtain ⟨addr, opts⟩ := r
    rw [BpfState.run]
    exact ih _ (findSym_sound sys hr syms st hs addr opts)

theorem new_sound (sys : BpfHistory) (syms : List Ksym) (t : Nat) : Sound sys syms (BpfState.new t) :=
  ⟨fun tag info h => (by cases h), fun i l h => (by cases h)⟩

theorem linesOf_location {btfs : Nat → Option Bytes} {p : Program} {lines : Option (List LineInfoRecord)}
    (h : LinesOf btfs p lines) (addr : Nat) : LocationIn lines addr (bpfCodeInfo lines addr) := by
  cases h with
  | none _ => intro rs h; cases h
  | some data btf rs _ _ _ hr =>
    obtain ⟨rs0, _, _, hs⟩ := hr
    cases hb : bpfCodeInfo (some rs) addr with
    | none =>
      intro rs' h r hr
      have := Option.some.inj h
      subst this
      exact (C58_no_location hs addr).2.mp hb r hr
    | some ci => exact ⟨rs, rfl, C58_location hs addr ci hb⟩

theorem linesOf_unique {btfs : Nat → Option Bytes} {p : Program} {l1 l2 : Option (List LineInfoRecord)}
    (h1 : LinesOf btfs p l1) (h2 : LinesOf btfs p l2) : l1 = l2 := by
  cases h1 with
  | none h =>
    cases h2 with
    | none _ => rfl
    | some _ _ _ h' => exact absurd h h'
  | some d1 b1 r1 h1 h2' h3 h4 =>
    cases h2 with
    | none h => exact absurd h h1
    | some d2 b2 r2 _ g2 g3 g4 =>
      rw [h2'] at g2
      have := Option.some.inj g2
      subst this
      have e1 := (parseBtf_ok ..).mpr h3
      have e2 := (parseBtf_ok ..).mpr g3
      rw [e1] at e2
      have := Except.ok.inj e2
      subst this
      have e3 := (C58_records ..).mpr h4
      have e4 := (C58_records ..).mpr g4
      rw [e3] at e4
      rw [Except.ok.inj e4]

/-! ### The properties -/

/-- **C71** (where locations come from): whatever programs are loaded and unloaded in the meantime, a location
that is reported for an address in a BPF program is one of a program that had its tag and was loaded at some
time. -/
theorem C71_origin (sys : BpfHistory) (hr : Regular sys) (syms : List Ksym) (t : Nat)
    (reqs : List (Nat × FindSymOpts)) (addr : Nat) (opts : FindSymOpts) (sym : ResolvedSym) (ci : CodeInfo)
    (h : ((BpfState.run sys syms (BpfState.new t) reqs).2.findSym sys syms addr opts).1 = .ok (.ok sym))
    (hci : sym.codeInfo = some ci) :
    ∃ prog lines, .bpfProg prog ∈ syms ∧ sym.name = prog.name ∧ sym.addr = prog.addr ∧
      LinesFrom sys prog.tag lines ∧ LocationIn lines addr (some ci) := by
  have hs := run_sound sys hr syms reqs _ (new_sound sys syms t)
  generalize (BpfState.run sys syms (BpfState.new t) reqs).2 = st at h hs
  rcases findSym_cases sys st syms addr opts with ⟨_, _, hc⟩ | ⟨_, _, _, _, _, hc⟩ | ⟨i, prog, _, hi, hc⟩
  · rw [hc] at h; cases h
  · rw [hc] at h
    have := Except.ok.inj (Except.ok.inj h)
    subst this
    cases hci
  · rcases hc with ⟨_, hc⟩ | ⟨ho, hc⟩
    · rw [hc] at h
      have := Except.ok.inj (Except.ok.inj h)
      subst this
      cases hci
    · rw [hc] at h
      have hl := (lines_sound sys hr syms st hs i prog hi).1
      cases hlines : (st.lines sys i prog.tag).1 with
      | error e =>
        rw [hlines, ((C58_symbol prog addr opts (.error e)).2 ho).1 e rfl] at h
        cases h
      | ok lines =>
        rw [hlines, ((C58_symbol prog addr opts (.ok lines)).2 ho).2 lines rfl] at h
        have := Except.ok.inj (Except.ok.inj h)
        subst this
        obtain ⟨t, t', p, h1, h2, h3⟩ := hl lines hlines
        refine ⟨prog, lines, List.mem_of_getElem? hi, rfl, rfl, ⟨t, t', p, h1, h2, h3⟩, ?_⟩
        have := linesOf_location h3 addr
        simp only at hci
        rwa [hci] at this

theorem covers_find {syms : List Ksym} (hl : Loaded syms) {addr i : Nat} {sym : Ksym} (h : Covers syms addr i sym) :
    findMatchOrLowerBoundByKey syms addr Ksym.addr = some i := by
  obtain ⟨h1, h2, h3⟩ := h
  cases hf : findMatchOrLowerBoundByKey syms addr Ksym.addr with
  | none =>
    have := (C07_lower_bound_none syms Ksym.addr (loaded_sorted hl) addr).mp hf sym (List.mem_of_getElem? h1)
    omega
  | some j =>
    obtain ⟨k, hk, g1, _, g3⟩ := C07_lower_bound_greatest syms Ksym.addr (loaded_sorted hl) addr j hf
    by_cases hij : j = i
    · rw [hij]
    · exfalso
      have := g3 sym (List.mem_of_getElem? h1) h2
      rcases h3 j k hk hij with h | h <;> omega

/-- **C71** (locations, the part that holds): if programs are not loaded or unloaded, and only one program has
the tag, the location of an address in a BPF program is the one its line information gives for it, whatever
was asked before.  Missing: a tag shared by several programs, see `C71_shared_tag_wrong`; programs that
change, see `C71_reload_wrong` and `C71_race_wrong`. -/
theorem C71_location_partial (sys : BpfHistory) (s : BpfSystem) (hst : Steady sys s) (hr : Regular sys)
    (syms : List Ksym) (hl : Loaded syms) (t : Nat) (reqs : List (Nat × FindSymOpts)) (addr i : Nat)
    (prog : BpfProg) (hc : Covers syms addr i (.bpfProg prog)) (opts : FindSymOpts) (ho : opts ≠ .basic)
    (p : Program) (hp : p ∈ s.programs) (ht : HasTag p.info prog.tag)
    (hu : ∀ q ∈ s.programs, HasTag q.info prog.tag → q = p) (hsup : Supported p)
    (lines : Option (List LineInfoRecord)) (hlines : LinesOf s.btf p lines) :
    ∃ ci, ((BpfState.run sys syms (BpfState.new t) reqs).2.findSym sys syms addr opts).1 =
        .ok (.ok ⟨prog.name, some (ascii "[bpf]"), prog.addr, none, .unknown, ci, []⟩) ∧ LocationIn lines addr ci := by
  have hs := run_sound sys hr syms reqs _ (new_sound sys syms t)
  generalize (BpfState.run sys syms (BpfState.new t) reqs).2 = st at hs
  have hsorted : s.programs.Pairwise (fun p q => p.id < q.id) := by have := hr.sorted 0; rwa [hst.2] at this
  have key : (st.lines sys i prog.tag).1 = .ok lines := by
    unfold BpfState.lines
    cases hcell : st.cells i with
    | some l =>
      obtain ⟨prog', h1, t1, t2, q, h2, h3, h4⟩ := hs.cells i l hcell
      rw [hc.1] at h1
      have := Ksym.bpfProg.inj (Option.some.inj h1)
      subst this
      rw [hst.2] at h2 h4
      have := hu q h2 h3
      subst this
      rw [linesOf_unique h4 hlines]
    | none =>
      simp only
      have hlook : (st.cache.lookupAt sys st.time prog.tag).1 = .ok (some p.info) := by
        unfold InfoCache.lookupAt
        cases hg : st.cache.get prog.tag with
        | some info =>
          obtain ⟨t1, q, h1, rfl, h3⟩ := hs.cache _ _ hg
          rw [hst.2] at h1
          rw [hu q h1 h3]
        | none =>
          obtain ⟨res, h1, h2, h3⟩ := C57_lookup st.cache prog.tag hg (s.programs.map Program.info)
          simp only
          rw [allRounds_steady hst hr, h1]
          cases res with
          | none => exact absurd ht (h3.mp rfl p.info (List.mem_map_of_mem hp))
          | some info =>
            obtain ⟨b, a, hb, hb', _⟩ := (h2 info).mp rfl
            have hm : info ∈ s.programs.map Program.info := by rw [hb]; simp
            obtain ⟨q, hq, rfl⟩ := List.mem_map.mp hm
            rw [hu q hq hb']
      have hret : (retrieveLines sys st.time st.cache prog.tag).1 = .ok lines := by
        unfold retrieveLines
        revert hlook
        rcases st.cache.lookupAt sys st.time prog.tag with ⟨r, c', t'⟩
        intro hlook
        simp only at hlook
        subst hlook
        simp only
        have hfd : (sys t').progFd p.info.id = .ok p := by rw [hst.2]; exact progFd_steady hst.1 hsorted p hp
        rw [hfd]
        exact queryAt_steady hst _ p hsup lines hlines
      revert hret
      rcases retrieveLines sys st.time st.cache prog.tag with ⟨r, c', t'⟩
      intro hret
      simp only at hret
      subst hret
      rfl
  refine ⟨bpfCodeInfo lines addr, ?_, linesOf_location hlines addr⟩
  have hf := covers_find hl hc
  rcases findSym_cases sys st syms addr opts with ⟨_, hk, _⟩ | ⟨j, _, _, hj, hj', _⟩ | ⟨j, prog', hj, hj', h⟩
  · unfold findKsym at hk
    rw [hf, Option.bind_some, hc.1] at hk
    cases hk
  · rw [hf] at hj
    have := Option.some.inj hj
    subst this
    rw [hc.1] at hj'
    cases hj'
  · rw [hf] at hj
    have := Option.some.inj hj
    subst this
    rw [hc.1] at hj'
    have := Ksym.bpfProg.inj (Option.some.inj hj')
    subst this
    rcases h with ⟨h, _⟩ | ⟨_, h⟩
    · exact absurd h ho
    · rw [h, key, ((C58_symbol prog addr opts (.ok lines)).2 ho).2 lines rfl]
      rfl

/-- **C71** (unloaded programs): if no program has the tag, asking for a location is an error. -/
theorem C71_unloaded (sys : BpfHistory) (s : BpfSystem) (hst : Steady sys s) (hr : Regular sys)
    (syms : List Ksym) (hl : Loaded syms) (t : Nat) (reqs : List (Nat × FindSymOpts)) (addr i : Nat)
    (prog : BpfProg) (hc : Covers syms addr i (.bpfProg prog)) (opts : FindSymOpts) (ho : opts ≠ .basic)
    (hu : ∀ q ∈ s.programs, ¬ HasTag q.info prog.tag) :
    ((BpfState.run sys syms (BpfState.new t) reqs).2.findSym sys syms addr opts).1 = .error .notFound := by
  have hs := run_sound sys hr syms reqs _ (new_sound sys syms t)
  generalize (BpfState.run sys syms (BpfState.new t) reqs).2 = st at hs
  have key : (st.lines sys i prog.tag).1 = .error .notFound := by
    unfold BpfState.lines
    cases hcell : st.cells i with
    | some l =>
      obtain ⟨prog', h1, t1, t2, q, h2, h3, h4⟩ := hs.cells i l hcell
      rw [hc.1] at h1
      have := Ksym.bpfProg.inj (Option.some.inj h1)
      subst this
      rw [hst.2] at h2
      exact absurd h3 (hu q h2)
    | none =>
      simp only
      have hlook : (st.cache.lookupAt sys st.time prog.tag).1 = .ok none := by
        unfold InfoCache.lookupAt
        cases hg : st.cache.get prog.tag with
        | some info =>
          obtain ⟨t1, q, h1, rfl, h3⟩ := hs.cache _ _ hg
          rw [hst.2] at h1
          exact absurd h3 (hu q h1)
        | none =>
          obtain ⟨res, h1, _, h3⟩ := C57_lookup st.cache prog.tag hg (s.programs.map Program.info)
          simp only
          rw [allRounds_steady hst hr, h1, h3.mpr]
          intro info hi
          obtain ⟨q, hq, rfl⟩ := List.mem_map.mp hi
          exact hu q hq
      have hret : (retrieveLines sys st.time st.cache prog.tag).1 = .error .notFound := by
        unfold retrieveLines
        revert hlook
        rcases st.cache.lookupAt sys st.time prog.tag with ⟨r, c', t'⟩
        intro hlook
        simp only at hlook
        subst hlook
        rfl
      revert hret
      rcases retrieveLines sys st.time st.cache prog.tag with ⟨r, c', t'⟩
      intro hret
      simp only at hret
      subst hret
      rfl
  have hf := covers_find hl hc
  rcases findSym_cases sys st syms addr opts with ⟨_, hk, _⟩ | ⟨j, _, _, hj, hj', _⟩ | ⟨j, prog', hj, hj', h⟩
  · unfold findKsym at hk
    rw [hf, Option.bind_some, hc.1] at hk
    cases hk
  · rw [hf] at hj
    have := Option.some.inj hj
    subst this
    rw [hc.1] at hj'
    cases hj'
  · rw [hf] at hj
    have := Option.some.inj hj
    subst this
    rw [hc.1] at hj'
    have := Ksym.bpfProg.inj (Option.some.inj hj')
    subst this
    rcases h with ⟨h, _⟩ | ⟨_, h⟩
    · exact absurd h ho
    · rw [h, key, ((C58_symbol prog addr opts (.error .notFound)).2 ho).1 _ rfl]
      rfl

/-- **C71** (no system calls): requests for symbols only, and requests for addresses of ordinary functions, make
no system calls, and what they yield does not depend on which programs are loaded. -/
theorem C71_no_calls (sys : BpfHistory) (st : BpfState) (syms : List Ksym) (addr : Nat) (opts : FindSymOpts)
    (h : opts = .basic ∨ ∀ prog, findKsym syms addr ≠ .ok (.bpfProg prog)) (lines : BpfLines) :
    st.findSym sys syms addr opts = (ksymFindSym lines syms addr opts, st) := by
  unfold ksymFindSym
  rcases findSym_cases sys st syms addr opts with ⟨r, hk, hc⟩ | ⟨i, a, name, hi, hi', hc⟩ | ⟨i, prog, hi, hi', hc⟩
  · rw [hk, hc]
  · have hk : findKsym syms addr = .ok (.kfunc a name) := by
      unfold findKsym; rw [hi, Option.bind_some, hi']
    rw [hk, hc]
    rfl
  · have hk : findKsym syms addr = .ok (.bpfProg prog) := by
      unfold findKsym; rw [hi, Option.bind_some, hi']
    rcases h with h | h
    · subst h
      rcases hc with ⟨_, hc⟩ | ⟨hc, _⟩
      · rw [hk, hc]
        simp only [Ksym.resolve, (C58_symbol prog addr .basic (lines prog.tag)).1 rfl]
      · exact absurd rfl hc
    · exact absurd hk (h prog)

theorem lines_cell (sys : BpfHistory) (st : BpfState) (i : Nat) (tag : Bytes) (lines : Option (List LineInfoRecord))
    (h : (st.lines sys i tag).1 = .ok lines) : (st.lines sys i tag).2.cells i = some lines := by
  revert h
  unfold BpfState.lines
  cases hc : st.cells i with
  | some l => intro h; have := Except.ok.inj h; subst this; exact hc
  | none =>
    simp only
    rcases retrieveLines sys st.time st.cache tag with ⟨r, c, t⟩
    cases r with
    | error e => intro h; cases h
    | ok l => intro h; have := Except.ok.inj h; subst this; simp

theorem lines_keeps (sys : BpfHistory) (st : BpfState) (i j : Nat) (tag : Bytes)
    (lines : Option (List LineInfoRecord)) (h : st.cells i = some lines) :
    (st.lines sys j tag).2.cells i = some lines := by
  unfold BpfState.lines
  cases hc : st.cells j with
  | some l => exact h
  | none =>
    simp only
    rcases retrieveLines sys st.time st.cache tag with ⟨r, c, t⟩
    cases r with
    | error e => exact h
    | ok l =>
      simp only
      rw [if_neg (by intro hij; rw [hij, hc] at h; cases h)]
      exact h

theorem run_keeps (sys : BpfHistory) (syms : List Ksym) (i : Nat) (lines : Option (List LineInfoRecord))
    (reqs : List (Nat × FindSymOpts)) : ∀ st : BpfState, st.cells i = some lines →
    (BpfState.run sys syms st reqs).2.cells i = some lines := by
  induction reqs with
  | nil => intro st h; exact h
  | cons r rest ih =>
    intro st h
    obtain ⟨addr, opts⟩ := r
    rw [BpfState.run]
    refine ih _ ?_
    rcases findSym_cases sys st syms addr opts with ⟨_, _, hc⟩ | ⟨_, _, _, _, _, hc⟩ | ⟨j, prog, _, _, hc⟩
    · rw [hc]; exact h
    · rw [hc]; exact h
    · rcases hc with ⟨_, hc⟩ | ⟨_, hc⟩
      · rw [hc]; exact h
      · rw [hc]; exact lines_keeps sys st i j prog.tag lines h

/-- **C71** (answers stay): once a location was asked for successfully, the answer stays the same, whatever else
is asked and whatever programs are loaded from then on. -/
theorem C71_stays (sys sys' : BpfHistory) (syms : List Ksym) (st : BpfState) (addr : Nat) (opts : FindSymOpts)
    (ho : opts ≠ .basic) (r : Except Reason ResolvedSym) (h : (st.findSym sys syms addr opts).1 = .ok r)
    (reqs : List (Nat × FindSymOpts)) :
    ((BpfState.run sys' syms (st.findSym sys syms addr opts).2 reqs).2.findSym sys' syms addr opts).1 = .ok r := by
  rcases findSym_cases sys st syms addr opts with ⟨r', hk, hc⟩ | ⟨i, a, name, hi, hi', hc⟩ | ⟨i, prog, hi, hi', hc⟩
  · have hn : ∀ prog, findKsym syms addr ≠ .ok (.bpfProg prog) := by intro prog; rw [hk]; simp
    rw [C71_no_calls sys' _ syms addr opts (Or.inr hn) (fun _ => .ok none)]
    rw [C71_no_calls sys st syms addr opts (Or.inr hn) (fun _ => .ok none)] at h
    exact h
  · have hn : ∀ prog, findKsym syms addr ≠ .ok (.bpfProg prog) := by
      intro prog; unfold findKsym; rw [hi, Option.bind_some, hi']; simp
    rw [C71_no_calls sys' _ syms addr opts (Or.inr hn) (fun _ => .ok none)]
    rw [C71_no_calls sys st syms addr opts (Or.inr hn) (fun _ => .ok none)] at h
    exact h
  · rcases hc with ⟨hc, _⟩ | ⟨_, hc⟩
    · exact absurd hc ho
    · rw [hc] at h ⊢
      simp only at h ⊢
      cases hlines : (st.lines sys i prog.tag).1 with
      | error e =>
        rw [hlines, ((C58_symbol prog addr opts (.error e)).2 ho).1 e rfl] at h
        cases h
      | ok lines =>
        rw [hlines] at h
        have hk := run_keeps sys' syms i lines reqs _ (lines_cell sys st i prog.tag lines hlines)
        generalize (BpfState.run sys' syms (st.lines sys i prog.tag).2 reqs).2 = st' at hk
        rcases findSym_cases sys' st' syms addr opts with ⟨_, hk', _⟩ | ⟨j, _, _, hj, hj', _⟩ | ⟨j, prog', hj, hj', h'⟩
        · unfold findKsym at hk'
          rw [hi, Option.bind_some, hi'] at hk'
          cases hk'
        · rw [hi] at hj
          have := Option.some.inj hj
          subst this
          rw [hi'] at hj'
          cases hj'
        · rw [hi] at hj
          have := Option.some.inj hj
          subst this
          rw [hi'] at hj'
          have := Ksym.bpfProg.inj (Option.some.inj hj')
          subst this
          rcases h' with ⟨h', _⟩ | ⟨_, h'⟩
          · exact absurd h' ho
          · rw [h']
            have : (st'.lines sys' i prog.tag).1 = .ok lines := by unfold BpfState.lines; rw [hk]
            rw [this]
            exact h

/-- **C71** (termination): the enumeration of programs ends, however they change meanwhile: it is never cut
short. -/
theorem C71_ends (sys : BpfHistory) (hr : Regular sys) (hd : ∀ t, (sys t).denied ≠ some .panic) (t : Nat) :
    Except.error Err.panic ∉ (allRounds sys t).1 := by
  have perm : ∀ {α : Type} (t : Nat) (r : Except Err α), r ≠ .error .panic → (sys t).permit r ≠ .error .panic := by
    intro α t r hr'
    unfold BpfSystem.permit
    have := hd t
    cases hden : (sys t).denied with
    | none => exact hr'
    | some e => rw [hden] at this; intro h; exact this (by rw [Except.error.inj h])
  have onf : ∀ {α : Type} (o : Option α), orNotFound o ≠ .error .panic := by
    intro α o; cases o <;> simp [orNotFound]
  have key : ∀ (fuel start t : Nat), start < u32Size → u32Size ≤ fuel + start →
      Except.error Err.panic ∉ (rounds sys fuel start t).1 := by
    intro fuel
    induction fuel with
    | zero => intro start t h1 h2; omega
    | succ fuel ih =>
      intro start t h1 h2
      rw [rounds]
      split
      · simp
      · rename_i e _ he
        have := perm t _ (onf ((((sys t).programs.find? (fun p => decide (start < p.id))).map Program.id)))
        intro hm
        have : e = .panic := by simpa [eq_comm] using hm
        subst this
        exact perm t _ (onf _) he
      · rename_i id hid
        obtain ⟨p, hp, hp', hlt⟩ := nextId_ok _ _ _ hid
        have hid' := (hr.ids t p hp).2
        split
        · rename_i e he
          intro hm
          have : e = .panic := by simpa [eq_comm] using hm
          subst this
          unfold progInfo at he
          cases h3 : (sys (t + 1)).progFd id with
          | error e =>
            rw [h3] at he
            have : e = .panic := Except.error.inj he
            subst this
            exact perm _ _ (onf _) h3
          | ok q =>
            rw [h3] at he
            cases h4 : (sys (t + 1 + 1)).infoCall with
            | error e =>
              rw [h4] at he
              have : e = .panic := Except.error.inj he
              subst this
              exact perm _ _ (by simp) h4
            | ok u =>
              rw [h4] at he
              cases h5 : (sys (t + 1 + 2)).infoCall with
              | error e =>
                rw [h5] at he
                have : e = .panic := Except.error.inj he
                subst this
                exact perm _ _ (by simp) h5
              | ok u => rw [h5] at he; cases he
        · simp only [List.mem_cons, not_or]
          exact ⟨by simp, ih id (t + 4) (by omega) (by omega)⟩
  exact key u32Size 0 t (by decide) (by omega)

/-! ### Concrete cases -/

/-- BTF data with the header and the strings `""` and `a.c`. -/
def exBtf : Bytes :=
  [0x9f, 0xeb, 1, 0, 24, 0, 0, 0, 0, 0, 0, 0, 0, 0, 0, 0, 0, 0, 0, 0, 5, 0, 0, 0, 0, 97, 46, 99, 0]

/-- Lines 10 and 20 of `a.c`. -/
def exLineInfo : List BpfLineInfo := [⟨1, 10 * 1024 + 1⟩, ⟨1, 20 * 1024 + 1⟩]

def exTag : Bytes := [1, 2, 3, 4, 5, 6, 7, 8]
def exSubTag : Bytes := [9, 9, 9, 9, 9, 9, 9, 9]

/-- A program whose two instructions with line information are at `addr` and `addr + 16`. -/
def exProgram (id addr : Nat) : Program := ⟨id, exTag, [exTag, exSubTag], 7, exLineInfo, [addr, addr + 16], 16, 8⟩

def exSystem (programs : List Program) : BpfSystem := ⟨programs, fun id => if id = 7 then some exBtf else none, none⟩

def exText : Bytes :=
  ascii "1000 t bpf_prog_0102030405060708_a\n2000 t bpf_prog_0102030405060708_a\n3000 t bpf_prog_0909090909090909_b\n"

def exProgAt (addr : Nat) : BpfProg := ⟨addr, ascii "bpf_prog_0102030405060708_a", exTag⟩
def exSub : BpfProg := ⟨0x3000, ascii "bpf_prog_0909090909090909_b", exSubTag⟩

def exSyms : List Ksym := [.bpfProg (exProgAt 0x1000), .bpfProg (exProgAt 0x2000), .bpfProg exSub]

theorem exSyms_loaded : Loaded exSyms := ⟨true, exText, by decide +kernel⟩

/-- The line records of such a program. -/
def exRecords (addr : Nat) : List LineInfoRecord := [⟨addr, ascii "a.c", 10, 1⟩, ⟨addr + 16, ascii "a.c", 20, 1⟩]

theorem exLines (programs : List Program) (id addr : Nat) :
    LinesOf (exSystem programs).btf (exProgram id addr) (some (exRecords addr)) := by
  refine .some exBtf ⟨exBtf, 24, 0, 5⟩ _ (by show (7 : Nat) ≠ 0; decide) rfl ((parseBtf_ok ..).mp (by rfl)) ?_
  refine (C58_records ⟨exBtf, 24, 0, 5⟩ exLineInfo [addr, addr + 16] _).mp ?_
  have h : lineRecords ⟨exBtf, 24, 0, 5⟩ exLineInfo [addr, addr + 16] 0 = .ok (exRecords addr) := by rfl
  unfold queryLineInfo
  rw [h]
  simp only [exRecords, sortByKey, insertByKey]
  rw [if_pos (by omega)]

theorem covers0 (addr : Nat) (h : 0x1000 ≤ addr) (h' : addr < 0x2000) :
    Covers exSyms addr 0 (.bpfProg (exProgAt 0x1000)) := by
  refine ⟨rfl, h, ?_⟩
  intro j k hk hj
  match j, hk with
  | 0, _ => exact absurd rfl hj
  | 1, hk => have := Option.some.inj hk; subst this; exact Or.inr h'
  | 2, hk => have := Option.some.inj hk; subst this; exact Or.inr (show addr < 0x3000 by omega)

theorem covers1 (addr : Nat) (h : 0x2000 ≤ addr) (h' : addr < 0x3000) :
    Covers exSyms addr 1 (.bpfProg (exProgAt 0x2000)) := by
  refine ⟨rfl, h, ?_⟩
  intro j k hk hj
  match j, hk with
  | 0, hk => have := Option.some.inj hk; subst this; exact Or.inl (show 0x1000 < 0x2000 by omega)
  | 1, _ => exact absurd rfl hj
  | 2, hk => have := Option.some.inj hk; subst this; exact Or.inr h'

theorem covers2 (addr : Nat) (h : 0x3000 ≤ addr) : Covers exSyms addr 2 (.bpfProg exSub) := by
  refine ⟨rfl, h, ?_⟩
  intro j k hk hj
  match j, hk with
  | 0, hk => have := Option.some.inj hk; subst this; exact Or.inl (show 0x1000 < 0x3000 by omega)
  | 1, hk => have := Option.some.inj hk; subst this; exact Or.inl (show 0x2000 < 0x3000 by omega)
  | 2, _ => exact absurd rfl hj

/-- Programs may be listed one after the other with increasing ids. -/
theorem exRegular (sys : BpfHistory) (addr : Nat → Nat)
    (h : ∀ t, ∃ ids : List Nat, ids.Pairwise (· < ·) ∧ (∀ i ∈ ids, 0 < i ∧ i < u32Size) ∧
      (sys t).programs = ids.map (fun i => exProgram i (addr i))) : Regular sys := by
  refine ⟨fun t => ?_, fun t p hp => ?_, fun t t' p hp q hq hpq => ?_⟩
  · obtain ⟨ids, h1, _, h3⟩ := h t
    rw [h3, List.pairwise_map]
    exact h1
  · obtain ⟨ids, _, h2, h3⟩ := h t
    rw [h3] at hp
    obtain ⟨i, hi, rfl⟩ := List.mem_map.mp hp
    exact h2 i hi
  · obtain ⟨ids, _, _, h3⟩ := h t
    obtain ⟨ids', _, _, h3'⟩ := h t'
    rw [h3] at hp
    rw [h3'] at hq
    obtain ⟨i, _, rfl⟩ := List.mem_map.mp hp
    obtain ⟨j, _, rfl⟩ := List.mem_map.mp hq
    have : i = j := hpq
    rw [this]

/-- One program: the hypotheses of `C71_location_partial` and what it says. -/
example : let s := exSystem [exProgram 5 0x1000]
    Steady (fun _ => s) s ∧ Regular (fun _ => s) ∧ exProgram 5 0x1000 ∈ s.programs ∧
      HasTag (exProgram 5 0x1000).info exTag ∧ Supported (exProgram 5 0x1000) ∧
      LinesOf s.btf (exProgram 5 0x1000) (some (exRecords 0x1000)) ∧
      ((BpfState.new 0).findSym (fun _ => s) exSyms 0x100f .codeInfo).1 =
        .ok (.ok ⟨ascii "bpf_prog_0102030405060708_a", some (ascii "[bpf]"), 0x1000, none, .unknown,
          some ⟨none, ascii "a.c", some 10, some 1⟩, []⟩) := by
  refine ⟨⟨rfl, fun _ => rfl⟩, exRegular _ (fun _ => 0x1000) (fun _ => ⟨[5], by simp, by decide, rfl⟩), by simp [exSystem],
    Or.inl rfl, ⟨rfl, rfl⟩, exLines _ _ _, by decide +kernel⟩

/-- Nothing is loaded. -/
example : ((BpfState.new 0).findSym (fun _ => exSystem []) exSyms 0x100f .codeInfo).1 = .error .notFound := by
  decide +kernel

/-- Asking again for the address after the program was unloaded gives the same answer. -/
example : let loaded : BpfHistory := fun _ => exSystem [exProgram 5 0x1000]
    let later : BpfHistory := fun _ => exSystem []
    (((BpfState.new 0).findSym loaded exSyms 0x100f .codeInfo).2.findSym later exSyms 0x100f .codeInfo).1 =
      ((BpfState.new 0).findSym loaded exSyms 0x100f .codeInfo).1 := by
  decide +kernel

/-- **C71** (shared tags): a program that is loaded twice has the same tag twice, and locations for the addresses
of one of them are taken from the other, so all addresses of the second are attributed to the last line of
the first. -/
theorem C71_shared_tag_wrong :
    ∃ (sys : BpfHistory) (s : BpfSystem) (syms : List Ksym) (addr i : Nat) (prog : BpfProg) (p : Program)
      (lines : Option (List LineInfoRecord)) (ci : Option CodeInfo),
      Steady sys s ∧ Regular sys ∧ Loaded syms ∧ Covers syms addr i (.bpfProg prog) ∧ p ∈ s.programs ∧
      HasTag p.info prog.tag ∧ Supported p ∧ LinesOf s.btf p lines ∧ p.jited.head? = some prog.addr ∧
      ((BpfState.new 0).findSym sys syms addr .codeInfo).1 =
        .ok (.ok ⟨prog.name, some (ascii "[bpf]"), prog.addr, none, .unknown, ci, []⟩) ∧ ¬ LocationIn lines addr ci := by
  refine ⟨fun _ => exSystem [exProgram 5 0x1000, exProgram 6 0x2000], exSystem [exProgram 5 0x1000, exProgram 6 0x2000],
    exSyms, 0x2004, 1, exProgAt 0x2000, exProgram 6 0x2000, some (exRecords 0x2000),
    some ⟨none, ascii "a.c", some 20, some 1⟩, ⟨rfl, fun _ => rfl⟩,
    exRegular _ (fun i => if i = 5 then 0x1000 else 0x2000) (fun _ => ⟨[5, 6], by decide, by decide, rfl⟩),
    exSyms_loaded, covers1 _ (by decide) (by decide), by simp [exSystem], Or.inl rfl, ⟨rfl, rfl⟩, exLines _ _ _, rfl,
    by decide +kernel, ?_⟩
  rintro ⟨rs, hrs, r, hr, hle, _, hci⟩
  have := Option.some.inj hrs
  subst this
  simp only [exRecords, List.mem_cons, List.not_mem_nil, or_false] at hr
  rcases hr with rfl | rfl
  · simp at hci
  · simp at hle

/-- A program that is unloaded and loaded again, with another id, before call 11. -/
def exReload : BpfHistory := fun t => if t < 11 then exSystem [exProgram 5 0x1000] else exSystem [exProgram 6 0x1000]

/-- **C71** (reloading): after a program was unloaded and loaded again, its old id is still used for those of its
functions that were not asked about before, and asking about them fails from then on, although a program with
that tag is loaded all the time. -/
theorem C71_reload_wrong :
    Regular exReload ∧ Loaded exSyms ∧ Covers exSyms 0x3004 2 (.bpfProg exSub) ∧
    (∀ t, ∃ p ∈ (exReload t).programs, HasTag p.info exSub.tag ∧ Supported p ∧
      LinesOf (exReload t).btf p (some (exRecords 0x1000))) ∧
    ∀ n : Nat, ((BpfState.run exReload exSyms ((BpfState.new 0).findSym exReload exSyms 0x1004 .codeInfo).2
      (List.replicate n (0x3004, .codeInfo))).2.findSym exReload exSyms 0x3004 .codeInfo).1 = .error .notFound := by
  refine ⟨exRegular _ (fun _ => 0x1000) (fun t => ?_), exSyms_loaded, covers2 _ (by decide), fun t => ?_, fun n => ?_⟩
  · unfold exReload
    split
    · exact ⟨[5], by simp, by decide, rfl⟩
    · exact ⟨[6], by simp, by decide, rfl⟩
  · unfold exReload
    split
    · exact ⟨exProgram 5 0x1000, by simp [exSystem], Or.inr (by decide), ⟨rfl, rfl⟩, exLines _ _ _⟩
    · exact ⟨exProgram 6 0x1000, by simp [exSystem], Or.inr (by decide), ⟨rfl, rfl⟩, exLines _ _ _⟩
  · have step : ∀ st : BpfState, st.cache.get exSub.tag = some (exProgram 5 0x1000).info → st.cells 2 = none →
        11 ≤ st.time →
        st.findSym exReload exSyms 0x3004 .codeInfo = (.error .notFound, { st with time := st.time + 1 }) := by
      intro st h1 h2 h3
      have hl : st.lines exReload 2 exSub.tag = (.error .notFound, { st with time := st.time + 1 }) := by
        unfold BpfState.lines retrieveLines InfoCache.lookupAt
        rw [h2, h1]
        simp only
        have : (exReload st.time).progFd (exProgram 5 0x1000).info.id = .error .notFound := by
          unfold exReload
          rw [if_neg (by omega)]
          rfl
        rw [this]
      rcases findSym_cases exReload st exSyms 0x3004 .codeInfo with ⟨_, hk, _⟩ | ⟨j, _, _, hj, hj', _⟩ | ⟨j, prog, hj, hj', h⟩
      · unfold findKsym at hk
        rw [covers_find exSyms_loaded (covers2 0x3004 (by decide)), Option.bind_some] at hk
        cases hk
      · rw [covers_find exSyms_loaded (covers2 0x3004 (by decide))] at hj
        have := Option.some.inj hj
        subst this
        cases hj'
      · rw [covers_find exSyms_loaded (covers2 0x3004 (by decide))] at hj
        have := Option.some.inj hj
        subst this
        have := Ksym.bpfProg.inj (Option.some.inj hj')
        subst this
        rcases h with ⟨h, _⟩ | ⟨_, h⟩
        · cases h
        · rw [h, hl]
          rfl
    have all : ∀ (n : Nat) (st : BpfState), st.cache.get exSub.tag = some (exProgram 5 0x1000).info → st.cells 2 = none →
        11 ≤ st.time →
        ((BpfState.run exReload exSyms st (List.replicate n (0x3004, .codeInfo))).2.findSym exReload exSyms 0x3004
          .codeInfo).1 = .error .notFound := by
      intro n
      induction n with
      | zero => intro st h1 h2 h3; rw [List.replicate_zero, BpfState.run, step st h1 h2 h3]
      | succ n ih =>
        intro st h1 h2 h3
        rw [List.replicate_succ, BpfState.run, step st h1 h2 h3]
        exact ih _ h1 h2 (by simp only; omega)
    refine all n _ ?_ ?_ ?_
    · decide +kernel
    · decide +kernel
    · decide +kernel

/-- Another program is unloaded after the first call. -/
def exRace : BpfHistory := fun t =>
  if t < 1 then exSystem [exProgram 4 0x9000, exProgram 5 0x1000] else exSystem [exProgram 5 0x1000]

/-- **C71** (unloading meanwhile): if any program is unloaded while the programs are enumerated, asking for a
location may fail, although the program it is about is loaded all the time. -/
theorem C71_race_wrong :
    Regular exRace ∧ Loaded exSyms ∧ Covers exSyms 0x1004 0 (.bpfProg (exProgAt 0x1000)) ∧
    (∀ t, exProgram 5 0x1000 ∈ (exRace t).programs ∧
      LinesOf (exRace t).btf (exProgram 5 0x1000) (some (exRecords 0x1000))) ∧
    Supported (exProgram 5 0x1000) ∧ HasTag (exProgram 5 0x1000).info (exProgAt 0x1000).tag ∧
    ((BpfState.new 0).findSym exRace exSyms 0x1004 .codeInfo).1 = .error .notFound := by
  refine ⟨exRegular _ (fun i => if i = 4 then 0x9000 else 0x1000) (fun t => ?_), exSyms_loaded,
    covers0 _ (by decide) (by decide), fun t => ?_, ⟨rfl, rfl⟩, Or.inl rfl, by decide +kernel⟩
  · unfold exRace
    split
    · exact ⟨[4, 5], by decide, by decide, rfl⟩
    · exact ⟨[5], by simp, by decide, rfl⟩
  · unfold exRace
    split
    · exact ⟨by simp [exSystem], exLines _ _ _⟩
    · exact ⟨by simp [exSystem], exLines _ _ _⟩

end Blazesym.Kernel
