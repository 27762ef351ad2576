import Verif.Session.State
import Verif.Session.Normalizer
import Verif.Normalize.UserProps
import Verif.Util.ReorderProps
import Verif.Session.NormalizerProps

/-! Property theorems C68 and C75: one answer per address, whatever is in the caches. -/

set_option autoImplicit false

namespace Blazesym.Symbolize
open Blazesym.Util Blazesym.Cache

variable {S : Type}

/-- The computation yields lists of length `n` only. -/
def Yields {α : Type} (n : Nat) (a : Act S (List α)) : Prop := ∀ s r, (a s).1 = .ok r → r.length = n

theorem Yields.lift_error {α : Type} {n : Nat} (e : Err) : Yields n (.lift (.error e) : Act S (List α)) := by
  intro s r h
  cases h

theorem Yields.bind {α β : Type} {n : Nat} {a : Act S α} {f : α → Act S (List β)} (h : ∀ x, Yields n (f x)) :
    Yields n (a.bind f) := by
  intro s r hr
  unfold Act.bind at hr
  cases ha : a s with
  | mk x s' =>
    rw [ha] at hr
    cases x with
    | error e => cases hr
    | ok x => exact h x s' r hr

theorem Yields.bind_of {α β : Type} {n : Nat} {a : Act S (List α)} {f : List α → Act S (List β)} (ha : Yields n a)
    (h : ∀ x, x.length = n → Yields n (f x)) : Yields n (a.bind f) := by
  intro s r hr
  unfold Act.bind at hr
  cases hx : a s with
  | mk x s' =>
    rw [hx] at hr
    cases x with
    | error e => cases hr
    | ok x => exact h x (ha s x (by rw [hx])) s' r hr

theorem Yields.traverse {α β : Type} (f : α → Act S β) (l : List α) : Yields l.length (.traverse f l) := by
  induction l with
  | nil => intro s r h; cases h; rfl
  | cons x l ih =>
    rw [Act.traverse]
    refine Yields.bind fun y => ?_
    intro s r hr
    unfold Act.bind at hr
    cases hx : Act.traverse f l s with
    | mk ys s' =>
      rw [hx] at hr
      cases ys with
      | error e => cases hr
      | ok ys =>
        cases hr
        rw [List.length_cons, List.length_cons, ih s ys (by rw [hx])]

theorem Yields.inOrder (addrs : List Nat) (outs : List Symbolized) :
    Yields addrs.length (.lift (inOrder addrs outs) : Act S (List Symbolized)) := by
  intro s r h
  replace h : Blazesym.Symbolize.inOrder addrs outs = .ok r := h
  unfold Blazesym.Symbolize.inOrder at h
  by_cases hl : outs.length = (sortWithIdx addrs).length
  · have hl' : outs.length = addrs.length := by rw [hl, sortWithIdx_length]
    obtain ⟨out, h1, h2, -⟩ := reorder_spec outs (sortWithIdx addrs) hl
      (by rw [hl']; exact sortWithIdx_snd_perm addrs) (addrs.length + 1) (by omega)
    rw [h1] at h
    cases h
    omega
  · rw [reorder, if_pos hl] at h
    cases h

/-- The addresses of a request. -/
def Input.inner {α : Type} : Input α → α
  | .absAddr x | .virtOffset x | .fileOffset x => x

theorem symbolizeImpl_length (h : Host S) (src : Source) (input : Input (List Nat))
    (fold : Err → Except Err Symbolized) : Yields input.inner.length (h.symbolizeImpl src input fold) := by
  unfold Host.symbolizeImpl
  cases src with
  | apk path ds =>
    cases input with
    | fileOffset addrs => exact Yields.traverse _ _
    | virtOffset _ => exact Yields.lift_error _
    | absAddr _ => exact Yields.lift_error _
  | breakpad path =>
    cases input with
    | fileOffset addrs => exact Yields.bind fun _ => Yields.traverse _ _
    | virtOffset _ => exact Yields.lift_error _
    | absAddr _ => exact Yields.lift_error _
  | elf path ds =>
    refine Yields.bind fun _ => ?_
    cases input with
    | fileOffset addrs => exact Yields.traverse _ _
    | virtOffset _ => exact Yields.traverse _ _
    | absAddr _ => exact Yields.lift_error _
  | kernel src =>
    cases input with
    | absAddr addrs => exact Yields.bind fun _ => Yields.traverse _ _
    | virtOffset _ => exact Yields.lift_error _
    | fileOffset _ => exact Yields.lift_error _
  | process src =>
    cases input with
    | absAddr addrs =>
      refine Yields.bind_of (n := addrs.length) ?_ fun syms hs => hs ▸ Yields.traverse _ _
      unfold Host.symbolizeUserAddrs
      exact Yields.bind fun _ => Yields.bind fun outs => Yields.inOrder addrs outs
    | virtOffset _ => exact Yields.lift_error _
    | fileOffset _ => exact Yields.lift_error _
  | gsymData data =>
    cases input with
    | virtOffset addrs => exact Yields.bind fun _ => Yields.traverse _ _
    | absAddr _ => exact Yields.lift_error _
    | fileOffset _ => exact Yields.lift_error _
  | gsymFile path =>
    cases input with
    | virtOffset addrs => exact Yields.bind fun _ => Yields.traverse _ _
    | absAddr _ => exact Yields.lift_error _
    | fileOffset _ => exact Yields.lift_error _

/-- **C68** Whatever is in the caches of a symbolizer, whatever they got there by: a request that succeeds has
one answer per address. -/
theorem C68_count {M K : Type} [DecidableEq M] (cfg : Settings M K) (w : World M) (s : State M K) (src : Source)
    (addrs : List Nat) (syms : List Symbolized) (input : Input (List Nat))
    (hi : input = .absAddr addrs ∨ input = .virtOffset addrs ∨ input = .fileOffset addrs)
    (h : (s.symbolize cfg w src input).1 = .ok syms) : syms.length = addrs.length := by
  have := symbolizeImpl_length (host cfg w) src input _ s syms h
  rcases hi with rfl | rfl | rfl <;> exact this

end Blazesym.Symbolize

namespace Blazesym.Normalize
open Blazesym.Util Blazesym.Maps Blazesym.Cache Blazesym.Symbolize Blazesym.Spec Blazesym.Spec.Normalize

variable {M : Type} [DecidableEq M]

/-- The computation turns a tidy state into a tidy one with one more output. -/
def Adds (n : Nat) (a : Act (Normalizer M) NState) : Prop := ∀ c s, (a c).1 = .ok s → Tidy (n + 1) s

theorem Adds.lift {n : Nat} {s : NState} (h : Tidy n s) {r : Except Err NState}
    (hr : ∀ s', r = .ok s' → ∃ v m, Step s s' v m) : Adds n (.lift r : Act (Normalizer M) NState) := by
  intro c s' hs'
  obtain ⟨v, m, hst⟩ := hr s' hs'
  exact tidy_step h hst

theorem Adds.bind {α : Type} {n : Nat} {a : Act (Normalizer M) α} {f : α → Act (Normalizer M) NState}
    (h : ∀ x, Adds n (f x)) : Adds n (a.bind f) := by
  intro c s hs
  unfold Act.bind at hs
  cases ha : a c with
  | mk x c' =>
    rw [ha] at hs
    cases x with
    | error e => cases hs
    | ok x => exact h x c' s hs

theorem Adds.unknown {n : Nat} {s : NState} (h : Tidy n s) (v : Nat) (r : Reason) :
    Adds n (.lift (.ok (addUnknownAddr v r s)) : Act (Normalizer M) NState) :=
  Adds.lift h fun s' hs' => by cases hs'; exact ⟨_, _, Step.unknown v r⟩

theorem Adds.normalized {n : Nat} {s : NState} (h : Tidy n s) (off : Nat) (key : Bytes)
    (create : _root_.Unit → Except Err UserMeta) (hk : ∀ m, create () = .ok m → fileOf m = some key) :
    Adds n (.lift (addNormalizedOffset off key create s) : Act (Normalizer M) NState) :=
  Adds.lift h fun s' hs' => by
    obtain ⟨-, -, h3⟩ := addNormalizedOffset_step off key create s hk
    obtain ⟨m, -, hst⟩ := h3 s' hs' (.apk key) rfl
    exact ⟨_, _, hst⟩

theorem elfMetaOn_file (cfg : Settings) (w : World M) (entry : Entry) (path : Bytes) (c : Normalizer M) (m : UserMeta)
    (h : (elfMetaOn cfg w entry path c).1 = .ok m) : fileOf m = some path := by
  unfold elfMetaOn at h
  cases hb : entry.buildId with
  | some b => rw [hb] at h; cases h; rfl
  | none =>
    rw [hb] at h
    simp only [Act.mapResult] at h
    generalize (on Normalizer.ids (fun s ids => { s with ids }) (readBuildIdOn cfg w path) c) = x at h
    obtain ⟨r, c'⟩ := x
    simp only at h
    unfold elfMetaOf at h
    split at h <;> cases h <;> rfl

theorem addNormalizedOn_adds {n : Nat} {s : NState} (h : Tidy n s) (off : Nat) (key : Bytes)
    (create : Act (Normalizer M) UserMeta) (hk : ∀ c m, (create c).1 = .ok m → fileOf m = some key) :
    Adds n (addNormalizedOn off key create s) := by
  unfold addNormalizedOn
  cases hl : s.metaLookup.lookup key with
  | some i =>
    exact Adds.lift h fun s' hs' => by cases hs'; exact ⟨_, _, Step.known off key i (.apk key) rfl hl⟩
  | none =>
    intro c s' hs'
    simp only [Act.bind] at hs'
    cases hc : create c with
    | mk x c' =>
      rw [hc] at hs'
      cases x with
      | error e => cases hs'
      | ok m =>
        cases hs'
        exact tidy_step h (Step.new off key m (hk c m (by rw [hc])) hl)

theorem vdsoAddr_step (t : Dwarf.Tools) (addr fileOff : Nat) (s s' : NState) (parser : Dwarf.ElfParser)
    (h : vdsoAddr t addr fileOff s parser = .ok s') : ∃ v m, Step s s' v m := by
  unfold vdsoAddr handleVdsoAddr at h
  simp only [bind, Except.bind] at h
  cases h1 : (asVdso t parser).fileOffsetToVirtOffset fileOff with
  | error e => rw [h1] at h; cases h
  | ok o =>
    rw [h1] at h
    cases o with
    | none => cases h; exact ⟨_, _, Step.unknown addr _⟩
    | some virt =>
      simp only at h
      cases h2 : (asVdso t parser).symbolize virt with
      | error e => rw [h2] at h; cases h
      | ok r =>
        rw [h2] at h
        cases r with
        | sym name => cases h; exact ⟨_, _, Step.sym fileOff name⟩
        | unknown reason => cases h; exact ⟨_, _, Step.unknown virt _⟩

theorem handleEntryAddrOn_adds (cfg : Settings) (w : World M) (opts : Opts) (pid addr : Nat) (entry : Entry) {n : Nat}
    {s : NState} (h : Tidy n s) : Adds n (handleEntryAddrOn cfg w opts pid addr entry s) := by
  unfold handleEntryAddrOn
  cases addU64 (addr - entry.start) entry.offset with
  | error e => exact Adds.lift h fun s' hs' => by cases hs'
  | ok fileOff =>
    simp only
    cases entry.pathName with
    | none => exact Adds.unknown h _ _
    | some name =>
      cases name with
      | component c =>
        simp only
        split
        · exact Adds.bind fun parser => Adds.lift h fun s' hs' => vdsoAddr_step _ _ _ _ _ _ hs'
        · exact Adds.unknown h _ _
      | path ep =>
        simp only
        split
        · split
          · refine Adds.bind fun found => ?_
            unfold apkAddr
            cases found with
            | none => exact Adds.unknown h _ _
            | some x =>
              obtain ⟨o, p, bid⟩ := x
              refine Adds.normalized h _ _ _ ?_
              intro m hm
              split at hm
              · cases hm; rfl
              · cases hm
          · exact Adds.normalized h _ _ _ (fun m hm => by cases hm; rfl)
        · exact addNormalizedOn_adds h _ _ _ (fun c m hm => elfMetaOn_file cfg w entry _ c m hm)

theorem walkLoopOn_tidy (cfg : Settings) (w : World M) (opts : Opts) (pid : Nat) (addrs : List Nat) (prev : Nat)
    (entry : Entry) (src : Source) {n : Nat} {s : NState} (h : Tidy n s) (c : Normalizer M) (s' : NState)
    (hs' : (walkLoopOn (handlerOn cfg w opts pid) addrs prev entry src s c).1 = .ok s') :
    Tidy (n + addrs.length) s' := by
  induction addrs generalizing prev entry src n s c with
  | nil => cases hs'; exact h
  | cons a rest ih =>
    rw [walkLoopOn] at hs'
    by_cases hp : a < prev
    · rw [if_pos hp] at hs'; cases hs'
    · rw [if_neg hp] at hs'
      have he : n + (a :: rest).length = n + 1 + rest.length := by rw [List.length_cons]; omega
      rw [he]
      cases hk : skip a src.fuel entry src with
      | diverged => rw [hk] at hs'; cases hs'
      | failed e => rw [hk] at hs'; cases hs'
      | exhausted e1 src1 =>
        rw [hk] at hs'
        exact ih _ _ _ (tidy_step h (Step.unknown a .unmapped)) c hs'
      | entry e1 src1 =>
        rw [hk] at hs'
        simp only at hs'
        by_cases hlt : a < e1.start
        · rw [if_pos hlt] at hs'
          exact ih _ _ _ (tidy_step h (Step.unknown a .unmapped)) c hs'
        · rw [if_neg hlt] at hs'
          simp only [Act.bind] at hs'
          cases hx : (handlerOn cfg w opts pid).entryAddr a e1 s c with
          | mk x c' =>
            rw [hx] at hs'
            cases x with
            | error e => cases hs'
            | ok s1 =>
              exact ih _ _ _ (handleEntryAddrOn_adds cfg w opts pid a e1 h c s1 (by
                have : (handlerOn cfg w opts pid).entryAddr a e1 s c = handleEntryAddrOn cfg w opts pid a e1 s c := rfl
                rw [← this, hx])) c' hs'

theorem walkOn_tidy (cfg : Settings) (w : World M) (opts : Opts) (pid : Nat) (addrs : List Nat) (src : Source)
    (c : Normalizer M) (s' : NState) (h : (walkOn (handlerOn cfg w opts pid) addrs src NState.init c).1 = .ok s') :
    Tidy addrs.length s' := by
  unfold walkOn at h
  cases hn : src.next (addrs.head?.getD 0) with
  | mk x src1 =>
    rw [hn] at h
    cases x with
    | none => cases h
    | some x =>
      cases x with
      | error e => cases h
      | ok entry => simpa using walkLoopOn_tidy cfg w opts pid addrs _ entry src1 tidy_init c s' h

/-- The shape of a result: one output per address, every output refers to a record, and every record is
referred to. -/
def Shaped (addrs : List Nat) (metas : List UserMeta) (outs : List (Nat × Nat)) : Prop :=
  outs.length = addrs.length ∧ (∀ o ∈ outs, o.2 < metas.length) ∧ ∀ i < metas.length, ∃ o ∈ outs, o.2 = i

theorem normalizeIter_shape (cfg : Settings) (w : World M) (opts : Opts) (pid : Nat) (addrs : List Nat)
    (c : Normalizer M) (m : List UserMeta) (o : List (Nat × Nat))
    (h : (normalizeIter cfg w opts pid addrs c).1 = .ok (m, o)) : Shaped addrs m o := by
  unfold normalizeIter normalizeImpl at h
  simp only [Act.bind] at h
  generalize sourceOn cfg w pid c = x at h
  obtain ⟨x, c1⟩ := x
  cases x with
  | error e => cases h
  | ok src =>
    simp only at h
    cases hw : walkOn (handlerOn cfg w opts pid) addrs src NState.init c1 with
    | mk y c2 =>
      rw [hw] at h
      cases y with
      | error e => cases h
      | ok s =>
        have ht := walkOn_tidy cfg w opts pid addrs src c1 s (by rw [hw])
        replace h : checkedOutput addrs s = .ok (m, o) := h
        rw [checkedOutput, if_pos ht.count] at h
        cases h
        exact ⟨ht.count, ht.valid, ht.used⟩

/-- **C75** Whatever is in the caches of a normalizer, whatever they got there by: a request that succeeds has
one output per address, every output refers to a record, and there are no other records. -/
theorem C75_shape (cfg : Settings) (w : World M) (opts : Opts) (pid : Nat) (addrs : List Nat) (s : Normalizer M)
    (metas : List UserMeta) (outs : List (Nat × Nat)) (h : (s.normalize cfg w opts pid addrs).1 = .ok metas outs) :
    outs.length = addrs.length ∧ (∀ o ∈ outs, o.2 < metas.length) ∧ ∀ i < metas.length, ∃ o ∈ outs, o.2 = i := by
  unfold Normalizer.normalize at h
  split at h
  · cases hn : normalizeIter cfg w opts pid addrs s with
    | mk r s' =>
      rw [hn] at h
      cases r with
      | error e => cases h
      | ok r =>
        obtain ⟨m, o⟩ := r
        cases h
        exact normalizeIter_shape cfg w opts pid addrs s _ _ (by rw [hn])
  · cases hn : normalizeIter cfg w opts pid ((sortWithIdx addrs).map Prod.fst) s with
    | mk r s' =>
      rw [hn] at h
      simp only at h
      cases r with
      | error e => simp [withOrderedElems, orderedResult] at h
      | ok r =>
        obtain ⟨m, o⟩ := r
        obtain ⟨h1, h2, h3⟩ := normalizeIter_shape cfg w opts pid _ s m o (by rw [hn])
        rw [List.length_map, sortWithIdx_length] at h1
        have hc : withOrderedElems addrs (fun _ => (.ok (m, o) : Except Err _)) =
            withOrderedElems addrs (fun l => if l.length = addrs.length then .ok (m, o) else .error .panic) := by
          unfold withOrderedElems
          simp [sortWithIdx_length]
        rw [hc] at h
        obtain ⟨sorted, k1, -, k3⟩ := C01_results_kept addrs
          (fun l => if l.length = addrs.length then .ok (m, o) else .error Err.panic)
          (fun l r outs hl => by
            split at hl
            · cases hl; omega
            · cases hl)
        rcases k3 with ⟨e, j1, j2⟩ | ⟨rest, out, out', j1, j2, j3, j4⟩
        · rw [j2] at h; cases h
        · rw [j2] at h
          rw [if_pos k1.length_eq] at j1
          cases j1
          cases h
          refine ⟨?_, fun x hx => h2 x ((j3 x).mpr hx), fun i hi => ?_⟩
          · have := (j4 (fun _ _ => True) (List.forall₂_iff_zip.mpr ⟨by rw [k1.length_eq, h1], fun _ => trivial⟩)).length_eq
            exact this.symm
          · obtain ⟨x, hx, e⟩ := h3 i hi
            exact ⟨x, (j3 x).mp hx, e⟩

/-! ### Examples -/

set_option maxRecDepth 20000 in
/-- A request with three answers, by a symbolizer with a history. -/
example (s : Symbolize.State Nat _root_.Unit) (hs : s = ((Symbolize.State.new exSettings).symbolizeSingle exSettings exRich
      (.elf (ascii "/bin/c") false) (.virtOffset 0)).2) :
    (s.symbolize exSettings exRich (.elf (ascii "/bin/c") false) (.virtOffset [0x1008, 0x5000, 0x1001])).1.map
      (List.map fun x => match x with | .sym x => some x.name | .unknown _ => none) =
      .ok [some (ascii "f"), none, some (ascii "f")] := by
  subst hs
  decide +kernel

set_option maxRecDepth 20000 in
/-- Three answers, by a normalizer with a history. -/
example :
    (((Normalizer.new : Normalizer Nat).normalize (exCfg true) (exNorm 0 1) ⟨false, false, true⟩ 7 [0x400008]).2.normalize
      (exCfg true) (exNorm 3 1) ⟨true, false, true⟩ 7 [0x1, 0x400008, 0x400010]).1 =
    .ok [.unknown .unmapped, .elf (ascii "/bin/c") (some [170, 187, 204])] [(1, 0), (8, 1), (16, 1)] := by
  decide +kernel

end Blazesym.Normalize
