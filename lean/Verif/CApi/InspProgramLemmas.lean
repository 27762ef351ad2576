import Verif.CApi.HostLemmas
import Verif.CApi.InspProgramSpec
import Verif.CApi.InspectProps
import Verif.CApi.CallProps

/-! Lemmas about programs that use inspectors through the C interface. -/

set_option autoImplicit false

namespace Blazesym.CApi

open Blazesym.Error Blazesym.Inspect
open Blazesym.Spec.Inspect (Reachable)

variable {M : Type} [DecidableEq M]

/-! ## Arguments -/

theorem cstrBytes_inv {m : Mem} : ∀ {fuel a : Nat} {s : Bytes}, cstrBytes m fuel a = .ok s →
    Holds m a (s ++ [0]) ∧ 0 ∉ s ∧ s.length < fuel := by
  intro fuel
  induction fuel with
  | zero => intro a s h; cases h
  | succ fuel ih =>
    intro a s h
    rw [cstrBytes] at h
    cases hb : readByte m a with
    | error f => rw [hb] at h; cases h
    | ok b =>
      rw [hb] at h
      have hm : m a = some b := by
        unfold readByte at hb
        split at hb <;> simp_all
      simp only [bind, Except.bind] at h
      split at h
      · rename_i h0
        cases h
        subst h0
        refine ⟨?_, by simp, by simp⟩
        intro i hi
        have : i = 0 := by simpa using hi
        subst this
        simpa using hm
      · rename_i h0
        cases hr : cstrBytes m fuel (a + 1) with
        | error f => rw [hr] at h; cases h
        | ok s' =>
          rw [hr] at h
          cases h
          obtain ⟨k1, k2, k3⟩ := ih hr
          refine ⟨?_, by simp [k2, Ne.symm h0], by simp; omega⟩
          intro i hi
          cases i with
          | zero => simpa using hm
          | succ i =>
            have := k1 i (by simp at hi ⊢; omega)
            rw [show a + (i + 1) = a + 1 + i by omega, this]
            simp

theorem fromCStr_inv {m : Mem} {a : Nat} {s : Bytes} (h : fromCStr m a = .ok s) : CStrAt m a s := by
  obtain ⟨h1, h2, h3⟩ := cstrBytes_inv h
  exact ⟨h1, h2, by omega⟩

theorem cstrings_inv {m : Mem} {as : List Nat} : ∀ {ss : List Bytes}, cstrings m as = .ok ss → List.Forall₂ (CStrAt m) as ss := by
  induction as with
  | nil => intro ss h; cases h; exact .nil
  | cons a as ih =>
    intro ss h
    rw [cstrings] at h
    cases h1 : fromCStr m a with
    | error f => rw [h1] at h; cases h
    | ok s =>
      cases h2 : cstrings m as with
      | error f => rw [h1, h2] at h; cases h
      | ok ss' => rw [h1, h2] at h; cases h; exact .cons (fromCStr_inv h1) (ih h2)

theorem utf8Strings_inv {ss : List Bytes} : ∀ {ss' : List Bytes}, utf8Strings ss = .ok ss' →
    ss' = ss ∧ ∀ (s : Bytes), s ∈ ss → isUtf8 s = true := by
  induction ss with
  | nil => intro ss' h; cases h; exact ⟨rfl, fun s h => by cases h⟩
  | cons s ss ih =>
    intro ss' h
    rw [utf8Strings] at h
    cases hu : isUtf8 s with
    | false => rw [hu] at h; cases h
    | true =>
      rw [hu] at h
      cases h2 : utf8Strings ss with
      | error f => rw [h2] at h; cases h
      | ok ss'' =>
        rw [h2] at h
        cases h
        obtain ⟨rfl, k⟩ := ih h2
        exact ⟨rfl, fun s' hs' => by
          rcases List.mem_cons.1 hs' with rfl | hs'
          · exact hu
          · exact k s' hs'⟩

theorem utf8Strings_bad {ss : List Bytes} {s : Bytes} (hs : s ∈ ss) (hu : isUtf8 s = false) : utf8Strings ss = .error .abort := by
  induction ss with
  | nil => cases hs
  | cons x ss ih =>
    rw [utf8Strings]
    cases hx : isUtf8 x with
    | false => rfl
    | true =>
      rcases List.mem_cons.1 hs with rfl | hs
      · rw [hu] at hx; cases hx
      · rw [ih hs]; rfl

/-! ## Results in memory -/

theorem ListArray.le {m : Mem} {lists : List (List SymInfo)} : ∀ {p a a' c c' : Nat}, ListArray m p a a' c c' lists →
    c ≤ c' ∧ a ≤ a' := by
  induction lists with
  | nil => intro p a a' c c' h; obtain ⟨rfl, rfl⟩ := h; exact ⟨Nat.le_refl _, Nat.le_refl _⟩
  | cons infos rest ih =>
    intro p a a' c c' h
    obtain ⟨a₁, c₁, _, h2, h3⟩ := h
    have := h2.le
    have := ih h3
    omega

theorem ListArray.same {m m' : Mem} {lists : List (List SymInfo)} : ∀ {p a a' c c' : Nat}, ListArray m p a a' c c' lists →
    Same m m' p (p + 8 * lists.length) → Same m m' a a' → Same m m' c c' → ListArray m' p a a' c c' lists := by
  induction lists with
  | nil => intro p a a' c c' h _ _ _; exact h
  | cons infos rest ih =>
    intro p a a' c c' h hp ha hc
    obtain ⟨a₁, c₁, h1, h2, h3⟩ := h
    rw [List.length_cons] at hp
    have l2 := h2.le
    have l3 := h3.le
    exact ⟨a₁, c₁, h1.same (hp.sub (by omega) (by omega)), h2.same (ha.sub (by omega) (by omega)) (hc.sub (by omega) (by omega)),
      ih h3 (hp.sub (by omega) (by omega)) (ha.sub (by omega) (by omega)) (hc.sub (by omega) (by omega))⟩

/-- A result that was handed out, with its size in front of it. -/
structure ListsThere (m : Mem) (g : Given (List (List SymInfo))) : Prop where
  low : 8 < g.ptr
  blocks : g.blocks = [⟨g.ptr - 8, listsBufSize g.result, 8⟩]
  size : NumAt m (g.ptr - 8) 8 (listsBufSize g.result)
  arr : ∃ (c : Nat), ListArray m g.ptr (g.ptr + 8 * g.result.length) c c (g.ptr - 8 + listsBufSize g.result) g.result

theorem listsBufSize_ge (lists : List (List SymInfo)) : 8 + 8 * lists.length ≤ listsBufSize lists := by
  rw [listsBufSize, arraySize]
  omega

theorem ListsThere.at {m : Mem} {g : Given (List (List SymInfo))} (h : ListsThere m g) : ListsAt m g.ptr g.result := by
  obtain ⟨c, hc⟩ := h.arr
  exact ⟨_, _, _, _, hc⟩

theorem ListsThere.same {m m' : Mem} {g : Given (List (List SymInfo))} (h : ListsThere m g)
    (hs : Same m m' (g.ptr - 8) (g.ptr - 8 + listsBufSize g.result)) : ListsThere m' g := by
  obtain ⟨c, hc⟩ := h.arr
  have hlow := h.low
  have := listsBufSize_ge g.result
  obtain ⟨l1, l2⟩ := hc.le
  exact ⟨hlow, h.blocks, h.size.same (hs.sub (by omega) (by omega)), c,
    hc.same (hs.sub (by omega) (by omega)) (hs.sub (by omega) (by omega)) (hs.sub (by omega) (by omega))⟩

theorem listsThere_stable : Stable ListsThere := by
  refine ⟨?_, ?_, ?_⟩
  · intro m m' g h hu
    refine h.same fun x h1 h2 => ?_
    rw [h.blocks] at hu
    exact hu _ (List.mem_singleton_self _) x h1 h2
  · intro m g g' h h' he
    have := listsBufSize_ge g.result
    have := listsBufSize_ge g'.result
    refine ⟨⟨g.ptr - 8, listsBufSize g.result, 8⟩, ⟨g'.ptr - 8, listsBufSize g'.result, 8⟩, ?_, ?_, ?_, ?_, ?_⟩
    · rw [h.blocks]; exact List.mem_singleton_self _
    · rw [h'.blocks]; exact List.mem_singleton_self _
    · simp only [he]
    · simp only; omega
    · simp only; omega
  · intro m g h
    have := h.low
    omega

theorem convertSymLists_spec {alloc : Nat → Option Nat} (ha : GoodAlloc alloc) {lists : List (List SymInfo)}
    (hf : ∀ (infos : List SymInfo), infos ∈ lists → ∀ (info : SymInfo), info ∈ infos → SymInfo.Fits info)
    (hlayout : listsBufSize lists ≤ 2 ^ 63 - 8) {base : Nat} (hb : alloc (listsBufSize lists) = some base) :
    ∃ (m : Mem) (x y c : Nat), convertSymLists alloc lists = .ok (some (base + 8, ⟨⟨base, listsBufSize lists, m⟩, x, y⟩))
      ∧ NumAt m base 8 (listsBufSize lists)
      ∧ ListArray m (base + 8) (base + 8 + 8 * lists.length) c c (base + listsBufSize lists) lists := by
  obtain ⟨h0, hpos, hend⟩ := ha _ _ hb
  have harr : arraySize lists = 8 * lists.length := by simp only [arraySize]; omega
  have hsize : listsBufSize lists = 8 + 8 * lists.length + 64 * infoCount lists + listsStrSize lists := by
    rw [listsBufSize, harr]
  generalize hbs : listsBufSize lists = bs at *
  obtain ⟨m0, hm0⟩ : ∃ (m : Mem), m = Mem.set (fun _ => none) base (leBytes 8 bs) := ⟨_, rfl⟩
  have n0 : NumAt m0 base 8 bs := hm0 ▸ numAt_set _ base 8 bs (by omega)
  obtain ⟨m2, e2, t2, s2⟩ := convertLists_spec
    (st := ⟨⟨base, bs, m0⟩, base + 8 + (8 * lists.length + 64 * infoCount lists), base + 8 + 8 * lists.length⟩)
    (ptr := base + 8) lists
    (by omega) (by simp only; omega) (by simp only; omega) (by simp only; omega) (by simp only; omega)
    (by simp only; omega) hend hf
  simp only at e2 t2 s2
  refine ⟨m2, base + bs, base + 8 + (8 * lists.length + 64 * infoCount lists),
    base + 8 + (8 * lists.length + 64 * infoCount lists), ?_, ?_, ?_⟩
  · rw [convertSymLists, hbs, allocate, if_neg (by omega), hb]
    simp only [bind, Except.bind, Option.map_some]
    rw [storeNum_eq _ h0 (by simp only; omega) (by simp only; omega)]
    simp only [← hm0, harr]
    rw [show symInfoSize = 64 from rfl, e2]
    simp only [pure, Except.pure, Except.ok.injEq, Option.some.injEq, Prod.mk.injEq, Cur.mk.injEq, true_and]
    omega
  · exact n0.same (s2 _ _ (by omega) (by omega) (by omega))
  · rw [show base + 8 + (8 * lists.length + 64 * infoCount lists) + listsStrSize lists = base + bs by omega,
      show base + 8 + 8 * lists.length + 64 * infoCount lists = base + 8 + (8 * lists.length + 64 * infoCount lists) by omega] at t2
    exact t2

/-- The buffer with a result becomes part of the memory. -/
theorem lists_handed {alloc : Allocator} (ha : GoodAllocator alloc) {s : Store} (hs : s.Valid)
    {lists : List (List SymInfo)}
    (hf : ∀ (infos : List SymInfo), infos ∈ lists → ∀ (info : SymInfo), info ∈ infos → SymInfo.Fits info)
    (hl : listsBufSize lists ≤ 2 ^ 63 - 8) {base : Nat} (hb : alloc s (listsBufSize lists) 8 = some base) :
    ∃ (st : Cur) (s' : Store), convertSymLists (fun size => alloc s size 8) lists = .ok (some (base + 8, st))
      ∧ s.take (.buffer (base + 8) st) = (base + 8, s') ∧ Ext s s' [⟨base, listsBufSize lists, 8⟩]
      ∧ s'.blocks = ⟨base, listsBufSize lists, 8⟩ :: s.blocks
      ∧ ListsThere s'.mem ⟨base + 8, lists, [⟨base, listsBufSize lists, 8⟩]⟩ := by
  obtain ⟨g1, g2, g3, _⟩ := ha _ _ _ _ hb
  obtain ⟨m, x, y, c, hok, n0, harr⟩ := convertSymLists_spec (alloc := fun size => alloc s size 8)
    (fun size b hb => ⟨(ha _ _ _ _ hb).1, (ha _ _ _ _ hb).2.1, (ha _ _ _ _ hb).2.2.1⟩) hf hl hb
  obtain ⟨content, hcontent⟩ : ∃ (c : List (Option UInt8)),
    c = (List.range (listsBufSize lists)).map fun i => m (base + i) := ⟨_, rfl⟩
  have hlen : content.length = listsBufSize lists := by rw [hcontent, List.length_map, List.length_range]
  have hpos := listsBufSize_ge lists
  have hne : content ≠ [] := by intro h; rw [h, List.length_nil] at hlen; omega
  have hext := alloc_ext ha hs (align := 8) hne (by rw [hlen]; exact hb)
  have hsame : Same m (s.mem.fill base content) base (base + listsBufSize lists) := by
    intro x h1 h2
    have := fill_holds s.mem base content (x - base) (by omega)
    rw [show base + (x - base) = x by omega] at this
    rw [this, hcontent, List.getElem?_map, List.getElem?_range (by omega)]
    simp only [Option.map_some, Option.join_some]
    rw [show base + (x - base) = x by omega]
  rw [hlen] at hext
  refine ⟨_, ⟨s.mem.fill base content, ⟨base, listsBufSize lists, 8⟩ :: s.blocks⟩, hok, ?_, hext, rfl, ?_⟩
  · rw [hcontent]; rfl
  · have h : ListsThere m ⟨base + 8, lists, [⟨base, listsBufSize lists, 8⟩]⟩ :=
      ⟨by simp only; omega, by simp, by simpa using n0, c, by simpa using harr⟩
    exact h.same (by simpa using hsame)

/-- Freeing a result. -/
theorem listsFree_spec (s : Store) (g : Given (List (List SymInfo))) (rest : List Block) (hs : s.Valid) (h : ListsThere s.mem g)
    (hm : s.blocks.Perm (g.blocks ++ rest)) :
    ∃ (t : Store), s.freeSyms g.ptr = .ok t ∧ t.blocks.Perm rest ∧ t.Valid ∧ Unchanged s.mem t.mem rest := by
  have hlow := h.low
  have hpos := listsBufSize_ge g.result
  obtain ⟨t, k1, k2⟩ := free_spec (s := s) (a := g.ptr - 8) (size := listsBufSize g.result) (align := 8) (by
    intro b hb
    rw [owned, if_neg (by omega)] at hb
    rw [hm.mem_iff, h.blocks]
    exact List.mem_append_left _ hb)
  rw [owned, if_neg (by omega), ← h.blocks] at k2
  have hp : t.blocks.Perm rest := (List.perm_append_left_iff g.blocks).1 (k2.blocks.symm.trans hm)
  refine ⟨t, ?_, hp, k2.valid hs, (k2.kept hs).mono fun b hb => hp.mem_iff.2 hb⟩
  rw [Store.freeSyms, symsFree, if_neg (by omega), show s.mem.num (g.ptr - 8) 8 = some (listsBufSize g.result) from h.size]
  exact k1

/-! ## The functions -/

section
variable {tools : Dwarf.Tools} {size : Nat} {alloc : Allocator} {ok : World M → Inspect.Source → Prop} {host : InspHost M}
  {gs : List (Given (List (List SymInfo)))} {os : List Block}

/-- The inspectors there are. -/
def InspReach (tools : Dwarf.Tools) (ok : World M → Inspect.Source → Prop) (_ : Unit) (s : Inspector M) : Prop :=
  Reachable tools ok s

theorem inspect_eq {w : World M} {thread : Nat} {o : Tool Unit (Inspector M)} (ho : host.tool o.addr = .ok o)
    {src names cnt : Nat} {path : Bytes} {debugSyms : Bool} {strs : List Bytes}
    (h : InspectArgs host.store.mem src names cnt path debugSyms strs) :
    inspectIn tools alloc w host thread o.addr src names cnt =
      (do
        let strs ← utf8Strings strs
        match ← outcome (o.state.lookup tools w (.elf path debugSyms) strs).1 with
        | .ok lists =>
          let buf ← convertSymLists (fun size => alloc host.store size 8) lists
          return ((host.store.take (reportBuffer buf).1).1, host.next o.addr (o.state.lookup tools w (.elf path debugSyms) strs).2
            thread (reportBuffer buf).2 (host.store.take (reportBuffer buf).1).2)
        | .error e =>
          return (0, host.next o.addr (o.state.lookup tools w (.elf path debugSyms) strs).2 thread (errCode e) host.store)) := by
  obtain ⟨hi, ptrs, hp, hf⟩ := h
  unfold inspectIn
  simp only [bind, Except.bind, hi, ho, hp, cstrings_of hf]
  rfl

/-- What the function for looking up symbols does. -/
theorem inspect_cases (ha : GoodAllocator alloc) {w : World M} (hv : host.store.Valid) {thread : Nat}
    {o : Tool Unit (Inspector M)} (ho : host.tool o.addr = .ok o)
    {src names cnt : Nat} {path : Bytes} {debugSyms : Bool} {strs : List Bytes}
    (h : InspectArgs host.store.mem src names cnt path debugSyms strs) (hu : ∀ (s : Bytes), s ∈ strs → isUtf8 s = true)
    {r : Except Err (List (List SymInfo))} {state : Inspector M}
    (hr : o.state.lookup tools w (.elf path debugSyms) strs = (r, state)) :
    (r = .error .panic → inspectIn tools alloc w host thread o.addr src names cnt = .error .abort) ∧
    (∀ (e : Err), e ≠ .panic → r = .error e → inspectIn tools alloc w host thread o.addr src names cnt
      = .ok (0, host.next o.addr state thread (errCode (kindOfErr e)) host.store)) ∧
    ∀ (lists : List (List SymInfo)), r = .ok lists → FitLists r →
      (2 ^ 63 - 8 < listsBufSize lists → inspectIn tools alloc w host thread o.addr src names cnt = .error .badLayout) ∧
      (listsBufSize lists ≤ 2 ^ 63 - 8 → alloc host.store (listsBufSize lists) 8 = none →
        inspectIn tools alloc w host thread o.addr src names cnt = .ok (0, host.next o.addr state thread (-12) host.store)) ∧
      ∀ (base : Nat), listsBufSize lists ≤ 2 ^ 63 - 8 → alloc host.store (listsBufSize lists) 8 = some base →
        ∃ (store : Store), inspectIn tools alloc w host thread o.addr src names cnt
          = .ok (base + 8, host.next o.addr state thread 0 store)
        ∧ Ext host.store store [⟨base, listsBufSize lists, 8⟩] ∧ store.blocks = ⟨base, listsBufSize lists, 8⟩ :: host.store.blocks
        ∧ ListsThere store.mem ⟨base + 8, lists, [⟨base, listsBufSize lists, 8⟩]⟩ := by
  have heq := inspect_eq (tools := tools) (alloc := alloc) (w := w) (thread := thread) ho h
  rw [utf8Strings_of hu] at heq
  simp only [bind, Except.bind, hr] at heq
  refine ⟨?_, ?_, ?_⟩
  · rintro rfl
    rw [heq]; rfl
  · rintro e he rfl
    rw [heq, outcome_error he]; rfl
  · rintro lists rfl hfit
    rw [heq, outcome_ok]
    simp only
    refine ⟨fun hl => ?_, fun hl hn => ?_, fun base hl hb => ?_⟩
    · rw [(C46_symbol_lists_otherwise (fun size => alloc host.store size 8) lists).2 hl]
    · rw [(C46_symbol_lists_otherwise (fun size => alloc host.store size 8) lists).1 hl hn]
      rfl
    · obtain ⟨st, s', k1, k2, k3, k4, k5⟩ := lists_handed ha hv (hfit lists rfl) hl hb
      refine ⟨s', ?_, k3, k4, k5⟩
      rw [k1]
      simp only [reportBuffer, k2]
      rfl

/-- A request reaches the inspector, or the options are refused, or the call does not come back. -/
theorem inspectIn_inv {w : World M} {thread insp src names cnt ret : Nat} {host' : InspHost M}
    (hc : inspectIn tools alloc w host thread insp src names cnt = .ok (ret, host')) :
    (∃ (e : ErrorKind), inputAs host.store.mem src .inspectElf (inspectElf host.store.mem) = .ok (.error e) ∧ ret = 0
      ∧ host' = host.report thread (errCode e)) ∨
    ∃ (o : Tool Unit (Inspector M)) (path : Bytes) (debugSyms : Bool) (strs : List Bytes), host.tool insp = .ok o
      ∧ InspectArgs host.store.mem src names cnt path debugSyms strs ∧ ∀ (s : Bytes), s ∈ strs → isUtf8 s = true := by
  unfold inspectIn at hc
  cases hi : inputAs host.store.mem src .inspectElf (inspectElf host.store.mem) with
  | error f => rw [hi] at hc; cases hc
  | ok x =>
    rw [hi] at hc
    cases x with
    | error e =>
      cases hc
      exact .inl ⟨e, rfl, rfl, rfl⟩
    | ok x =>
      obtain ⟨path, debugSyms⟩ := x
      cases ho : host.tool insp with
      | error f => rw [ho] at hc; cases hc
      | ok o =>
        cases hx : userArray host.store.mem names 8 cnt with
        | error f => rw [ho, hx] at hc; cases hc
        | ok ptrs =>
          cases hs : cstrings host.store.mem ptrs with
          | error f => rw [ho, hx] at hc; simp only [bind, Except.bind, hs] at hc; cases hc
          | ok strs =>
            rw [ho, hx] at hc
            simp only [bind, Except.bind, hs] at hc
            cases hu : utf8Strings strs with
            | error f => rw [hu] at hc; cases hc
            | ok strs' =>
              exact .inr ⟨o, path, debugSyms, strs, rfl, ⟨hi, ptrs, hx, cstrings_inv hs⟩, (utf8Strings_inv hu).2⟩

theorem insp_step (ht : HostInv size ListsThere (InspReach tools ok) host gs os) (ha : GoodAllocator alloc)
    (hz : 0 < size) {w : World M} {thread ret : Nat} {c : InspCall} {host' : InspHost M} {gs' : List (Given (List (List SymInfo)))}
    (hab : InspAbides tools ok host gs w c) (hc : inspStep tools size alloc w thread host c = .ok (ret, host'))
    (hg : InspAccounts tools host host' w c ret gs gs') : HostInv size ListsThere (InspReach tools ok) host' gs' os := by
  cases c with
  | new =>
    have hg : gs' = gs := hg
    subst hg
    exact ht.create listsThere_stable ha hz (by exact Reachable.new) hc
  | free insp =>
    have hg : gs' = gs := hg
    subst hg
    exact ht.destroy listsThere_stable hz hc
  | symsFree syms =>
    obtain ⟨store, k1, k2, _⟩ := ht.release listsThere_stable listsFree_spec (fun _ => rfl) (hab.1 syms rfl) hg
    simp only [inspStep, k1, bind, Except.bind, pure, Except.pure, Except.ok.injEq, Prod.mk.injEq] at hc
    obtain ⟨_, rfl⟩ := hc
    exact k2
  | inspect insp src names cnt =>
    obtain ⟨lists, hl, hg⟩ := hg
    have hc : inspectIn tools alloc w host thread insp src names cnt = .ok (ret, host') := hc
    rcases inspectIn_inv hc with ⟨e, _, rfl, rfl⟩ | ⟨o, path, debugSyms, strs, ho, hargs, hu⟩
    · rcases hg with ⟨_, rfl⟩ | ⟨_, h0, _⟩
      · exact ht.report thread _
      · exact absurd rfl h0
    · obtain ⟨hm, rfl⟩ := tool_mem ho
      obtain ⟨hok, hfit⟩ := hab.2 o src names cnt path debugSyms strs hm rfl hargs
      replace hl := fun lists' => hl o path debugSyms strs lists' hm rfl hargs
      obtain ⟨r, state, hr⟩ : ∃ r state, o.state.lookup tools w (.elf path debugSyms) strs = (r, state) := ⟨_, _, rfl⟩
      have hreach : InspReach tools ok o.opts state := by
        have := Reachable.lookup o.state w (.elf path debugSyms) strs (ht.tools o hm) hok
        rw [hr] at this
        exact this
      rw [hr] at hfit hl
      simp only at hfit hl
      obtain ⟨c1, c2, c3⟩ := inspect_cases (tools := tools) (thread := thread) ha ht.valid ho hargs hu hr
      cases hrr : r with
      | error e =>
        by_cases hp : e = .panic
        · rw [c1 (by rw [hrr, hp])] at hc; cases hc
        · rw [c2 e hp hrr] at hc
          simp only [Except.ok.injEq, Prod.mk.injEq] at hc
          obtain ⟨rfl, rfl⟩ := hc
          exact ht.handed listsThere_stable hz hm hreach thread _ (Ext.refl ht.valid) hg (fun _ => rfl)
            (fun h => absurd rfl h)
      | ok lists' =>
        have := hl lists' hrr
        subst this
        obtain ⟨d1, d2, d3⟩ := c3 lists hrr hfit
        by_cases hs : listsBufSize lists ≤ 2 ^ 63 - 8
        · cases hal : alloc host.store (listsBufSize lists) 8 with
          | none =>
            rw [d2 hs hal] at hc
            simp only [Except.ok.injEq, Prod.mk.injEq] at hc
            obtain ⟨rfl, rfl⟩ := hc
            exact ht.handed listsThere_stable hz hm hreach thread _ (Ext.refl ht.valid) hg (fun _ => rfl)
              (fun h => absurd rfl h)
          | some base =>
            obtain ⟨store, k1, k2, _, k4⟩ := d3 base hs hal
            rw [k1] at hc
            simp only [Except.ok.injEq, Prod.mk.injEq] at hc
            obtain ⟨rfl, rfl⟩ := hc
            refine ht.handed listsThere_stable hz hm hreach thread _ k2 hg (fun h => by omega) ?_
            intro _ bs' hb
            have := List.perm_singleton.1 hb
            subst this
            exact k4
        · rw [d1 (by omega)] at hc; cases hc

theorem inv_of_inspRuns (ha : GoodAllocator alloc) (hz : 0 < size) (h : InspRuns tools size alloc ok host gs os) :
    HostInv size ListsThere (InspReach tools ok) host gs os :=
  hostInv_of_runs (step := inspStep tools size alloc) (abides := InspAbides tools ok) (accounts := InspAccounts tools)
    listsThere_stable (fun _ _ _ _ _ _ _ _ _ ih hab hc hg => insp_step ih ha hz hab hc hg) h

end

end Blazesym.CApi
