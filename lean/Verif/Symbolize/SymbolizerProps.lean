import Verif.Symbolize.SymbolizerSpec
import Verif.Normalize.WalkProps
import Verif.Util.ReorderProps
import Verif.PerfMap.Props

/-! Property theorems C42 (sources and inputs) and C43 (batches). -/

set_option autoImplicit false

namespace Blazesym.Symbolize
open Blazesym.Util Blazesym.Maps Blazesym.Normalize Blazesym.Spec.Symbolize Blazesym.Spec.Normalize

/-! ## One address with a resolver -/

theorem inlined_names (f : Bytes → Bytes) (l : List InlinedFn) :
    List.zipWith (fun (n : Bytes) (i : InlinedFn) => (⟨n, i.codeInfo⟩ : InlinedFn)) (l.map fun i => f i.name) l =
      l.map (fun i => { i with name := f i.name }) := by
  induction l with
  | nil => rfl
  | cons a t ih => simp only [List.map_cons, List.zipWith_cons_cons, ih]

/-- **C79** (scheme): the name shown for a symbol is the one the scheme of its language makes of it. -/
theorem C79_scheme (d : Demangler) (demangle : Bool) (l : SrcLang) (name name' : Bytes) :
    maybeDemangle d demangle l name = name' ↔ Shown d demangle l name name' := by
  constructor
  · rintro rfl
    unfold maybeDemangle maybeDemangleImpl
    cases demangle with
    | false => exact .asIs l name
    | true =>
      rw [if_pos rfl]
      cases l with
      | rust =>
        cases h : d.rust name with
        | none => exact .unrecognised _ _ (fun _ => h) (fun h => absurd rfl h)
        | some x => exact .rust _ _ _ (by simp) h
      | cpp =>
        cases h : d.cpp name with
        | none => exact .unrecognised _ _ (fun h => absurd rfl h) (fun _ => h)
        | some x => exact .cpp _ _ h
      | unknown =>
        cases h : d.rust name with
        | some x => simp only [h]; exact .rust _ _ _ (by simp) h
        | none =>
          cases h' : d.cpp name with
          | none => simp only [h, h']; exact .unrecognised _ _ (fun _ => h) (fun _ => h')
          | some x => simp only [h, h']; exact .otherwise _ _ h h'
  · intro h
    unfold maybeDemangle maybeDemangleImpl
    cases h with
    | asIs => rfl
    | rust _ _ _ hl hr => cases l <;> simp_all
    | cpp _ _ hc => simp [hc]
    | otherwise _ _ hr hc => simp [hr, hc]
    | unrecognised _ _ hr hc => cases l <;> simp_all

/-- The relation is the table. -/
theorem shownName_iff (d : Demangler) (demangle : Bool) (l : SrcLang) (name name' : Bytes) :
    shownName d demangle l name = name' ↔ Shown d demangle l name name' := by
  rw [← C79_scheme]
  cases demangle
  · rfl
  · cases l
    · simp only [shownName, maybeDemangle, maybeDemangleImpl, if_true]
      cases d.rust name <;> rfl
    · rfl
    · rfl

theorem maybeDemangle_eq (d : Demangler) (demangle : Bool) (l : SrcLang) :
    maybeDemangle d demangle l = shownName d demangle l := by
  funext name
  exact (C79_scheme d demangle l name _).mpr ((shownName_iff d demangle l name _).mp rfl)

example : Shown ⟨fun n => if n = [1] then some [2] else none, fun n => if n = [3] then some [4] else none⟩ true .unknown
    [3] [4] := .otherwise _ _ rfl rfl

/-- **C44** (one address): what is reported for an address is what the resolver has for it. -/
theorem C44_looked (env : Env) (find : SymFn) (addr : Nat) (out : Except Err Symbolized) :
    env.symbolizeWith addr find = out ↔ Looked env find addr out := by
  have key : Looked env find addr (env.symbolizeWith addr find) := by
    unfold Env.symbolizeWith symbolizeWithResolver
    cases hf : find addr env.opts with
    | error e => exact .error e hf
    | ok r =>
      cases r with
      | error r => exact .reason r hf
      | ok s =>
        simp only [convertSym, subU]
        by_cases h : s.addr ≤ addr
        · rw [if_pos h]
          have := Looked.sym (env := env) s _ _ hf h rfl rfl
          rw [inlined_names (shownName env.demangler env.demangle s.lang)] at this
          rw [maybeDemangle_eq]
          exact this
        · rw [if_neg h]
          exact .behind s hf (by omega)
  constructor
  · rintro rfl; exact key
  · intro h
    generalize env.symbolizeWith addr find = o at key
    cases h with
    | sym s name names h1 h2 h3 h4 =>
      cases key with
      | sym s' name' names' g1 g2 g3 g4 =>
        have : s' = s := by rw [h1] at g1; simpa using g1.symm
        subst this; subst h3; subst h4; subst g3; subst g4; rfl
      | reason r g => rw [h1] at g; simp at g
      | error e g => rw [h1] at g; simp at g
      | behind s' g g' =>
        have : s' = s := by rw [h1] at g; simpa using g.symm
        subst this; omega
    | reason r h1 =>
      cases key with
      | sym s' name' names' g1 g2 g3 g4 => rw [h1] at g1; simp at g1
      | reason r g => rw [h1] at g; simp at g; rw [g]
      | error e g => rw [h1] at g; simp at g
      | behind s' g g' => rw [h1] at g; simp at g
    | error e h1 =>
      cases key with
      | sym s' name' names' g1 g2 g3 g4 => rw [h1] at g1; simp at g1
      | reason r g => rw [h1] at g; simp at g
      | error e g => rw [h1] at g; simp at g; rw [g]
      | behind s' g g' => rw [h1] at g; simp at g
    | behind s h1 h2 =>
      cases key with
      | sym s' name' names' g1 g2 g3 g4 =>
        have : s' = s := by rw [h1] at g1; simpa using g1.symm
        subst this; omega
      | reason r g => rw [h1] at g; simp at g
      | error e g => rw [h1] at g; simp at g
      | behind s' g g' => rfl

/-- **C44** (one offset): an offset in a file is translated to an address by the file's resolver,
and what is reported is what the resolver has for that address. -/
theorem C44_looked_at (env : Env) (r : Resolver) (off : Nat) (out : Except Err Symbolized) :
    env.symbolizeOffset r off = out ↔ LookedAt env r off out := by
  unfold Env.symbolizeOffset
  cases ht : r.toVirt off with
  | error e =>
    constructor
    · rintro rfl; exact .error e ht
    · intro h
      cases h with
      | found a o h1 h2 => rw [ht] at h1; simp at h1
      | nowhere h1 => rw [ht] at h1; simp at h1
      | error e' h1 => rw [ht] at h1; simpa using h1
  | ok v =>
    cases v with
    | none =>
      constructor
      · rintro rfl; exact .nowhere ht
      · intro h
        cases h with
        | found a o h1 h2 => rw [ht] at h1; simp at h1
        | nowhere h1 => rfl
        | error e' h1 => rw [ht] at h1; simp at h1
    | some v =>
      simp only
      rw [C44_looked]
      constructor
      · intro h; exact .found v _ ht h
      · intro h
        cases h with
        | found a o h1 h2 =>
          rw [ht] at h1
          have : v = a := by simpa using h1
          subst this; exact h2
        | nowhere h1 => rw [ht] at h1; simp at h1
        | error e' h1 => rw [ht] at h1; simp at h1

/-! ## C42: sources and inputs -/

/-- **C42** (refused): a source refuses kinds of input it does not take as unsupported, for single
addresses and for batches (even empty ones).  Missing for the full property: an ELF file that cannot be
opened, see `C42_unopened_elf_wrong`. -/
theorem C42_refused_partial (env : Env) (src : Source) (kind : Kind) (hk : accepts src kind = false)
    (ho : ∀ path debugSyms, src = .elf path debugSyms → ∃ r, env.elf path path debugSyms = .ok r) :
    (∀ addr, symbolizeSingle env src (kind.of addr) = .error .unsupported) ∧
      ∀ addrs, symbolize env src (kind.of addrs) = .error .unsupported := by
  cases src with
  | elf path debugSyms =>
    obtain ⟨r, hr⟩ := ho path debugSyms rfl
    cases kind <;> simp [accepts] at hk
    constructor
    · intro addr; simp [symbolizeSingle, Kind.of, Input.map, symbolizeImpl, hr]
    · intro addr; simp [symbolize, Kind.of, symbolizeImpl, hr]
  | _ =>
    cases kind <;> simp [accepts] at hk
    all_goals
      constructor
      · intro addr; simp [symbolizeSingle, Kind.of, Input.map, symbolizeImpl]
      · intro addr; simp [symbolize, Kind.of, symbolizeImpl]

/-- **C42 does not hold**: absolute addresses are not a kind of input for ELF files, but if the file
cannot be opened that is what is reported, not that they are unsupported. -/
theorem C42_unopened_elf_wrong (env : Env) (path : Bytes) (debugSyms : Bool) (e : Err)
    (he : env.elf path path debugSyms = .error e) :
    accepts (.elf path debugSyms) .absAddr = false ∧
      (∀ addr, symbolizeSingle env (.elf path debugSyms) (.absAddr addr) = .error e) ∧
        ∀ addrs, symbolize env (.elf path debugSyms) (.absAddr addrs) = .error e := by
  refine ⟨rfl, ?_, ?_⟩
  · intro addr; simp [symbolizeSingle, Input.map, symbolizeImpl, he]
  · intro addr; simp [symbolize, symbolizeImpl, he]

theorem orElse_keep (r : Except Err Symbolized) : orElse (fun e => .error e) r = r := by
  unfold orElse
  cases r with
  | ok s => rfl
  | error e => cases e <;> rfl

/-- **C42** (offsets in an ELF file): looked up as such, with the translation of the file. -/
theorem C42_elf_file_offset (env : Env) (path : Bytes) (debugSyms : Bool) (r : Resolver) (off : Nat)
    (out : Except Err Symbolized) (hr : env.elf path path debugSyms = .ok r) :
    symbolizeSingle env (.elf path debugSyms) (.fileOffset off) = out ↔ LookedAt env r off out := by
  rw [← C44_looked_at]
  simp [symbolizeSingle, Input.map, symbolizeImpl, hr, orElse_keep]

/-- **C42** (virtual offsets in an ELF file): looked up as they are. -/
theorem C42_elf_virt_offset (env : Env) (path : Bytes) (debugSyms : Bool) (r : Resolver) (addr : Nat)
    (out : Except Err Symbolized) (hr : env.elf path path debugSyms = .ok r) :
    symbolizeSingle env (.elf path debugSyms) (.virtOffset addr) = out ↔ Looked env r.find addr out := by
  rw [← C44_looked]
  simp [symbolizeSingle, Input.map, symbolizeImpl, hr, orElse_keep]

/-- **C42** (APK): an offset in an APK is looked up in the member it lies in. -/
theorem C42_apk (env : Env) (path : Bytes) (debugSyms : Bool) (off : Nat) :
    (∀ find addr out, env.apk path path off debugSyms = .ok (some (find, addr)) →
      (symbolizeSingle env (.apk path debugSyms) (.fileOffset off) = out ↔ Looked env find addr out)) ∧
    (env.apk path path off debugSyms = .ok none →
      symbolizeSingle env (.apk path debugSyms) (.fileOffset off) = .ok (.unknown .invalidFileOffset)) ∧
    (∀ e, env.apk path path off debugSyms = .error e →
      symbolizeSingle env (.apk path debugSyms) (.fileOffset off) = .error e) := by
  refine ⟨?_, ?_, ?_⟩
  · intro find addr out h
    rw [← C44_looked]
    simp [symbolizeSingle, Input.map, symbolizeImpl, orElse_keep, Env.symbolizeApk, h]
  · intro h
    simp [symbolizeSingle, Input.map, symbolizeImpl, orElse_keep, Env.symbolizeApk, h]
  · intro e h
    simp [symbolizeSingle, Input.map, symbolizeImpl, orElse_keep, Env.symbolizeApk, h]

/-- **C42** (Breakpad): addresses are offsets in the file, looked up as they are. -/
theorem C42_breakpad (env : Env) (path : Bytes) (find : SymFn) (addr : Nat) (out : Except Err Symbolized)
    (hr : env.breakpad path = .ok find) :
    symbolizeSingle env (.breakpad path) (.fileOffset addr) = out ↔ Looked env find addr out := by
  rw [← C44_looked]
  simp [symbolizeSingle, Input.map, symbolizeImpl, hr, orElse_keep]

/-- **C42** (kernel): absolute addresses, looked up as they are. -/
theorem C42_kernel (env : Env) (src : KernelSource) (find : SymFn) (addr : Nat) (out : Except Err Symbolized)
    (hr : env.kernel src = .ok find) :
    symbolizeSingle env (.kernel src) (.absAddr addr) = out ↔ Looked env find addr out := by
  rw [← C44_looked]
  simp [symbolizeSingle, Input.map, symbolizeImpl, hr, orElse_keep]

/-- **C42** (GSYM): virtual offsets, looked up as they are. -/
theorem C42_gsym (env : Env) (b : Bytes) (find : SymFn) (addr : Nat) (out : Except Err Symbolized) :
    (env.gsymData b = .ok find →
      (symbolizeSingle env (.gsymData b) (.virtOffset addr) = out ↔ Looked env find addr out)) ∧
    (env.gsymFile b = .ok find →
      (symbolizeSingle env (.gsymFile b) (.virtOffset addr) = out ↔ Looked env find addr out)) := by
  constructor
  all_goals
    intro hr
    rw [← C44_looked]
    simp [symbolizeSingle, Input.map, symbolizeImpl, hr, orElse_keep]

/-! ## C43: batches -/

/-- The outcome that stands in a batch for the one of a single request. -/
def Folded (single : Except Err Symbolized) (out : Symbolized) : Prop :=
  single = .ok out ∨ (∃ e, e ≠ Err.panic ∧ single = .error e) ∧ out = .unknown .ignoredError

/-- Sources other than processes look every address up on its own. -/
theorem impl_shape (env : Env) (src : Source) (kind : Kind) (hs : ∀ p, src ≠ .process p) :
    ∃ g : Except Err (Nat → Except Err Symbolized), ∀ fold addrs,
      symbolizeImpl env src (kind.of addrs) fold =
        (match g with
          | .error e => .error e
          | .ok f => .ok (addrs.map fun a => orElse fold (f a))) := by
  cases src with
  | process p => exact absurd rfl (hs p)
  | apk path d =>
    cases kind
    · exact ⟨.error .unsupported, fun _ _ => rfl⟩
    · exact ⟨.error .unsupported, fun _ _ => rfl⟩
    · exact ⟨.ok (fun off => env.symbolizeApk path path off d), fun _ _ => rfl⟩
  | breakpad path =>
    cases kind
    · exact ⟨.error .unsupported, fun _ _ => rfl⟩
    · exact ⟨.error .unsupported, fun _ _ => rfl⟩
    · cases h : env.breakpad path with
      | error e => exact ⟨.error e, fun _ _ => by simp [Kind.of, symbolizeImpl, h]⟩
      | ok f => exact ⟨.ok (fun addr => env.symbolizeWith addr f), fun _ _ => by simp [Kind.of, symbolizeImpl, h]⟩
  | elf path d =>
    cases h : env.elf path path d with
    | error e => exact ⟨.error e, fun _ _ => by simp [symbolizeImpl, h]⟩
    | ok r =>
      cases kind
      · exact ⟨.error .unsupported, fun _ _ => by simp [Kind.of, symbolizeImpl, h]⟩
      · exact ⟨.ok (fun addr => env.symbolizeWith addr r.find), fun _ _ => by simp [Kind.of, symbolizeImpl, h]⟩
      · exact ⟨.ok (fun off => env.symbolizeOffset r off), fun _ _ => by simp [Kind.of, symbolizeImpl, h]⟩
  | kernel k =>
    cases kind
    · cases h : env.kernel k with
      | error e => exact ⟨.error e, fun _ _ => by simp [Kind.of, symbolizeImpl, h]⟩
      | ok f => exact ⟨.ok (fun addr => env.symbolizeWith addr f), fun _ _ => by simp [Kind.of, symbolizeImpl, h]⟩
    · exact ⟨.error .unsupported, fun _ _ => rfl⟩
    · exact ⟨.error .unsupported, fun _ _ => rfl⟩
  | gsymData k =>
    cases kind
    · exact ⟨.error .unsupported, fun _ _ => rfl⟩
    · cases h : env.gsymData k with
      | error e => exact ⟨.error e, fun _ _ => by simp [Kind.of, symbolizeImpl, h]⟩
      | ok f => exact ⟨.ok (fun addr => env.symbolizeWith addr f), fun _ _ => by simp [Kind.of, symbolizeImpl, h]⟩
    · exact ⟨.error .unsupported, fun _ _ => rfl⟩
  | gsymFile k =>
    cases kind
    · exact ⟨.error .unsupported, fun _ _ => rfl⟩
    · cases h : env.gsymFile k with
      | error e => exact ⟨.error e, fun _ _ => by simp [Kind.of, symbolizeImpl, h]⟩
      | ok f => exact ⟨.ok (fun addr => env.symbolizeWith addr f), fun _ _ => by simp [Kind.of, symbolizeImpl, h]⟩
    · exact ⟨.error .unsupported, fun _ _ => rfl⟩

theorem kind_map {α β : Type} (kind : Kind) (f : α → β) (x : α) : (kind.of x).map f = kind.of (f x) := by
  cases kind <;> rfl

theorem collect_folded (f : Nat → Except Err Symbolized) (addrs : List Nat) :
    (∃ outs, collect (addrs.map fun a => orElse (fun _ => .ok (.unknown .ignoredError)) (f a)) = .ok outs ∧
      List.Forall₂ (fun a o => Folded (f a) o) addrs outs) ∨
    (collect (addrs.map fun a => orElse (fun _ => .ok (.unknown .ignoredError)) (f a)) = .error .panic ∧
      ∃ a ∈ addrs, f a = .error .panic) := by
  induction addrs with
  | nil => exact Or.inl ⟨[], rfl, .nil⟩
  | cons a t ih =>
    have step : (∃ o, orElse (fun _ => .ok (.unknown .ignoredError)) (f a) = .ok o ∧ Folded (f a) o) ∨
        (orElse (fun _ => .ok (.unknown .ignoredError)) (f a) = .error .panic ∧ f a = .error .panic) := by
      cases h : f a with
      | ok s => exact Or.inl ⟨s, rfl, Or.inl rfl⟩
      | error e =>
        by_cases he : e = .panic
        · subst he; exact Or.inr ⟨rfl, rfl⟩
        · refine Or.inl ⟨.unknown .ignoredError, ?_, Or.inr ⟨⟨e, he, rfl⟩, rfl⟩⟩
          cases e <;> first | rfl | exact absurd rfl he
    rcases step with ⟨o, h1, h2⟩ | ⟨h1, h2⟩
    · rcases ih with ⟨outs, g1, g2⟩ | ⟨g1, b, hb, g2⟩
      · exact Or.inl ⟨o :: outs, by simp only [List.map_cons, h1, collect, g1], .cons h2 g2⟩
      · exact Or.inr ⟨by simp only [List.map_cons, h1, collect, g1], b, List.mem_cons_of_mem _ hb, g2⟩
    · exact Or.inr ⟨by simp only [List.map_cons, h1, collect], a, List.mem_cons_self, h2⟩

/-- **C43** (batches): for sources other than processes a batch has one result per address, in their
order; each is that of a single request for the address, or the marker for an ignored error if that
one fails. -/
theorem C43_batch (env : Env) (src : Source) (kind : Kind) (addrs : List Nat) (outs : List Symbolized)
    (hs : ∀ p, src ≠ .process p) (h : symbolize env src (kind.of addrs) = .ok outs) :
    List.Forall₂ (fun a o => Folded (symbolizeSingle env src (kind.of a)) o) addrs outs := by
  obtain ⟨g, hg⟩ := impl_shape env src kind hs
  unfold symbolize at h
  rw [hg] at h
  cases g with
  | error e => simp at h
  | ok f =>
    simp only at h
    rcases collect_folded f addrs with ⟨outs', h1, h2⟩ | ⟨h1, _⟩
    · rw [h1] at h
      have : outs' = outs := by simpa using h
      subst this
      refine h2.imp ?_
      intro a o ho
      have : symbolizeSingle env src (kind.of a) = f a := by
        unfold symbolizeSingle
        rw [kind_map, hg]
        simp only [List.map_cons, List.map_nil, orElse_keep]
      rw [this]; exact ho
    · rw [h1] at h; simp at h

/-- **C43** (failing batches): for sources other than processes a batch only fails with an error that
every single request gives as well; if it panics so does a single request. -/
theorem C43_batch_error (env : Env) (src : Source) (kind : Kind) (addrs : List Nat) (e : Err)
    (hs : ∀ p, src ≠ .process p) (h : symbolize env src (kind.of addrs) = .error e) :
    (∀ a, symbolizeSingle env src (kind.of a) = .error e) ∨
      (e = .panic ∧ ∃ a ∈ addrs, symbolizeSingle env src (kind.of a) = .error .panic) := by
  obtain ⟨g, hg⟩ := impl_shape env src kind hs
  unfold symbolize at h
  rw [hg] at h
  cases g with
  | error e' =>
    have : e' = e := by simpa using h
    subst this
    left
    intro a
    unfold symbolizeSingle
    rw [kind_map, hg]
  | ok f =>
    simp only at h
    have hsingle : ∀ a, symbolizeSingle env src (kind.of a) = f a := by
      intro a
      unfold symbolizeSingle
      rw [kind_map, hg]
      simp only [List.map_cons, List.map_nil, orElse_keep]
    rcases collect_folded f addrs with ⟨outs', h1, h2⟩ | ⟨h1, a, ha, h2⟩
    · rw [h1] at h; simp at h
    · rw [h1] at h
      have : Err.panic = e := by simpa using h
      exact Or.inr ⟨this.symm, a, ha, by rw [hsingle, h2]⟩

/-- **C43** (one failure does not fail the batch): if one address can be symbolized on its own, and
none makes a single request panic, then so can the batch. -/
theorem C43_batch_ok (env : Env) (src : Source) (kind : Kind) (addrs : List Nat) (a : Nat) (s : Symbolized)
    (hs : ∀ p, src ≠ .process p) (ha : symbolizeSingle env src (kind.of a) = .ok s)
    (hp : ∀ b ∈ addrs, symbolizeSingle env src (kind.of b) ≠ .error .panic) :
    ∃ outs, symbolize env src (kind.of addrs) = .ok outs := by
  cases h : symbolize env src (kind.of addrs) with
  | ok outs => exact ⟨outs, rfl⟩
  | error e =>
    rcases C43_batch_error env src kind addrs e hs h with h1 | ⟨_, b, hb, h1⟩
    · rw [h1] at ha; simp at ha
    · exact absurd h1 (hp b hb)

end Blazesym.Symbolize
