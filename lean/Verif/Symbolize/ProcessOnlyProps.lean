import Verif.Symbolize.ProcessProps

/-! # C44, C102: which options of a process source matter for which mappings -/

set_option autoImplicit false

namespace Blazesym.Symbolize
open Blazesym.Util Blazesym.Maps Blazesym.Normalize Blazesym.Spec.Symbolize Blazesym.Spec.Normalize

/-- **C44** (only the vDSO uses the vDSO): the outcome for an address in another mapping depends neither on what the
vDSO is nor on whether it is to be used. -/
theorem C44_vdso_only_vdso (env : Env) (src : ProcessSource) (es : List Entry) (addr : Nat) (e : Entry)
    (vdso : Nat → Nat → Nat → Except Err Resolver) (b : Bool)
    (hm : env.maps src.pid = .ok (es.map .ok)) (hl : Listing es) (he : e ∈ es)
    (ha : Has e addr) (hp : e.pathName ≠ some (.component (ascii "[vdso]"))) :
    symbolizeSingle { env with vdso } (.process { src with vdso := b }) (.absAddr addr) =
      symbolizeSingle env (.process src) (.absAddr addr) := by
  rw [single_mapped env src es addr e hm hl he ha,
    single_mapped { env with vdso } { src with vdso := b } es addr e hm hl he ha]
  have h1 : ∀ off, handleDefault { env with vdso } { src with vdso := b } addr off e =
      handleDefault env src addr off e := by
    intro off
    unfold handleDefault
    cases hn : e.pathName with
    | none => rfl
    | some name =>
      cases name with
      | path p => rfl
      | component c =>
        have hc : c ≠ ascii "[vdso]" := by
          rintro rfl
          exact hp hn
        simp only [hc, and_false, if_false]
  have h2 : ∀ cache start stop name, dispatchResolver { env with vdso } cache start stop name =
      dispatchResolver env cache start stop name := fun _ _ _ _ => rfl
  have h3 : ∀ r off, Env.symbolizeOffset { env with vdso } r off = env.symbolizeOffset r off := fun _ _ => rfl
  unfold handleEntryAddr
  simp only [h1, h2, h3]

/-- **C44** (only mappings of files use files): the outcome for an address in a mapping of something else depends
neither on what files there are, nor on how they are opened, nor on whether their debug information is to be used. -/
theorem C44_files_only_files (env : Env) (src : ProcessSource) (es : List Entry) (addr : Nat) (e : Entry)
    (elf : Bytes → Bytes → Bool → Except Err Resolver)
    (apk : Bytes → Bytes → Nat → Bool → Except Err (Option (SymFn × Nat))) (mapFiles debugSyms : Bool)
    (hm : env.maps src.pid = .ok (es.map .ok)) (hl : Listing es) (he : e ∈ es)
    (ha : Has e addr) (hp : ∀ p, e.pathName ≠ some (.path p)) :
    symbolizeSingle { env with elf, apk } (.process { src with mapFiles, debugSyms }) (.absAddr addr) =
      symbolizeSingle env (.process src) (.absAddr addr) := by
  rw [single_mapped env src es addr e hm hl he ha,
    single_mapped { env with elf, apk } { src with mapFiles, debugSyms } es addr e hm hl he ha]
  have h1 : ∀ off, handleDefault { env with elf, apk } { src with mapFiles, debugSyms } addr off e =
      handleDefault env src addr off e := by
    intro off
    unfold handleDefault
    cases hn : e.pathName with
    | none => rfl
    | some name =>
      cases name with
      | path p => exact absurd hn (hp p)
      | component c => rfl
  have h2 : ∀ cache start stop name, dispatchResolver { env with elf, apk } cache start stop name =
      dispatchResolver env cache start stop name := fun _ _ _ _ => rfl
  have h3 : ∀ r off, Env.symbolizeOffset { env with elf, apk } r off = env.symbolizeOffset r off := fun _ _ => rfl
  unfold handleEntryAddr
  simp only [h1, h2, h3]

theorem forall₂_at {α β γ : Type} {R : α → β → Prop} {S : α → γ → Prop} {T : β → γ → Prop} {l : List α} {m : List β}
    {n : List γ} (h : List.Forall₂ R l m) (h' : List.Forall₂ S l n) (i : Nat) (a : α) (ha : l[i]? = some a)
    (ht : ∀ b c, R a b → S a c → T b c) : ∃ b c, m[i]? = some b ∧ n[i]? = some c ∧ T b c := by
  induction h generalizing n i with
  | nil => simp at ha
  | cons h1 _ ih =>
    cases h' with
    | cons h2 t2 =>
      cases i with
      | zero =>
        simp only [List.getElem?_cons_zero, Option.some.injEq] at ha
        subst ha
        exact ⟨_, _, rfl, rfl, ht _ _ h1 h2⟩
      | succ i =>
        simp only [List.getElem?_cons_succ] at ha ⊢
        exact ih t2 i ha

/-- **C102** (process, partial: dispatchers go by name, see C43) In a batch, too, the options that concern the vDSO, files
and generated code only matter for addresses in the vDSO, in files and in generated code: what is reported for any
other address of the batch is the same, as far as both requests succeed. -/
theorem C102_process_batch_partial (env : Env) (src src' : ProcessSource) (hpid : src'.pid = src.pid) (es : List Entry)
    (addrs : List Nat) (outs outs' : List Symbolized) (hb : ByName env)
    (hm : env.maps src.pid = .ok (es.map .ok)) (hl : Listing es) (hne : es ≠ [])
    (h : symbolize env (.process src) (.absAddr addrs) = .ok outs)
    (h' : symbolize env (.process src') (.absAddr addrs) = .ok outs')
    (i addr : Nat) (ha : addrs[i]? = some addr)
    (hsame : ∀ e ∈ es, Has e addr →
      (e.pathName = some (.component (ascii "[vdso]")) → src'.vdso = src.vdso) ∧
      (∀ p, e.pathName = some (.path p) → src'.mapFiles = src.mapFiles ∧ src'.debugSyms = src.debugSyms) ∧
      (e.pathName = none → src'.perfMap = src.perfMap)) :
    ∃ out, outs[i]? = some out ∧ outs'[i]? = some out := by
  have hm' : env.maps src'.pid = .ok (es.map .ok) := hpid ▸ hm
  have key : symbolizeSingle env (.process src) (.absAddr addr) = symbolizeSingle env (.process src') (.absAddr addr) := by
    by_cases hx : ∃ e ∈ es, Has e addr
    · obtain ⟨e, he, hh⟩ := hx
      obtain ⟨g1, g2, g3⟩ := hsame e he hh
      rw [single_mapped env src es addr e hm hl he hh, single_mapped env src' es addr e hm' hl he hh]
      have h1 : ∀ off, handleDefault env src addr off e = handleDefault env src' addr off e := by
        intro off
        unfold handleDefault handlePerfMapAddr
        cases hn : e.pathName with
        | none => simp only [g3 hn, hpid]
        | some name =>
          cases name with
          | path p => simp only [(g2 p hn).1, (g2 p hn).2]
          | component c =>
            by_cases hc : c = ascii "[vdso]"
            · simp only [hc, g1 (hc ▸ hn), hpid]
            · simp only [hc, and_false, if_false]
      unfold handleEntryAddr
      simp only [h1]
    · have hn : ∀ e ∈ es, ¬ Has e addr := fun e he hh => hx ⟨e, he, hh⟩
      rw [C44_unmapped env src es addr hm hl hne hn, C44_unmapped env src' es addr hm' hl hne hn]
  obtain ⟨b, c, h1, h2, h3⟩ := forall₂_at (T := fun b c => b = c)
    (C43_process_batch_partial env src es addrs outs hb hm hl hne h)
    (C43_process_batch_partial env src' es addrs outs' hb hm' hl hne h') i addr ha (by
      intro b c k1 k2
      rw [key, k2] at k1
      exact (Except.ok.inj k1).symm)
  exact ⟨b, h1, h3 ▸ h2⟩

/-- An address in a file, with and without the vDSO. -/
example (b : Bool) : symbolizeSingle (demoEnv false) (.process ⟨1, true, true, true, b⟩) (.absAddr 65540) =
    symbolizeSingle (demoEnv false) (.process ⟨1, true, true, true, true⟩) (.absAddr 65540) :=
  C44_vdso_only_vdso (demoEnv false) ⟨1, true, true, true, true⟩ demoMaps 65540 _ (demoEnv false).vdso b rfl demo_listing
    List.mem_cons_self (by decide) (by simp)

/-- An address in generated code, whatever files there are. -/
example (mapFiles debugSyms : Bool) :
    symbolizeSingle { demoEnv false with elf := fun _ _ _ => .error .notFound, apk := fun _ _ _ _ => .error .notFound }
      (.process ⟨1, debugSyms, true, mapFiles, true⟩) (.absAddr 196610) =
    symbolizeSingle (demoEnv false) (.process ⟨1, true, true, true, true⟩) (.absAddr 196610) :=
  C44_files_only_files (demoEnv false) ⟨1, true, true, true, true⟩ demoMaps 196610 ⟨196608, 200704, 5, 0, none, none⟩ _ _
    mapFiles debugSyms rfl demo_listing (by simp [demoMaps]) (by decide) (by simp)

theorem demo_byName : ByName (demoEnv false) := by intro d hd; simp [demoEnv] at hd

set_option maxRecDepth 20000 in
/-- Requests for three addresses that succeed, with and without the vDSO and generated code. -/
theorem demo_batch (b : Bool) :
    ∃ outs, symbolize (demoEnv false) (.process ⟨1, true, b, true, b⟩) (.absAddr [5, 65540, 196610]) = .ok outs := by
  have hs : ∀ a ∈ [5, 65540, 196610],
      (symbolizeSingle (demoEnv false) (.process ⟨1, true, b, true, b⟩) (.absAddr a)).isOk = true := by
    cases b <;> decide +kernel
  cases e1 : symbolize (demoEnv false) (.process ⟨1, true, b, true, b⟩) (.absAddr [5, 65540, 196610]) with
  | ok outs => exact ⟨outs, rfl⟩
  | error e =>
    obtain ⟨a, ha, h⟩ := (C43_process_batch_error (demoEnv false) ⟨1, true, b, true, b⟩ demoMaps [5, 65540, 196610]
      demo_byName rfl demo_listing (by simp [demoMaps])).1 e e1
    have := hs a ha
    rw [h] at this
    cases this

/-- The second of them is in a file. -/
example : ∃ outs outs', symbolize (demoEnv false) (.process ⟨1, true, true, true, true⟩) (.absAddr [5, 65540, 196610]) = .ok outs ∧
    symbolize (demoEnv false) (.process ⟨1, true, false, true, false⟩) (.absAddr [5, 65540, 196610]) = .ok outs' ∧
    ∃ out, outs[1]? = some out ∧ outs'[1]? = some out := by
  obtain ⟨outs, e1⟩ := demo_batch true
  obtain ⟨outs', e2⟩ := demo_batch false
  refine ⟨outs, outs', e1, e2, C102_process_batch_partial (demoEnv false) ⟨1, true, true, true, true⟩
    ⟨1, true, false, true, false⟩ rfl demoMaps _ outs outs' demo_byName rfl demo_listing
    (by simp [demoMaps]) e1 e2 1 65540 rfl ?_⟩
  intro e he hh
  simp only [demoMaps, List.mem_cons, List.not_mem_nil, or_false] at he
  rcases he with rfl | rfl | rfl | rfl | rfl <;> simp_all [Has]

end Blazesym.Symbolize
