import Verif.CApi.OutputLemmas

/-!
# C74: normalization results of the C interface, and freeing them
-/

set_option autoImplicit false

namespace Blazesym.CApi

open Blazesym.Symbolize

/-- **C74**.  What a C program sees of the result of a normalization is what the Rust library reported: all
outputs and metadata in order, with every path, build ID, symbol and reason.  The result owns its memory: the
blocks it consists of are new, apart from everything that was allocated before, and nothing that was allocated
before changes. -/
theorem C74_output (alloc : Allocator) (ha : GoodAllocator alloc) (s : Store) (hs : s.Valid) (out : UserOutput)
    (hf : out.Fits) (p : Nat) (s' : Store) (h : convertOutput alloc s out = .ok (p, s')) :
    ∃ (bs : List Block), UserOutputAt s'.mem p out bs ∧ s'.blocks.Perm (bs ++ s.blocks) ∧ s'.Valid
      ∧ Unchanged s.mem s'.mem s.blocks := by
  obtain ⟨bs, h1, h2⟩ := convertOutput_spec ha hs hf h
  exact ⟨bs, h2, h1.blocks, h1.valid, h1.same⟩

/-- **C74** (partial: for paths without a NUL, see `C74_nul_wrong`).  This can only fail for lack of memory. -/
theorem C74_output_total_partial (alloc : Allocator) (ha : GoodAllocator alloc) (s : Store) (out : UserOutput) (hf : out.Fits)
    (h0 : ∀ (x : OutMeta), x ∈ out.metas → ∀ (path : Bytes), x.path? = some path → 0 ∉ path) :
    (∃ (p : Nat) (s' : Store), convertOutput alloc s out = .ok (p, s'))
      ∨ convertOutput alloc s out = .error .outOfMemory := by
  cases h : convertOutput alloc s out with
  | ok r => exact Or.inl ⟨r.1, r.2, rfl⟩
  | error f => rw [convertOutput_error ha hf h0 h]; exact Or.inr rfl

/-- **C74** (violation).  If a path has a NUL, as a member of an APK may have, the program is aborted instead of
getting an error. -/
theorem C74_nul_wrong (alloc : Allocator) (ha : GoodAllocator alloc) (s : Store) (out : UserOutput) (hf : out.Fits)
    (x : OutMeta) (hx : x ∈ out.metas) (path : Bytes) (hp : x.path? = some path) (h0 : 0 ∈ path) :
    convertOutput alloc s out = .error .abort ∨ convertOutput alloc s out = .error .outOfMemory :=
  convertOutput_nul ha hf hx hp h0

/-- **C74**.  Freeing a result frees exactly the blocks it owns, each once and with the layout it was allocated
with, and nothing is read after it was freed.  Memory outside of these blocks does not change.  This holds
whatever the program did in between, as long as the result is still there. -/
theorem C74_free (s : Store) (hs : s.Valid) (p : Nat) (out : UserOutput) (bs rest : List Block)
    (h : UserOutputAt s.mem p out bs) (hm : s.blocks.Perm (bs ++ rest)) :
    ∃ (t : Store), userOutputFree s p = .ok t ∧ t.blocks.Perm rest ∧ t.Valid ∧ Unchanged s.mem t.mem rest := by
  obtain ⟨t, h1, h2⟩ := userOutputFree_spec hs h hm
  have hp : t.blocks.Perm rest := (List.perm_append_left_iff bs).1 (h2.blocks.symm.trans hm)
  exact ⟨t, h1, hp, h2.valid hs, (h2.kept hs).mono fun b hb => hp.mem_iff.2 hb⟩

/-- **C74**.  In particular, normalizing and freeing the result leaves everything as it was. -/
theorem C74_no_leak (alloc : Allocator) (ha : GoodAllocator alloc) (s : Store) (hs : s.Valid) (out : UserOutput)
    (hf : out.Fits) (p : Nat) (s' : Store) (h : convertOutput alloc s out = .ok (p, s')) :
    ∃ (t : Store), userOutputFree s' p = .ok t ∧ t.blocks.Perm s.blocks ∧ Unchanged s.mem t.mem s.blocks := by
  obtain ⟨bs, h1, h2, h3, h4⟩ := C74_output alloc ha s hs out hf p s' h
  obtain ⟨t, g1, g2, _, g3⟩ := C74_free s' h3 p out bs s.blocks h1 h2
  exact ⟨t, g1, g2, h4.trans g3⟩

/-- **C74**.  Freeing `NULL` does nothing. -/
theorem C74_free_null (s : Store) : userOutputFree s 0 = .ok s := rfl

/-- An allocator that always takes what is beyond everything else, as long as there is something. -/
def bump (s : Store) (size align : Nat) : Option Nat :=
  let top := s.blocks.foldr (fun b n => max (b.addr + b.size) n) 1
  let a := (top + align - 1) / align * align
  if 0 < align ∧ a + size ≤ 2 ^ 64 then some a else none

theorem bump_good : GoodAllocator bump := by
  intro s size align a h
  simp only [bump] at h
  split at h
  · rename_i hc
    obtain ⟨h1, h2⟩ := hc
    simp only [Option.some.injEq] at h
    rw [h] at h2
    have htop : ∀ (bs : List Block), 1 ≤ bs.foldr (fun b n => max (b.addr + b.size) n) 1
        ∧ ∀ b ∈ bs, b.addr + b.size ≤ bs.foldr (fun b n => max (b.addr + b.size) n) 1 := by
      intro bs
      induction bs with
      | nil => exact ⟨le_rfl, by simp⟩
      | cons b bs ih =>
        simp only [List.foldr_cons]
        refine ⟨le_trans ih.1 (le_max_right _ _), fun c hc => ?_⟩
        rcases List.mem_cons.1 hc with rfl | hc
        · exact le_max_left _ _
        · exact le_trans (ih.2 c hc) (le_max_right _ _)
    obtain ⟨t1, t2⟩ := htop s.blocks
    generalize s.blocks.foldr (fun b n => max (b.addr + b.size) n) 1 = top at h t1 t2
    have hle : top ≤ a := by
      rw [← h]
      have := Nat.div_add_mod (top + align - 1) align
      have hm := Nat.mod_lt (top + align - 1) h1
      rw [Nat.mul_comm] at this
      omega
    refine ⟨by rw [← h]; exact Nat.mul_mod_left _ _, by omega, h2, fun b hb => Or.inr ?_⟩
    have := t2 b hb
    simp only
    omega
  · cases h

/-- A program that has something allocated. -/
def demoStore : Store := ⟨fun x => if x = 100 then some 7 else none, [⟨100, 1, 1⟩]⟩

/-- Two addresses in a file, one in the vDSO, and one that is in no file. -/
def demoOutput : UserOutput where
  outputs := [(0x1000, 0), (0x2000, 0), (0x30, 1), (0x40, 2), (0x50, 3)]
  metas := [.elf (ascii "/lib/x") (some [1, 2, 3]),
    .sym ⟨ascii "time", none, 0x30, 4, none, none, []⟩, .unknown .unmapped, .apk (ascii "/a.apk")]

/-- The hypotheses of the theorems above are met, and the result is what they say. -/
example : demoStore.Valid ∧ demoOutput.Fits ∧ (convertOutput bump demoStore demoOutput).toOption.isSome := by
  refine ⟨⟨fun b hb => ?_, List.pairwise_singleton _ _⟩, ⟨by decide, by decide, fun x hx => ?_, by decide⟩, by decide +kernel⟩
  · rw [show demoStore.blocks = [⟨100, 1, 1⟩] from rfl, List.mem_singleton] at hb
    subst hb; decide
  · simp only [demoOutput, List.mem_cons, List.not_mem_nil, or_false] at hx
    rcases hx with rfl | rfl | rfl | rfl
    · exact (by decide : (3 : Nat) < 2 ^ 64)
    · refine ⟨⟨by decide, by decide, fun info h => by simp at h, fun fn h => by simp at h⟩, by decide +kernel⟩
    · trivial
    · trivial

/-- What is left after freeing it. -/
example : (match convertOutput bump demoStore demoOutput with
    | .ok (p, s) => (userOutputFree s p).toOption.map Store.blocks
    | .error _ => none) = some [⟨100, 1, 1⟩] := by decide +kernel

/-- A member of an APK with a NUL in its name. -/
example : (⟨[(0, 0)], [.elf [47, 0, 97] none]⟩ : UserOutput).Fits
    ∧ convertOutput bump demoStore ⟨[(0, 0)], [.elf [47, 0, 97] none]⟩ = .error .abort :=
  ⟨⟨by decide, by decide, by simp [OutMeta.Fits], by decide⟩, rfl⟩

end Blazesym.CApi
