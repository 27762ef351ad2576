import Verif.CApi.HostSpec
import Verif.CApi.ProgramLemmas

/-! Lemmas about programs that use normalizers or inspectors through the C interface. -/

set_option autoImplicit false

namespace Blazesym.CApi

variable {O S R W C : Type} {host : Host O S} {gs : List (Given R)} {os : List Block} {size : Nat}
  {At : Mem → Given R → Prop} {reach : O → S → Prop}

theorem tool_mem {addr : Nat} {o : Tool O S} (h : host.tool addr = .ok o) : o ∈ host.tools ∧ o.addr = addr := by
  unfold Host.tool at h
  split at h
  · rename_i o' ho
    cases h
    exact ⟨List.mem_of_find?_eq_some ho, by simpa using List.find?_some ho⟩
  · cases h

/-- What becomes of a program: the object is changed, an error is set, and the memory is another one. -/
def Host.next (host : Host O S) (addr : Nat) (state : S) (thread : Nat) (err : Int) (store : Store) : Host O S :=
  { (host.update addr state).report thread err with store }

/-- What is needed to know about results. -/
structure Stable (At : Mem → Given R → Prop) : Prop where
  kept : ∀ (m m' : Mem) (g : Given R), At m g → Unchanged m m' g.blocks → At m' g
  /-- Results at the same address share memory. -/
  place : ∀ (m : Mem) (g g' : Given R), At m g → At m g' → g.ptr = g'.ptr → ∃ (b b' : Block), b ∈ g.blocks ∧ b' ∈ g'.blocks
    ∧ b.addr = b'.addr ∧ 0 < b.size ∧ 0 < b'.size
  notNull : ∀ (m : Mem) (g : Given R), At m g → g.ptr ≠ 0

/-- What is the case all the time. -/
structure HostInv (size : Nat) (At : Mem → Given R → Prop) (reach : O → S → Prop) (host : Host O S) (gs : List (Given R))
    (os : List Block) : Prop where
  valid : host.store.Valid
  blocks : host.store.blocks.Perm (host.library size gs ++ os)
  results : ∀ (g : Given R), g ∈ gs → At host.store.mem g
  tools : ∀ (o : Tool O S), o ∈ host.tools → reach o.opts o.state

theorem HostInv.library_mem (h : HostInv size At reach host gs os) {b : Block} (hb : b ∈ host.library size gs) :
    b ∈ host.store.blocks := h.blocks.mem_iff.2 (List.mem_append_left _ hb)

theorem HostInv.tool_block (h : HostInv size At reach host gs os) {o : Tool O S} (ho : o ∈ host.tools) :
    (⟨o.addr, size, 8⟩ : Block) ∈ host.store.blocks :=
  h.library_mem (List.mem_append_left _ (List.mem_map_of_mem (f := Tool.block size) ho))

theorem HostInv.given_blocks (h : HostInv size At reach host gs os) {g : Given R} (hg : g ∈ gs) :
    ∀ b ∈ g.blocks, b ∈ host.store.blocks := fun _ hb =>
  h.library_mem (List.mem_append_right _ (List.mem_flatMap.2 ⟨g, hg, hb⟩))

theorem HostInv.unique_tool (h : HostInv size At reach host gs os) (hz : 0 < size) :
    host.tools.Pairwise fun o o' => o.addr ≠ o'.addr := by
  have := (List.pairwise_append.1 (pairwise_perm h.blocks h.valid.2)).1
  rw [Host.library, List.pairwise_append] at this
  refine (List.pairwise_map.1 this.1).imp ?_
  rintro o o' ha he
  simp only [Block.Apart, Tool.block] at ha
  omega

theorem flatMap_apart {l : List (Given R)} (h : (l.flatMap Given.blocks).Pairwise Block.Apart) :
    l.Pairwise fun g g' => ∀ b ∈ g.blocks, ∀ b' ∈ g'.blocks, b.Apart b' := by
  induction l with
  | nil => exact List.Pairwise.nil
  | cons g l ih =>
    rw [List.flatMap_cons, List.pairwise_append] at h
    refine List.pairwise_cons.2 ⟨fun g' hg' b hb b' hb' => h.2.2 b hb b' (List.mem_flatMap.2 ⟨g', hg', hb'⟩), ih h.2.1⟩

theorem HostInv.unique_given (h : HostInv size At reach host gs os) (ht : Stable At) :
    gs.Pairwise fun g g' => g.ptr ≠ g'.ptr := by
  have := (List.pairwise_append.1 (pairwise_perm h.blocks h.valid.2)).1
  rw [Host.library, List.pairwise_append] at this
  refine List.Pairwise.imp_of_mem ?_ (flatMap_apart this.2.1)
  intro g g' hg hg' ha he
  obtain ⟨b, b', hb, hb', e, p1, p2⟩ := ht.place _ _ _ (h.results g hg) (h.results g' hg') he
  have := ha b hb b' hb'
  simp only [Block.Apart] at this
  omega

theorem HostInv.same_tool (h : HostInv size At reach host gs os) (hz : 0 < size) {o o' : Tool O S} (ho : o ∈ host.tools)
    (ho' : o' ∈ host.tools) (he : o.addr = o'.addr) : o = o' := by
  have := filter_unique (f := Tool.addr) (h.unique_tool hz) ho'
  rcases List.mem_cons.1 (this.mem_iff.1 ho) with rfl | hm
  · rfl
  · simp [he] at hm

/-- An object of the program is found. -/
theorem HostInv.tool_eq (h : HostInv size At reach host gs os) (hz : 0 < size) {o : Tool O S} (ho : o ∈ host.tools) :
    host.tool o.addr = .ok o := by
  unfold Host.tool
  cases hf : host.tools.find? fun x => x.addr == o.addr with
  | none =>
    have := List.find?_eq_none.1 hf o ho
    simp at this
  | some o' =>
    have h1 := List.mem_of_find?_eq_some hf
    have h2 : o'.addr = o.addr := by simpa using List.find?_some hf
    rw [h.same_tool hz h1 ho h2]

/-- More memory, and a list of results. -/
theorem HostInv.ext (h : HostInv size At reach host gs os) (ht : Stable At) {host' : Host O S} {gs' : List (Given R)}
    {bs : List Block} (he : Ext host.store host'.store bs)
    (hb : (host'.library size gs').Perm (bs ++ host.library size gs))
    (hr : ∀ (g : Given R), g ∈ gs' → g ∈ gs ∨ At host'.store.mem g)
    (ho : ∀ (o : Tool O S), o ∈ host'.tools → reach o.opts o.state) : HostInv size At reach host' gs' os := by
  refine ⟨he.valid, ?_, ?_, ho⟩
  · refine (he.blocks.trans (h.blocks.append_left bs)).trans ?_
    rw [← List.append_assoc]
    exact hb.symm.append_right os
  · intro g hg
    rcases hr g hg with hg | hg
    · exact ht.kept _ _ _ (h.results g hg) (he.same.mono (h.given_blocks hg))
    · exact hg

/-- The state of an object changes. -/
theorem HostInv.update (h : HostInv size At reach host gs os) (ht : Stable At) (hz : 0 < size) {o : Tool O S}
    (ho : o ∈ host.tools) {state : S} (hr : reach o.opts state) (thread : Nat) (err : Int) {store : Store}
    {gs' : List (Given R)} {bs : List Block} (he : Ext host.store store bs)
    (hb : (gs'.flatMap Given.blocks).Perm (bs ++ gs.flatMap Given.blocks))
    (hg : ∀ (g : Given R), g ∈ gs' → g ∈ gs ∨ At store.mem g) :
    HostInv size At reach (host.next o.addr state thread err store) gs' os := by
  refine h.ext ht (bs := bs) he ?_ hg ?_
  · have hm : (host.next o.addr state thread err store).tools.map (Tool.block size) = host.tools.map (Tool.block size) := by
      simp only [Host.next, Host.report, Host.update, List.map_map]
      refine List.map_congr_left fun x _ => ?_
      simp only [Function.comp]
      split <;> rfl
    rw [Host.library, Host.library, hm]
    refine (hb.append_left _).trans ?_
    rw [← List.append_assoc, ← List.append_assoc]
    exact List.perm_append_comm.append_right _
  · intro x hx
    simp only [Host.next, Host.report, Host.update, List.mem_map] at hx
    obtain ⟨y, hy, rfl⟩ := hx
    split
    · rename_i hya
      rw [h.same_tool hz hy ho hya]
      exact hr
    · exact h.tools y hy

theorem HostInv.report (h : HostInv size At reach host gs os) (thread : Nat) (err : Int) :
    HostInv size At reach (host.report thread err) gs os := ⟨h.valid, h.blocks, h.results, h.tools⟩

/-- The account after a call that changed an object and handed out a result, or not. -/
theorem HostInv.handed (h : HostInv size At reach host gs os) (ht : Stable At) (hz : 0 < size) {o : Tool O S}
    (ho : o ∈ host.tools) {state : S} (hr : reach o.opts state) (thread : Nat) (err : Int) {store : Store} {bs : List Block}
    (he : Ext host.store store bs) {ret : Nat} {result : R} {gs' : List (Given R)}
    (hg : HandedOver host (host.next o.addr state thread err store) ret result gs gs')
    (h0 : ret = 0 → bs = [])
    (hat : ret ≠ 0 → ∀ (bs' : List Block), bs'.Perm bs → At store.mem ⟨ret, result, bs'⟩) :
    HostInv size At reach (host.next o.addr state thread err store) gs' os := by
  rcases hg with ⟨r0, rfl⟩ | ⟨bs', r0, hp, rfl⟩
  · refine h.update ht hz ho hr thread err he ?_ (fun g hg => .inl hg)
    rw [h0 r0]
    exact List.Perm.refl _
  · have hbs : bs'.Perm bs := by
      have : (bs ++ host.store.blocks).Perm (bs' ++ host.store.blocks) := he.blocks.symm.trans hp
      exact ((List.perm_append_right_iff _).1 this).symm
    refine h.update ht hz ho hr thread err he ?_ ?_
    · rw [List.flatMap_cons]
      exact hbs.append_right _
    · intro g hg
      rcases List.mem_cons.1 hg with rfl | hg
      · exact .inr (hat r0 bs' hbs)
      · exact .inl hg

theorem HostInv.create (h : HostInv size At reach host gs os) (ht : Stable At) {alloc : Allocator} (ha : GoodAllocator alloc)
    (hz : 0 < size) {thread : Nat} {opts : O} {state : S} (hr : reach opts state) {ret : Nat} {host' : Host O S}
    (hc : host.create size alloc thread opts state = .ok (ret, host')) : HostInv size At reach host' gs os := by
  have hne : List.replicate size (none : Option UInt8) ≠ [] := by
    intro e
    have := congrArg List.length e
    rw [List.length_replicate, List.length_nil] at this
    omega
  unfold Host.create Store.box at hc
  rw [if_neg (by simpa using hne)] at hc
  split at hc
  · cases hc
  · rename_i a hal
    simp only [bind, Except.bind, pure, Except.pure, Except.ok.injEq, Prod.mk.injEq] at hc
    obtain ⟨_, rfl⟩ := hc
    have hext := alloc_ext ha h.valid hne hal
    refine h.ext ht hext ?_ (fun x hx => Or.inl hx) ?_
    · simp only [Host.library, List.map_cons, Tool.block, List.length_replicate]
      exact List.Perm.refl _
    · intro x hx
      rcases List.mem_cons.1 hx with rfl | hx
      · exact hr
      · exact h.tools x hx

theorem hostError_set (host host' : Host O S) (thread : Nat) (err : Int) (h : host'.errs = host.errs.set thread err) :
    HostError host host' thread err := by
  intro t
  rw [h]
  rfl

theorem HostInv.create_spec (h : HostInv size At reach host gs os) {alloc : Allocator} (ha : GoodAllocator alloc)
    (hz : 0 < size) (thread : Nat) (opts : O) (state : S) :
    (alloc host.store size 8 = none → host.create size alloc thread opts state = .error .outOfMemory) ∧
    ∀ (addr : Nat), alloc host.store size 8 = some addr → ∃ (host' : Host O S),
      host.create size alloc thread opts state = .ok (addr, host') ∧ HostCreated size host host' addr opts state thread := by
  have hne : List.replicate size (none : Option UInt8) ≠ [] := by
    intro e
    have := congrArg List.length e
    rw [List.length_replicate, List.length_nil] at this
    omega
  have hb : (List.replicate size (none : Option UInt8)).isEmpty = false := by simpa using hne
  constructor
  · intro h
    simp only [Host.create, Store.box, List.length_replicate, h, hb]
    rfl
  · intro addr hal
    have hext := alloc_ext ha h.valid (align := 8) hne (by rw [List.length_replicate]; exact hal)
    rw [List.length_replicate] at hext
    obtain ⟨_, g2, _⟩ := ha _ _ _ _ hal
    have hc : host.create size alloc thread opts state = .ok (addr,
        { store := ⟨host.store.mem.fill addr (List.replicate size none), ⟨addr, size, 8⟩ :: host.store.blocks⟩,
          errs := host.errs.set thread CApi.ok, tools := ⟨addr, opts, state⟩ :: host.tools }) := by
      simp only [Host.create, Store.box, List.length_replicate, hal, hb]
      rfl
    exact ⟨_, hc, by omega, rfl, hostError_set _ _ _ _ rfl, rfl, hext.same⟩

/-- Memory is freed. -/
theorem HostInv.freed (h : HostInv size At reach host gs os) (ht : Stable At) {host' : Host O S} {gs' : List (Given R)}
    (hp : host'.store.blocks.Perm (host'.library size gs' ++ os)) (hv : host'.store.Valid)
    (hk : Unchanged host.store.mem host'.store.mem host'.store.blocks)
    (hr : ∀ (g : Given R), g ∈ gs' → g ∈ gs)
    (ho : ∀ (o : Tool O S), o ∈ host'.tools → o ∈ host.tools) : HostInv size At reach host' gs' os := by
  refine ⟨hv, hp, ?_, fun o hm => h.tools o (ho o hm)⟩
  intro g hg
  refine ht.kept _ _ _ (h.results g (hr g hg)) (hk.mono fun b hb => ?_)
  exact hp.mem_iff.2 (List.mem_append_left _ (List.mem_append_right _ (List.mem_flatMap.2 ⟨g, hg, hb⟩)))

theorem HostInv.destroy_spec (h : HostInv size At reach host gs os) (hz : 0 < size) {o : Tool O S} (ho : o ∈ host.tools) :
    ∃ (host' : Host O S), host.destroy size o.addr = .ok (0, host') ∧ HostDestroyed size host host' o.addr
      ∧ host'.store.Valid ∧ host'.tools = host.tools.filter fun x => x.addr != o.addr := by
  have hmem := h.tool_block ho
  obtain ⟨t, k1, k2⟩ := free_spec (s := host.store) (a := o.addr) (size := size) (align := 8) (by
    intro b hb
    rw [owned, if_neg (by omega), List.mem_singleton] at hb
    rw [hb]; exact hmem)
  rw [owned, if_neg (by omega)] at k2
  have h0 : o.addr ≠ 0 := by
    have := h.valid.1 _ hmem
    simp only at this
    omega
  refine ⟨{ host with store := t, tools := host.tools.filter fun x => x.addr != o.addr }, ?_, ⟨?_, rfl, ?_, ?_⟩, k2.valid h.valid, rfl⟩
  · simp only [Host.destroy, if_neg h0, h.tool_eq hz ho, bind, Except.bind, k1]
    rfl
  · intro x
    simp only [List.mem_filter, bne_iff_ne]
  · simpa only [List.singleton_append] using k2.blocks
  · exact k2.kept h.valid

theorem HostInv.destroy (h : HostInv size At reach host gs os) (ht : Stable At) (hz : 0 < size) {addr ret : Nat}
    {host' : Host O S} (hc : host.destroy size addr = .ok (ret, host')) : HostInv size At reach host' gs os := by
  by_cases h0 : addr = 0
  · rw [Host.destroy, if_pos h0] at hc
    simp only [Except.ok.injEq, Prod.mk.injEq] at hc
    obtain ⟨_, rfl⟩ := hc
    exact h
  · cases ho : host.tool addr with
    | error e =>
      rw [Host.destroy, if_neg h0, ho] at hc; cases hc
    | ok o =>
      obtain ⟨hm, rfl⟩ := tool_mem ho
      obtain ⟨host'', k1, k2, k3, k4⟩ := h.destroy_spec hz hm
      rw [hc] at k1
      simp only [Except.ok.injEq, Prod.mk.injEq] at k1
      obtain ⟨_, rfl⟩ := k1
      refine h.freed ht ?_ k3 k2.kept (fun x hx => hx) (fun x hx => ((k2.tools x).1 hx).1)
      have h1 := (k2.blocks.symm.trans h.blocks)
      have h2 := (filter_unique (f := Tool.addr) (h.unique_tool hz) hm).map (Tool.block size)
      have h3 : (host.library size gs ++ os).Perm (⟨o.addr, size, 8⟩ :: (host'.library size gs ++ os)) := by
        rw [Host.library, Host.library, k4]
        exact (h2.append_right _).append_right _
      exact List.Perm.cons_inv (h1.trans h3)

/-- A result is freed. -/
theorem HostInv.release (h : HostInv size At reach host gs os) (ht : Stable At) {free : Store → Nat → Except Fault Store}
    (hf : ∀ (s : Store) (g : Given R) (rest : List Block), s.Valid → At s.mem g → s.blocks.Perm (g.blocks ++ rest) →
      ∃ (t : Store), free s g.ptr = .ok t ∧ t.blocks.Perm rest ∧ t.Valid ∧ Unchanged s.mem t.mem rest)
    (hnull : ∀ (s : Store), free s 0 = .ok s) {ptr : Nat} (hm : MayFree gs ptr) {gs' : List (Given R)}
    (hg : Released ptr gs gs') :
    ∃ (store : Store), free host.store ptr = .ok store ∧ HostInv size At reach { host with store } gs' os
      ∧ ∀ (g : Given R), g ∈ gs → g.ptr = ptr → HostReleased host { host with store } g := by
  subst hg
  rcases hm with rfl | ⟨g, hg, rfl⟩
  · refine ⟨host.store, hnull _, ?_, ?_⟩
    · rw [List.filter_eq_self.2]
      · exact h
      · intro g hg
        simpa using ht.notNull _ _ (h.results g hg)
    · intro g hg he
      exact absurd he (ht.notNull _ _ (h.results g hg))
  · have h2 := filter_unique (f := Given.ptr) (h.unique_given ht) hg
    have h3 : (host.library size gs ++ os).Perm
        (g.blocks ++ (host.library size (gs.filter fun x => x.ptr != g.ptr) ++ os)) := by
      rw [Host.library, Host.library]
      have h4 : (gs.flatMap Given.blocks).Perm (g.blocks ++ (gs.filter fun x => x.ptr != g.ptr).flatMap Given.blocks) := by
        have := h2.flatMap_right Given.blocks
        rwa [List.flatMap_cons] at this
      refine ((h4.append_left _).append_right _).trans ?_
      rw [← List.append_assoc (g.blocks), ← List.append_assoc g.blocks, ← List.append_assoc (host.tools.map _)]
      exact (List.perm_append_comm.append_right _).append_right _
    obtain ⟨t, k1, k2, k3, k4⟩ := hf _ g _ h.valid (h.results g hg) (h.blocks.trans h3)
    have k5 : Unchanged host.store.mem t.mem t.blocks := k4.mono fun b hb => k2.mem_iff.1 hb
    refine ⟨t, k1, ?_, ?_⟩
    · exact h.freed ht (host' := { host with store := t }) k2 k3 k5
        (fun x hx => (List.mem_filter.1 hx).1) (fun o ho => ho)
    · intro g' hg' he
      have : g' = g := by
        rcases List.mem_cons.1 (h2.mem_iff.1 hg') with rfl | hm
        · rfl
        · simp [he] at hm
      subst this
      exact ⟨rfl, rfl, (h.blocks.trans h3).trans (k2.symm.append_left _), k5⟩

theorem hostChanged_next {o : Tool O S} (hu : ∀ (y : Tool O S), y ∈ host.tools → y.addr = o.addr → y = o) (ho : o ∈ host.tools)
    (state : S) (thread : Nat) (err : Int) (store : Store) :
    HostChanged host (host.next o.addr state thread err store) o state thread err := by
  refine ⟨fun x => ?_, hostError_set _ _ _ _ rfl⟩
  simp only [Host.next, Host.report, Host.update, List.mem_map]
  constructor
  · rintro ⟨y, hy, rfl⟩
    split
    · rename_i hya
      right
      have := hu y hy hya
      rw [this]
    · rename_i hya
      exact .inl ⟨hy, hya⟩
  · rintro (⟨hx, hne⟩ | rfl)
    · exact ⟨x, hx, if_neg hne⟩
    · exact ⟨o, ho, if_pos rfl⟩

section
variable {step : W → Nat → Host O S → C → Except Fault (Nat × Host O S)}
  {abides : Host O S → List (Given R) → W → C → Prop}
  {accounts : Host O S → Host O S → W → C → Nat → List (Given R) → List (Given R) → Prop}

theorem hostInv_of_runs (ht : Stable At)
    (hstep : ∀ (host host' : Host O S) (gs gs' : List (Given R)) (os : List Block) (w : W) (thread ret : Nat) (c : C),
      HostInv size At reach host gs os → abides host gs w c → step w thread host c = .ok (ret, host') →
      accounts host host' w c ret gs gs' → HostInv size At reach host' gs' os)
    (h : HostRuns size step abides accounts host gs os) : HostInv size At reach host gs os := by
  induction h with
  | start s hs => exact ⟨hs, List.Perm.refl _, fun _ h => (List.not_mem_nil h).elim, fun _ h => (List.not_mem_nil h).elim⟩
  | own host gs os os' s' _ hw ih =>
    refine ⟨hw.valid, hw.blocks, fun g hg => ht.kept _ _ _ (ih.results g hg) (hw.same.mono fun b hb => ?_), ih.tools⟩
    exact List.mem_append_right _ (List.mem_flatMap.2 ⟨g, hg, hb⟩)
  | error host gs os thread err _ ih => exact ⟨ih.valid, ih.blocks, ih.results, ih.tools⟩
  | call host host' gs gs' os w thread ret c _ hab hc hacc ih => exact hstep _ _ _ _ _ _ _ _ _ ih hab hc hacc

end

end Blazesym.CApi
