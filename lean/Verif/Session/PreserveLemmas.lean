import Verif.Session.Symbolize

/-! # What no lookup changes, no request changes -/

set_option autoImplicit false

namespace Blazesym.Symbolize
open Blazesym.Util Blazesym.Maps Blazesym.Normalize Blazesym.Cache

variable {S α β : Type}

/-- A computation keeps a property of the state, whatever its result. -/
def Keeps (I : S → Prop) (a : Act S α) : Prop := ∀ s, I s → I (a s).2

theorem Keeps.lift {I : S → Prop} (r : Except Err α) : Keeps I (Act.lift r : Act S α) := fun _ h => h

theorem Keeps.bind {I : S → Prop} {a : Act S α} {f : α → Act S β} (ha : Keeps I a) (hf : ∀ x, Keeps I (f x)) :
    Keeps I (a.bind f) := by
  intro s hs
  have h := ha s hs
  unfold Act.bind
  cases hr : a s with
  | mk r s' =>
    rw [hr] at h
    cases r with
    | error e => exact h
    | ok x => exact hf x s' h

/-- The same if only certain results need to be considered. -/
theorem Keeps.bind_of {I : S → Prop} {a : Act S α} {f : α → Act S β} (P : α → Prop) (ha : Keeps I a)
    (hp : ∀ s x, (a s).1 = .ok x → P x) (hf : ∀ x, P x → Keeps I (f x)) : Keeps I (a.bind f) := by
  intro s hs
  have h := ha s hs
  have h' := hp s
  unfold Act.bind
  cases hr : a s with
  | mk r s' =>
    rw [hr] at h h'
    cases r with
    | error e => exact h
    | ok x => exact hf x (h' x rfl) s' h

theorem Keeps.mapResult {I : S → Prop} {a : Act S α} (ha : Keeps I a) (f : Except Err α → Except Err β) :
    Keeps I (a.mapResult f) := by
  intro s hs
  have h := ha s hs
  unfold Act.mapResult
  cases hr : a s with
  | mk r s' => rw [hr] at h; exact h

theorem Keeps.traverse {I : S → Prop} {f : α → Act S β} (hf : ∀ x, Keeps I (f x)) (xs : List α) :
    Keeps I (Act.traverse f xs) := by
  induction xs with
  | nil => exact Keeps.lift _
  | cons x xs ih => exact (hf x).bind fun _ => ih.bind fun _ => Keeps.lift _

/-- Everything the symbolizer looks up keeps a property. -/
structure HostKeeps (I : S → Prop) (h : Host S) : Prop where
  apk : ∀ actual represented off debugSyms, Keeps I (h.apk actual represented off debugSyms)
  breakpad : ∀ path, Keeps I (h.breakpad path)
  elf : ∀ actual represented debugSyms, Keeps I (h.elf actual represented debugSyms)
  kernel : ∀ src, Keeps I (h.kernel src)
  kernelFn : ∀ src s f, (h.kernel src s).1 = .ok f → ∀ addr opts, Keeps I (f addr opts)
  gsymFile : ∀ path, Keeps I (h.gsymFile path)
  perfMap : ∀ pid, Keeps I (h.perfMap pid)
  vdso : ∀ pid start stop, Keeps I (h.vdso pid start stop)
  maps : ∀ pid, Keeps I (h.maps pid)
  dispatch : ∀ start stop name, Keeps I (h.dispatch start stop name)

variable {I : S → Prop} {h : Host S}

theorem symbolizeApk_keeps (hk : HostKeeps I h) (actual represented : Bytes) (off : Nat) (debugSyms : Bool) :
    Keeps I (h.symbolizeApk actual represented off debugSyms) := by
  refine (hk.apk _ _ _ _).bind fun x => ?_
  cases x with
  | none => exact Keeps.lift _
  | some x => exact Keeps.lift _

theorem handleDefault_keeps (hk : HostKeeps I h) (src : ProcessSource) (addr fileOff : Nat) (e : Entry) :
    Keeps I (h.handleDefault src addr fileOff e) := by
  unfold Host.handleDefault
  cases e.pathName with
  | none =>
    simp only
    split
    · refine (hk.perfMap _).bind fun x => ?_
      cases x <;> exact Keeps.lift _
    · exact Keeps.lift _
  | some name =>
    cases name with
    | path p =>
      simp only
      split
      · exact symbolizeApk_keeps hk _ _ _ _
      · exact (hk.elf _ _ _).bind fun _ => Keeps.lift _
    | component c =>
      simp only
      split
      · exact (hk.vdso _ _ _).bind fun _ => Keeps.lift _
      · exact Keeps.lift _

theorem handleEntryAddr_keeps (hk : HostKeeps I h) (src : ProcessSource) (addr : Nat) (e : Entry) :
    Keeps I (h.handleEntryAddr src addr e) := by
  unfold Host.handleEntryAddr
  cases addU64 (addr - e.start) e.offset with
  | error err => exact Keeps.lift _
  | ok fileOff =>
    simp only
    cases e.pathName with
    | none => exact handleDefault_keeps hk _ _ _ _
    | some name =>
      refine (hk.dispatch _ _ _).bind fun x => ?_
      cases x with
      | none => exact handleDefault_keeps hk _ _ _ _
      | some r => exact Keeps.lift _

theorem walkLoop_keeps (hk : HostKeeps I h) (src : ProcessSource) (addrs : List Nat) (prev : Nat) (entry : Entry)
    (items : Normalize.Source) (out : List Symbolized) : Keeps I (h.walkLoop src addrs prev entry items out) := by
  induction addrs generalizing prev entry items out with
  | nil => exact Keeps.lift _
  | cons a rest ih =>
    rw [Host.walkLoop]
    split
    · exact Keeps.lift _
    · split
      · exact Keeps.lift _
      · exact Keeps.lift _
      · exact ih _ _ _ _
      · split
        · exact ih _ _ _ _
        · exact (handleEntryAddr_keeps hk _ _ _).bind fun _ => ih _ _ _ _

theorem symbolizeUserAddrs_keeps (hk : HostKeeps I h) (src : ProcessSource) (addrs : List Nat) :
    Keeps I (h.symbolizeUserAddrs src addrs) := by
  unfold Host.symbolizeUserAddrs
  refine (hk.maps _).bind fun items => Keeps.bind ?_ fun _ => Keeps.lift _
  unfold Host.walk
  simp only
  split
  · exact Keeps.lift _
  · exact Keeps.lift _
  · exact walkLoop_keeps hk _ _ _ _ _ _

theorem symbolizeImpl_keeps (hk : HostKeeps I h) (src : Source) (input : Input (List Nat))
    (fold : Err → Except Err Symbolized) : Keeps I (h.symbolizeImpl src input fold) := by
  unfold Host.symbolizeImpl
  cases src with
  | apk path ds =>
    cases input with
    | fileOffset addrs => exact Keeps.traverse (fun _ => (symbolizeApk_keeps hk _ _ _ _).mapResult _) _
    | virtOffset _ => exact Keeps.lift _
    | absAddr _ => exact Keeps.lift _
  | breakpad path =>
    cases input with
    | fileOffset addrs => exact (hk.breakpad _).bind fun _ => Keeps.traverse (fun _ => Keeps.lift _) _
    | virtOffset _ => exact Keeps.lift _
    | absAddr _ => exact Keeps.lift _
  | elf path ds =>
    refine (hk.elf _ _ _).bind fun _ => ?_
    cases input with
    | fileOffset addrs => exact Keeps.traverse (fun _ => Keeps.lift _) _
    | virtOffset _ => exact Keeps.traverse (fun _ => Keeps.lift _) _
    | absAddr _ => exact Keeps.lift _
  | kernel src =>
    cases input with
    | absAddr addrs =>
      refine Keeps.bind_of (fun f => ∀ addr opts, Keeps I (f addr opts)) (hk.kernel src) (hk.kernelFn src) ?_
      intro f hf
      exact Keeps.traverse (fun _ => ((hf _ _).bind fun _ => Keeps.lift _).mapResult _) _
    | virtOffset _ => exact Keeps.lift _
    | fileOffset _ => exact Keeps.lift _
  | process src =>
    cases input with
    | absAddr addrs =>
      exact (symbolizeUserAddrs_keeps hk _ _).bind fun _ => Keeps.traverse (fun _ => Keeps.lift _) _
    | virtOffset _ => exact Keeps.lift _
    | fileOffset _ => exact Keeps.lift _
  | gsymData data =>
    cases input with
    | virtOffset addrs => exact (Keeps.lift _).bind fun _ => Keeps.traverse (fun _ => Keeps.lift _) _
    | absAddr _ => exact Keeps.lift _
    | fileOffset _ => exact Keeps.lift _
  | gsymFile path =>
    cases input with
    | virtOffset addrs => exact (hk.gsymFile _).bind fun _ => Keeps.traverse (fun _ => Keeps.lift _) _
    | absAddr _ => exact Keeps.lift _
    | fileOffset _ => exact Keeps.lift _

theorem symbolize_keeps (hk : HostKeeps I h) (src : Source) (input : Input (List Nat)) :
    Keeps I (h.symbolize src input) := symbolizeImpl_keeps hk src input _

theorem symbolizeSingle_keeps (hk : HostKeeps I h) (src : Source) (input : Input Nat) :
    Keeps I (h.symbolizeSingle src input) := (symbolizeImpl_keeps hk src _ _).mapResult _

end Blazesym.Symbolize
