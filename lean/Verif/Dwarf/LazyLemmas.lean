import Verif.Dwarf.LazySpec
import Verif.Elf.LazyLemmas

/-! Lemmas about the units with the parts they keep. -/

set_option autoImplicit false

namespace Blazesym.Dwarf.Lazy
open Blazesym.Util Blazesym.Symbolize Blazesym.Cache

variable {α β γ : Type}

/-- Using a unit changes nothing but what is kept of its header and split unit. -/
def SameRest (s s' : Cells) : Prop := ∀ (j : Nat), (s' j).funcs = (s j).funcs ∧ (s' j).inlined = (s j).inlined

theorem SameRest.refl (s : Cells) : SameRest s s := fun _ => ⟨rfl, rfl⟩

theorem SameRest.trans {s s' s'' : Cells} (h : SameRest s s') (h' : SameRest s' s'') : SameRest s s'' :=
  fun j => ⟨(h' j).1.trans (h j).1, (h' j).2.trans (h j).2⟩

theorem getOrInit_sameRest {get : UnitCells → Option (Except Err α)} {set : UnitCells → Except Err α → UnitCells} {i : Nat}
    {r : Except Err α} (h1 : ∀ (c : UnitCells) (r : Except Err α), (set c r).funcs = c.funcs ∧ (set c r).inlined = c.inlined)
    (s : Cells) : SameRest s (getOrInit get set i (Act.lift r) s).2 := by
  unfold getOrInit Act.lift
  cases get (s i) with
  | some v => exact .refl s
  | none =>
    simp only
    split
    · rename_i heq; cases heq; exact .refl s
    · rename_i heq; cases heq
      split
      · exact .refl s
      · intro j
        unfold Cells.update
        simp only
        split
        · exact h1 _ _
        · exact ⟨rfl, rfl⟩

theorem ensureMain_sameRest (i : Nat) (u : Unit) (s : Cells) : SameRest s (ensureMain i u s).2 := by
  unfold ensureMain
  refine getOrInit_sameRest ?_ s
  exact fun _ _ => ⟨rfl, rfl⟩

theorem bind_sameRest {a : Act Cells α} {f : α → Act Cells β} (ha : ∀ (s : Cells), SameRest s (a s).2)
    (hf : ∀ (x : α) (s : Cells), SameRest s (f x s).2) (s : Cells) : SameRest s ((a >>= f) s).2 := by
  show SameRest s (Act.bind a f s).2
  unfold Act.bind
  have := ha s
  cases h : a s with
  | mk r s' =>
    rw [h] at this
    cases r with
    | error e => exact this
    | ok x => exact this.trans (hf x s')

theorem unitRef_sameRest (i : Nat) (u : Unit) (s : Cells) : SameRest s (unitRef i u s).2 := by
  unfold unitRef
  refine bind_sameRest (ensureMain_sameRest i u) (fun main => ?_) s
  refine bind_sameRest ?_ fun d s => ?_
  · refine getOrInit_sameRest ?_
    exact fun _ _ => ⟨rfl, rfl⟩
  · cases d <;> exact .refl s

theorem consult_sameRest (units : List Unit) (ids : List Nat) : ∀ (s : Cells), SameRest s (consult units ids s) := by
  induction ids with
  | nil => exact .refl
  | cons i rest ih =>
    intro s
    unfold consult
    cases units[i]? with
    | none => exact ih s
    | some u => exact (unitRef_sameRest i u s).trans (ih _)

theorem getOrInit_computes {I : Cells → Prop} {get : UnitCells → Option (Except Err α)}
    {set : UnitCells → Except Err α → UnitCells} {i : Nat} {f : Act Cells α} {r : Except Err α}
    (hget : ∀ (s : Cells) (v : Except Err α), I s → get (s i) = some v → v = r)
    (hset : ∀ (s : Cells), I s → I (s.update i fun c => set c r))
    (hf : Computes I f r) (hframe : ∀ (s : Cells), get (s i) = none → get ((f s).2 i) = none) :
    Computes I (getOrInit get set i f) r := by
  intro s hs
  unfold getOrInit
  cases hg : get (s i) with
  | some v => exact ⟨hget s v hs hg, hs⟩
  | none =>
    obtain ⟨h1, h2⟩ := hf s hs
    have h3 := hframe s hg
    generalize f s = x at h1 h2 h3
    obtain ⟨r', s'⟩ := x
    simp only at h1 h2 h3
    subst h1
    simp only
    split
    · rename_i heq; cases heq; exact ⟨rfl, h2⟩
    · rename_i heq; cases heq
      rw [h3]
      exact ⟨rfl, hset _ h2⟩

/-- What a unit keeps is what is in the file. -/
structure UnitSound (σ : Sorter) (units : List Unit) (u : Unit) (c : UnitCells) : Prop where
  main : ∀ (v : Except Err MainUnit), c.main = some v → v = u.header.unit
  dwo : ∀ (main : MainUnit), u.header.unit = .ok main → ∀ (v : Except Err (Option DieUnit)), c.dwo = some v → v = main.dwo
  lang : ∀ (main : MainUnit), u.header.unit = .ok main →
    ∀ (v : Except Err (Option Nat)), c.lang = some v → v = if u.deferred then scanLang main else .ok u.lang
  early : u.deferred = false → c.lang.isSome
  lines : ∀ (main : MainUnit), u.header.unit = .ok main → ∀ (prog : LineProgram), main.line = some prog →
    ∀ (v : Except Err Lines), c.lines = some v → v = parseLines σ main.compDir prog
  funcs : ∀ (d : DieUnit), u.unitRef = .ok d → ∀ (v : Except Err Functions), c.funcs = some v → v = parseFunctions σ units d
  inlined : ∀ (d : DieUnit), u.unitRef = .ok d → ∀ (fs : Functions), parseFunctions σ units d = .ok fs →
    ∀ (k : Nat) (f : Function), fs.functions[k]? = some f →
    ∀ (v : Except Err InlinedFunctions), c.inlined k = some v → v = parseInlined σ units d f.offset

/-- What all units keep is what is in the file. -/
def Sound (σ : Sorter) (units : List Unit) (s : Cells) : Prop :=
  ∀ (i : Nat) (u : Unit), units[i]? = some u → UnitSound σ units u (s i)

section
variable {σ : Sorter} {refs : Refs} {units : List Unit}

theorem sound_start : Sound σ units (start σ units) := by
  intro i u hu
  unfold start
  rw [hu]
  simp only
  unfold startUnit
  cases hd : u.deferred with
  | true =>
    simp only [if_true]
    constructor <;> intros <;> simp_all [UnitCells.empty]
  | false =>
    simp only [Bool.false_eq_true, if_false]
    refine ⟨fun v h => by cases h; rfl, fun _ _ v h => (by cases h), fun _ _ v h => ?_, fun _ => rfl, fun main hm prog hp v h => ?_,
      fun _ _ v h => (by cases h), fun _ _ _ _ _ _ _ v h => (by cases h)⟩
    · cases h; rw [hd]; rfl
    · simp only [startLines, hm, hp] at h
      split at h
      · cases h
      · split at h
        · rename_i heq; cases h; exact heq.symm
        · cases h

theorem Sound.update {s : Cells} (h : Sound σ units s) {i : Nat} {u : Unit} (hu : units[i]? = some u)
    {f : UnitCells → UnitCells} (hc : UnitSound σ units u (f (s i))) : Sound σ units (s.update i f) := by
  intro j v hv
  unfold Cells.update
  split
  · rename_i heq
    subst heq
    rw [hu] at hv
    cases hv
    exact hc
  · exact h j v hv

variable {i : Nat} {u : Unit}

theorem ensureMain_computes (hu : units[i]? = some u) : Computes (Sound σ units) (ensureMain i u) u.header.unit := by
  refine getOrInit_computes (fun s v h hv => (h i u hu).main v hv) (fun s h => ?_) (.lift _) fun s h => h
  exact h.update hu { h i u hu with main := fun v hv => by cases hv; rfl }

theorem unitRef_computes (hu : units[i]? = some u) : Computes (Sound σ units) (unitRef i u) u.unitRef := by
  have h : Computes (Sound σ units) (unitRef i u) (do
      let main ← u.header.unit
      let d ← main.dwo
      match d with
      | some d => .ok d
      | none => .ok main.dies) := by
    refine (ensureMain_computes hu).bind fun main hm => Computes.bind (r := main.dwo) ?_ fun d hd => ?_
    · refine getOrInit_computes (fun s v h hv => (h i u hu).dwo main hm v hv) (fun s h => ?_) (.lift _) fun s h => h
      refine h.update hu { h i u hu with dwo := fun main' hm' v hv => ?_ }
      cases hv
      rw [hm] at hm'
      cases hm'
      rfl
    · cases d <;> exact .lift _
  exact h

theorem consult_sound (ids : List Nat) : ∀ {s : Cells}, Sound σ units s → Sound σ units (consult units ids s) := by
  induction ids with
  | nil => exact fun h => h
  | cons i rest ih =>
    intro s h
    unfold consult
    cases hu : units[i]? with
    | none => exact ih h
    | some u => exact ih (unitRef_computes hu s h).2

theorem consulting_computes (ids : List Nat) (r : Except Err α) : Computes (Sound σ units) (consulting units ids r) r :=
  fun _ h => ⟨rfl, consult_sound ids h⟩

theorem functions_computes (hu : units[i]? = some u) :
    Computes (Sound σ units) (functions σ refs units i u) (u.functions σ units) := by
  refine (unitRef_computes hu).bind fun d hd => ?_
  refine getOrInit_computes (fun s v h hv => (h i u hu).funcs d hd v hv) (fun s h => ?_) (consulting_computes _ _) fun s h => ?_
  · refine h.update hu { h i u hu with funcs := fun d' hd' v hv => ?_ }
    cases hv
    rw [hd] at hd'
    cases hd'
    rfl
  · exact (consult_sameRest units _ s i).1.trans h

theorem lines_computes (hu : units[i]? = some u) : Computes (Sound σ units) (lines σ i u) (u.lines σ) := by
  refine (ensureMain_computes hu).bind fun main hm => ?_
  cases hp : main.line with
  | none => exact .lift _
  | some prog =>
    refine Computes.bind (r := parseLines σ main.compDir prog) ?_ fun l hl => .lift _
    refine getOrInit_computes (fun s v h hv => (h i u hu).lines main hm prog hp v hv) (fun s h => ?_) (.lift _) fun s h => h
    refine h.update hu { h i u hu with lines := fun main' hm' prog' hp' v hv => ?_ }
    cases hv
    rw [hm] at hm'
    cases hm'
    rw [hp] at hp'
    cases hp'
    rfl

theorem language_eq (u : Unit) : u.language = (do
    let main ← u.header.unit
    if u.deferred then scanLang main else .ok u.lang) := by
  unfold Unit.language
  cases u.header.unit with
  | error e => rfl
  | ok main =>
    simp only [bind, Except.bind]
    cases u.deferred with
    | true => rfl
    | false => rfl

theorem language_computes (hu : units[i]? = some u) : Computes (Sound σ units) (language i u) u.language := by
  rw [language_eq]
  refine (ensureMain_computes hu).bind fun main hm => ?_
  cases hd : u.deferred with
  | true =>
    refine getOrInit_computes (fun s v h hv => ?_) (fun s h => ?_) (.lift _) fun s h => h
    · have := (h i u hu).lang main hm v hv
      rw [hd] at this
      exact this
    · refine h.update hu { h i u hu with lang := fun main' hm' v hv => ?_, early := fun _ => rfl }
      cases hv
      rw [hm] at hm'
      cases hm'
      rw [hd]
  | false =>
    intro s h
    unfold getOrInit
    simp only
    cases hl : (s i).lang with
    | none =>
      have := (h i u hu).early hd
      rw [hl] at this
      cases this
    | some v =>
      have := (h i u hu).lang main hm v hl
      rw [hd] at this
      exact ⟨this, h⟩

/-! ## Searching -/

theorem unitFindLocation_computes (probe : Nat) (hu : units[i]? = some u) :
    Computes (Sound σ units) (unitFindLocation σ probe i u) (u.findLocation σ probe) :=
  (lines_computes hu).bind fun l _ => by
    cases l <;> exact .lift _

/-- The function of a unit at an address, with its position. -/
def unitFunctionNow (σ : Sorter) (units : List Unit) (probe : Nat) (u : Unit) : Except Err (Option (Function × Nat)) := do
  let fs ← u.functions σ units
  functionAt fs probe

theorem unitFindFunction_computes (probe : Nat) (hu : units[i]? = some u) :
    Computes (Sound σ units) (unitFindFunction σ refs units probe i u) (unitFunctionNow σ units probe u) :=
  (functions_computes hu).bind fun _ _ => .lift _

theorem unitFunctionNow_eq (probe : Nat) (u : Unit) :
    u.findFunction σ units probe = (unitFunctionNow σ units probe u).map (·.map Prod.fst) := by
  unfold Unit.findFunction unitFunctionNow functionAt
  cases u.functions σ units with
  | error e => rfl
  | ok fs =>
    simp only [bind, Except.bind]
    cases fs.findAddress probe with
    | none => rfl
    | some address =>
      simp only
      cases fs.addresses[address]? with
      | none => rfl
      | some a =>
        simp only
        cases fs.functions[a.function]? with
        | none => rfl
        | some f => rfl

theorem unitFunctionNow_some {probe : Nat} {u : Unit} {f : Function} {k : Nat}
    (h : unitFunctionNow σ units probe u = .ok (some (f, k))) :
    ∃ (d : DieUnit) (fs : Functions), u.unitRef = .ok d ∧ parseFunctions σ units d = .ok fs ∧ fs.functions[k]? = some f := by
  unfold unitFunctionNow at h
  cases hd : u.unitRef with
  | error e => simp [Unit.functions, hd, bind, Except.bind] at h
  | ok d =>
    cases hf : parseFunctions σ units d with
    | error e => simp [Unit.functions, hd, hf, bind, Except.bind] at h
    | ok fs =>
      refine ⟨d, fs, rfl, hf, ?_⟩
      simp only [Unit.functions, hd, hf, bind, Except.bind, functionAt] at h
      cases ha : fs.findAddress probe with
      | none => rw [ha] at h; cases h
      | some address =>
        rw [ha] at h
        simp only at h
        cases hb : fs.addresses[address]? with
        | none => rw [hb] at h; cases h
        | some a =>
          rw [hb] at h
          simp only at h
          cases hc : fs.functions[a.function]? with
          | none => rw [hc] at h; cases h
          | some f' =>
            rw [hc] at h
            cases h
            exact hc

/-- All units of a list are at their positions. -/
def AtPositions (units : List Unit) (l : List (Nat × Unit)) : Prop := ∀ (x : Nat × Unit), x ∈ l → units[x.1]? = some x.2

theorem unitsOf_ok (u : Units) : ∀ (l : List UnitRange) (us : List (Nat × Unit)), unitsOf u l = .ok us → AtPositions u.units us := by
  intro l
  induction l with
  | nil => intro us h; cases h; intro x hx; cases hx
  | cons r rest ih =>
    intro us h
    unfold unitsOf at h
    cases hr : u.units[r.unitId]? with
    | none => rw [hr] at h; cases h
    | some unit =>
      rw [hr] at h
      simp only at h
      cases hm : unitsOf u rest with
      | error e => rw [hm] at h; cases h
      | ok more =>
        rw [hm] at h
        cases h
        intro x hx
        rcases List.mem_cons.1 hx with hx | hx
        · subst hx; exact hr
        · exact ih more hm x hx

theorem unitsOf_eq (u : Units) : ∀ (l : List UnitRange), u.ofRanges l = (unitsOf u l).map (·.map Prod.snd) := by
  intro l
  induction l with
  | nil => rfl
  | cons r rest ih =>
    unfold unitsOf Units.ofRanges
    cases u.units[r.unitId]? with
    | none => rfl
    | some unit =>
      simp only [bind, Except.bind]
      rw [ih]
      cases unitsOf u rest <;> rfl

theorem findUnits_ok {u : Units} {probe : Nat} {us : List (Nat × Unit)} (h : findUnits u probe = .ok us) : AtPositions u.units us := by
  unfold findUnits at h
  simp only [bind, Except.bind] at h
  cases h1 : addU64 probe 1 with
  | error e => rw [h1] at h; cases h
  | ok hi =>
    rw [h1] at h
    simp only at h
    cases h2 : u.findRanges probe hi with
    | error e => rw [h2] at h; cases h
    | ok ranges =>
      rw [h2] at h
      exact unitsOf_ok u ranges us h

theorem findUnits_eq (u : Units) (probe : Nat) : u.findUnits probe = (findUnits u probe).map (·.map Prod.snd) := by
  unfold findUnits Units.findUnits
  simp only [bind, Except.bind]
  cases addU64 probe 1 with
  | error e => rfl
  | ok hi =>
    simp only
    cases u.findRanges probe hi with
    | error e => rfl
    | ok ranges => exact unitsOf_eq u ranges

/-- Searching units one after the other, without anything kept. -/
theorem firstSome_computes {f : α → Act Cells (Option β)} {g : α → Except Err (Option β)} : ∀ (l : List α),
    (∀ (x : α), x ∈ l → Computes (Sound σ units) (f x) (g x)) →
    Computes (Sound σ units) (firstSome f l) (Dwarf.firstSome g l) := by
  intro l
  induction l with
  | nil => exact fun _ => .lift _
  | cons a rest ih =>
    intro h
    refine (h a (List.mem_cons_self ..)).bind fun b _ => ?_
    cases b with
    | some b => exact .lift _
    | none => exact ih fun x hx => h x (List.mem_cons_of_mem _ hx)

theorem firstSome_mem {g : α → Except Err (Option β)} : ∀ (l : List α) {b : β} {a : α},
    Dwarf.firstSome g l = .ok (some (b, a)) → a ∈ l ∧ g a = .ok (some b) := by
  intro l
  induction l with
  | nil => intro b a h; cases h
  | cons x rest ih =>
    intro b a h
    unfold Dwarf.firstSome at h
    simp only [bind, Except.bind] at h
    cases hg : g x with
    | error e => rw [hg] at h; cases h
    | ok o =>
      rw [hg] at h
      cases o with
      | some y => cases h; exact ⟨List.mem_cons_self .., hg⟩
      | none =>
        obtain ⟨h1, h2⟩ := ih h
        exact ⟨List.mem_cons_of_mem _ h1, h2⟩

theorem firstSome_map {δ : Type} {g : α → Except Err (Option β)} {g' : δ → Except Err (Option γ)} {p : α → δ} {q : β → γ}
    (h : ∀ (x : α), g' (p x) = (g x).map (·.map q)) : ∀ (l : List α),
    Dwarf.firstSome g' (l.map p) = (Dwarf.firstSome g l).map (·.map fun x => (q x.1, p x.2)) := by
  intro l
  induction l with
  | nil => rfl
  | cons a rest ih =>
    rw [List.map_cons]
    unfold Dwarf.firstSome
    rw [h a]
    cases g a with
    | error e => rfl
    | ok o =>
      cases o with
      | some b => rfl
      | none => exact ih

variable {us : Units}

/-- The function of an address, with its position and that of its unit. -/
def functionNow (σ : Sorter) (us : Units) (probe : Nat) : Except Err (Option ((Function × Nat) × (Nat × Unit))) := do
  let l ← findUnits us probe
  Dwarf.firstSome (fun x => unitFunctionNow σ us.units probe x.2) l

theorem findFunction_computes (probe : Nat) :
    Computes (Sound σ us.units) (findFunction σ refs us probe) (functionNow σ us probe) :=
  (Computes.lift _).bind fun _ hl => firstSome_computes _ fun x hx => unitFindFunction_computes probe (findUnits_ok hl x hx)

theorem functionNow_eq (probe : Nat) :
    us.findFunction σ probe = (functionNow σ us probe).map (·.map fun x => (x.1.1, x.2.2)) := by
  unfold Units.findFunction functionNow
  rw [findUnits_eq]
  cases findUnits us probe with
  | error e => rfl
  | ok l =>
    exact firstSome_map (g := fun x => unitFunctionNow σ us.units probe x.2)
      (g' := fun unit : Unit => unit.findFunction σ us.units probe) (p := Prod.snd) (q := Prod.fst)
      (fun x => unitFunctionNow_eq probe x.2) l

theorem functionNow_some {probe : Nat} {f : Function} {k i : Nat} {u : Unit} (h : functionNow σ us probe = .ok (some ((f, k), (i, u)))) :
    us.units[i]? = some u ∧
    ∃ (d : DieUnit) (fs : Functions), u.unitRef = .ok d ∧ parseFunctions σ us.units d = .ok fs ∧ fs.functions[k]? = some f := by
  unfold functionNow at h
  cases hl : findUnits us probe with
  | error e => rw [hl] at h; cases h
  | ok l =>
    rw [hl] at h
    obtain ⟨h1, h2⟩ := firstSome_mem l h
    exact ⟨findUnits_ok hl _ h1, unitFunctionNow_some h2⟩

theorem findLocation_computes (probe : Nat) :
    Computes (Sound σ us.units) (findLocation σ us probe) (us.findLocation σ probe) := by
  have h : Computes (Sound σ us.units) (findLocation σ us probe) (do
      let l ← findUnits us probe
      let found ← Dwarf.firstSome (fun x => x.2.findLocation σ probe) l
      .ok (found.map Prod.fst)) :=
    (Computes.lift _).bind fun _ hl =>
      (firstSome_computes _ fun x hx => unitFindLocation_computes probe (findUnits_ok hl x hx)).bind fun _ _ => .lift _
  have e : us.findLocation σ probe = (do
      let l ← findUnits us probe
      let found ← Dwarf.firstSome (fun x => x.2.findLocation σ probe) l
      .ok (found.map Prod.fst)) := by
    unfold Units.findLocation
    rw [findUnits_eq]
    cases findUnits us probe with
    | error e => rfl
    | ok l =>
      simp only [Except.map, bind, Except.bind]
      rw [firstSome_map (g := fun x : Nat × Unit => x.2.findLocation σ probe) (p := Prod.snd) (q := id) (fun x => by
        cases x.2.findLocation σ probe with
        | error e => rfl
        | ok o => cases o <;> rfl) l]
      cases Dwarf.firstSome (fun x : Nat × Unit => x.2.findLocation σ probe) l with
      | error e => rfl
      | ok o => cases o <;> rfl
  rw [e]
  exact h

theorem findName_computes (name : Bytes) : ∀ (l : List Unit) (i : Nat), (∀ (j : Nat), l[j]? = us.units[i + j]?) →
    Computes (Sound σ us.units) (findName σ refs us.units name i l) (us.findName σ name l) := by
  intro l
  induction l with
  | nil => exact fun _ _ => .lift _
  | cons u rest ih =>
    intro i h
    have hu : us.units[i]? = some u := (h 0).symm
    refine Computes.bind (r := u.findName σ us.units name) ((functions_computes hu).bind fun _ _ => .lift _) fun found _ => ?_
    refine (ih (i + 1) fun j => ?_).bind fun _ _ => .lift _
    have := h (j + 1)
    rw [show i + (j + 1) = i + 1 + j by omega] at this
    exact this

/-! ## Source code information -/

theorem callLocation_computes (fn : Inlined) (hu : units[i]? = some u) :
    Computes (Sound σ units) (callLocation σ i u fn) (u.callLocation σ fn) := by
  unfold callLocation Unit.callLocation
  cases fn.callFile with
  | none => exact .lift _
  | some file =>
    refine (lines_computes hu).bind fun l _ => ?_
    cases l with
    | none => exact .lift _
    | some ls =>
      simp only
      cases ls.files[file]? with
      | none => exact .lift _
      | some x => exact .lift _

theorem inlinedItem_computes (fn : Inlined) (hu : units[i]? = some u) :
    Computes (Sound σ units) (inlinedItem σ i u fn) (u.inlinedItem σ fn) :=
  (Computes.lift _).bind fun _ _ => (callLocation_computes fn hu).bind fun _ _ => .lift _

theorem findInlined_computes (probe : Nat) {f : Function} {k : Nat} (hu : us.units[i]? = some u)
    (hf : ∃ (d : DieUnit) (fs : Functions), u.unitRef = .ok d ∧ parseFunctions σ us.units d = .ok fs ∧ fs.functions[k]? = some f) :
    Computes (Sound σ us.units) (findInlined σ refs us.units probe f k i u) (us.findInlined σ probe f u) := by
  obtain ⟨d', fs, h1, h2, h3⟩ := hf
  refine (unitRef_computes hu).bind fun d hd => ?_
  rw [h1] at hd
  cases hd
  refine Computes.bind (r := parseInlined σ us.units d' f.offset) ?_ fun _ _ => .lift _
  refine getOrInit_computes (fun s v h hv => (h i u hu).inlined d' h1 fs h2 k f h3 v hv) (fun s h => ?_)
    (consulting_computes _ _) fun s h => ?_
  · refine h.update hu { h i u hu with inlined := fun d'' e1 fs' e2 k' f' e3 v hv => ?_ }
    simp only at hv
    split at hv
    · rename_i heq
      subst heq
      rw [h1] at e1; cases e1
      rw [h2] at e2; cases e2
      rw [h3] at e3; cases e3
      cases hv
      rfl
    · exact (h i u hu).inlined d'' e1 fs' e2 k' f' e3 v hv
  · have := (consult_sameRest us.units (refs.inlined i k) s i).2
    show ((consult us.units (refs.inlined i k) s) i).inlined k = none
    rw [this]
    exact h

theorem inlineLoop_computes (hu : units[i]? = some u) : ∀ (l : List Inlined) (direct : CodeInfo) (acc : List InlinedFn),
    Computes (Sound σ units) (inlineLoop σ i u l direct acc) (Dwarf.inlineLoop σ u l direct acc) := by
  intro l
  induction l with
  | nil => exact fun _ _ => .lift _
  | cons fn rest ih => exact fun direct acc => (inlinedItem_computes fn hu).bind fun _ _ => ih _ _

/-- What is known of a function that was found. -/
def Known (σ : Sorter) (us : Units) (data : Option ((Function × Nat) × (Nat × Unit))) : Prop :=
  ∀ (f : Function) (k i : Nat) (u : Unit), data = some ((f, k), (i, u)) → us.units[i]? = some u ∧
    ∃ (d : DieUnit) (fs : Functions), u.unitRef = .ok d ∧ parseFunctions σ us.units d = .ok fs ∧ fs.functions[k]? = some f

theorem fillCodeInfo_computes (sym : ResolvedSym) (addr : Nat) (opts : FindSymOpts)
    (data : Option ((Function × Nat) × (Nat × Unit))) (hd : Known σ us data) :
    Computes (Sound σ us.units) (fillCodeInfo σ refs us sym addr opts data)
      (us.fillCodeInfo σ sym addr opts (data.map fun x => (x.1.1, x.2.2))) := by
  unfold fillCodeInfo Units.fillCodeInfo
  split
  · exact .lift _
  · refine (findLocation_computes addr).bind fun o _ => ?_
    cases o with
    | none => exact .lift _
    | some location =>
      simp only
      split
      · cases data with
        | none => exact .lift _
        | some x =>
          obtain ⟨⟨f, k⟩, i, u⟩ := x
          obtain ⟨h1, h2⟩ := hd f k i u rfl
          exact (findInlined_computes addr h1 h2).bind fun _ _ => (inlineLoop_computes h1 _ _ _).bind fun _ _ => .lift _
      · exact .lift _

variable {r : Resolver}

/-- The resolver with the position of the function. -/
def symNow (σ : Sorter) (r : Resolver) (addr : Nat) (opts : FindSymOpts) :
    Option ((Function × Nat) × (Nat × Unit)) → Except Err (Except Reason ResolvedSym)
  | some ((function, k), (i, unit)) => do
    let name ← nameOrEmpty function.name
    let size ← rangeSize function.range
    let lang ← unit.language
    let sym ← r.units.fillCodeInfo σ
      { name, module := r.module, addr := (function.range.map Range.start).getD 0, size,
        lang := srcLang lang, codeInfo := none, inlined := [] } addr opts (some (function, unit))
    .ok (.ok sym)
  | none => do
    match ← r.elfFindSym addr opts with
    | .error reason => .ok (.error reason)
    | .ok sym => do
      let sym ← r.units.fillCodeInfo σ sym addr opts none
      .ok (.ok sym)

theorem findSym_eq (addr : Nat) (opts : FindSymOpts) :
    r.findSym σ addr opts = (functionNow σ r.units addr >>= symNow σ r addr opts) := by
  unfold Resolver.findSym
  rw [functionNow_eq]
  cases functionNow σ r.units addr with
  | error e => rfl
  | ok o =>
    cases o with
    | none => rfl
    | some x => rfl

theorem findSym_computes (addr : Nat) (opts : FindSymOpts) :
    Computes (Sound σ r.units.units) (findSym σ refs r addr opts) (r.findSym σ addr opts) := by
  rw [findSym_eq]
  refine (findFunction_computes addr).bind fun o ho => ?_
  cases o with
  | some x =>
    obtain ⟨⟨f, k⟩, i, u⟩ := x
    obtain ⟨h1, h2⟩ := functionNow_some ho
    refine (Computes.lift _).bind fun _ _ => (Computes.lift _).bind fun _ _ => (language_computes h1).bind fun _ _ => ?_
    refine Computes.bind (fillCodeInfo_computes _ addr opts (some ((f, k), (i, u))) ?_) fun _ _ => .lift _
    intro f' k' i' u' e
    cases e
    exact ⟨h1, h2⟩
  | none =>
    refine (Computes.lift _).bind fun x _ => ?_
    cases x with
    | error reason => exact .lift _
    | ok sym =>
      refine Computes.bind (fillCodeInfo_computes _ addr opts none ?_) fun _ _ => .lift _
      intro f' k' i' u' e
      cases e

theorem findAddr_computes (name : Bytes) (opts : Elf.FindAddrOpts) :
    Computes (Sound σ r.units.units) (findAddr σ refs r name opts) (r.findAddr σ name opts) := by
  unfold findAddr Resolver.findAddr
  split
  · exact .lift _
  · refine (findName_computes name r.units.units 0 fun j => by rw [Nat.zero_add]).bind fun fs _ => ?_
    refine (Computes.lift _).bind fun syms _ => ?_
    split
    · exact .lift _
    · exact .lift _

theorem run_computes (q : Query) : Computes (Sound σ r.units.units) (q.run σ refs r) (q.now σ r) := by
  have map_eq : ∀ {δ : Type} (x : Except Err δ) (f : δ → Answer), x.map f = (do let y ← x; .ok (f y)) := by
    intro δ x f
    cases x <;> rfl
  cases q with
  | findSym addr opts =>
    simp only [Query.now]
    rw [map_eq]
    exact (findSym_computes addr opts).bind fun _ _ => .lift _
  | findAddr name opts =>
    simp only [Query.now]
    rw [map_eq]
    exact (findAddr_computes name opts).bind fun _ _ => .lift _

theorem runAll_sound (qs : List Query) : ∀ {s : Cells}, Sound σ r.units.units s → Sound σ r.units.units (runAll σ refs r qs s) := by
  induction qs with
  | nil => exact fun h => h
  | cons q qs ih => exact fun h => ih (run_computes q _ h).2

/-! ## Visiting all functions -/

section
variable {S : Type}

theorem callEach_sound (f : S → Function → S × Bool) (asks : S → Function → List Query) : ∀ (l : List Function) (s : S) (cells : Cells),
    Sound σ r.units.units cells → (callEach σ refs r f asks l s cells).1 = Dwarf.callEach f l s
      ∧ Sound σ r.units.units (callEach σ refs r f asks l s cells).2 := by
  intro l
  induction l with
  | nil => exact fun s cells h => ⟨rfl, h⟩
  | cons fn rest ih =>
    intro s cells h
    unfold callEach Dwarf.callEach
    rcases hf : f s fn with ⟨s', stop⟩
    cases stop with
    | true => exact ⟨rfl, runAll_sound _ h⟩
    | false => exact ih s' _ (runAll_sound _ h)

theorem forEachFunction_sound (f : S → Function → S × Bool) (asks : S → Function → List Query) : ∀ (l : List Unit) (i : Nat) (s : S)
    (cells : Cells), (∀ (j : Nat), l[j]? = r.units.units[i + j]?) → Sound σ r.units.units cells →
    (forEachFunction σ refs r f asks i l s cells).1 = r.units.forEachFunction σ f l s
      ∧ Sound σ r.units.units (forEachFunction σ refs r f asks i l s cells).2 := by
  intro l
  induction l with
  | nil => exact fun i s cells _ h => ⟨rfl, h⟩
  | cons u rest ih =>
    intro i s cells hl h
    have hu : r.units.units[i]? = some u := (hl 0).symm
    obtain ⟨h1, h2⟩ := functions_computes (σ := σ) (refs := refs) hu cells h
    unfold forEachFunction Units.forEachFunction
    generalize functions σ refs r.units.units i u cells = x at h1 h2
    obtain ⟨r', cells'⟩ := x
    simp only at h1 h2
    rw [← h1]
    cases r' with
    | error e => exact ⟨rfl, h2⟩
    | ok fs =>
      simp only
      obtain ⟨k1, k2⟩ := callEach_sound (σ := σ) (refs := refs) (r := r) f asks fs.functions s cells' h2
      rw [← k1]
      generalize callEach σ refs r f asks fs.functions s cells' = y at k1 k2
      obtain ⟨⟨s', stop⟩, cells''⟩ := y
      cases stop with
      | true => exact ⟨rfl, k2⟩
      | false =>
        refine ih (i + 1) s' cells'' (fun j => ?_) k2
        have := hl (j + 1)
        rw [show i + (j + 1) = i + 1 + j by omega] at this
        exact this

theorem forEach_sound (opts : Elf.FindAddrOpts) (f : S → Elf.SymInfo → S × Bool) (asks : S → Function → List Query) (s : S)
    (cells : Cells) (h : Sound σ r.units.units cells) :
    (forEach σ refs r opts f asks s cells).1 = r.forEach σ opts f s ∧ Sound σ r.units.units (forEach σ refs r opts f asks s cells).2 := by
  unfold forEach Resolver.forEach
  split
  · exact ⟨rfl, h⟩
  · obtain ⟨k1, k2⟩ := forEachFunction_sound (σ := σ) (refs := refs) (r := r) (r.visit opts.fileOffset f) (fun s => asks s.1)
      r.units.units 0 (s, .ok ()) cells (fun j => by rw [Nat.zero_add]) h
    rw [← k1]
    generalize forEachFunction σ refs r (r.visit opts.fileOffset f) (fun s => asks s.1) 0 r.units.units (s, .ok ()) cells = y at k1 k2
    obtain ⟨⟨r', s'⟩, cells'⟩ := y
    cases r' with
    | error e => exact ⟨rfl, k2⟩
    | ok _ => exact ⟨rfl, k2⟩

end

theorem sound_of_asked {cells : Cells} (h : Asked σ refs r cells) : Sound σ r.units.units cells := by
  induction h with
  | start => exact sound_start
  | query cells q _ ih => exact (run_computes q cells ih).2
  | forEach cells S opts f asks s _ ih => exact (forEach_sound opts f asks s cells ih).2

end

end Blazesym.Dwarf.Lazy
