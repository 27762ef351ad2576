import Verif.Options.Spec
import Verif.Extent.Lemmas
import Verif.Session.SimLemmas

/-! Two requests that differ in settings, side by side. -/

set_option autoImplicit false

namespace Blazesym.Options
open Blazesym.Util Blazesym.Symbolize Blazesym.Spec Blazesym.Spec.Symbolize Blazesym.Spec.Options
open Blazesym.Dwarf hiding Resolver

variable {M K : Type} {α β : Type}

/-- Related results.  Errors are the same if `strict`; otherwise either may fail. -/
inductive WRel (strict : Prop) (R : α → β → Prop) : Except Err α → Except Err β → Prop
  | errors (e e' : Err) : (strict → e = e') → WRel strict R (.error e) (.error e')
  | ok (a : α) (b : β) : R a b → WRel strict R (.ok a) (.ok b)
  | left (a : α) (e : Err) : ¬ strict → WRel strict R (.ok a) (.error e)
  | right (e : Err) (b : β) : ¬ strict → WRel strict R (.error e) (.ok b)

theorem WRel.same {strict : Prop} {R : α → β → Prop} (e : Err) : WRel strict R (.error e) (.error e) := .errors e e fun _ => rfl

theorem WRel.anyRight {strict : Prop} {R : α → β → Prop} (h : ¬ strict) (e : Err) (y : Except Err β) :
    WRel strict R (.error e) y := by
  cases y with
  | error e' => exact .errors _ _ fun hs => absurd hs h
  | ok b => exact .right _ _ h

theorem WRel.anyLeft {strict : Prop} {R : α → β → Prop} (h : ¬ strict) (x : Except Err α) (e : Err) :
    WRel strict R x (.error e) := by
  cases x with
  | error e' => exact .errors _ _ fun hs => absurd hs h
  | ok b => exact .left _ _ h

/-- What can be found in an environment. -/
structure AllFns (P : SymFn → Prop) (gsym : Prop) (env : Env) : Prop where
  apk : ∀ a b off debug f x, env.apk a b off debug = .ok (some (f, x)) → P f
  breakpad : ∀ p f, env.breakpad p = .ok f → P f
  elf : ∀ a b debug r, env.elf a b debug = .ok r → P r.find
  kernel : ∀ k f, env.kernel k = .ok f → P f
  gsymData : gsym → ∀ d f, env.gsymData d = .ok f → P f
  gsymFile : gsym → ∀ d f, env.gsymFile d = .ok f → P f
  perfMap : ∀ p f, env.perfMap p = .ok (some f) → P f
  vdso : ∀ p a b r, env.vdso p a b = .ok r → P r.find
  dispatch : ∀ d, env.dispatch = some d → ∀ a b n r, d a b n = .ok (some r) → P r.find
  dispatched : ∀ n r, (n, some r) ∈ env.dispatched → P r.find

section
variable {P : SymFn → Prop} {gsym strict : Prop} {R : Symbolized → Symbolized → Prop} {env : Env}
  {opts : FindSymOpts} {dem : Bool} {demangler : Demangler}

theorem offset_rel (hw : ∀ f, P f → ∀ addr, WRel strict R (env.symbolizeWith addr f)
      (Env.symbolizeWith { env with opts := opts, demangle := dem, demangler := demangler } addr f))
    (hu : ∀ r, R (.unknown r) (.unknown r)) {r : Resolver} (hr : P r.find) (off : Nat) :
    WRel strict R (env.symbolizeOffset r off)
      (Env.symbolizeOffset { env with opts := opts, demangle := dem, demangler := demangler } r off) := by
  unfold Env.symbolizeOffset
  split
  · exact .same _
  · exact hw _ hr _
  · exact .ok _ _ (hu _)

theorem apk_rel (ha : AllFns P gsym env) (hw : ∀ f, P f → ∀ addr, WRel strict R (env.symbolizeWith addr f)
      (Env.symbolizeWith { env with opts := opts, demangle := dem, demangler := demangler } addr f))
    (hu : ∀ r, R (.unknown r) (.unknown r)) (a b : Bytes) (off : Nat) (debug : Bool) :
    WRel strict R (env.symbolizeApk a b off debug)
      (Env.symbolizeApk { env with opts := opts, demangle := dem, demangler := demangler } a b off debug) := by
  unfold Env.symbolizeApk
  simp only
  split
  · exact .same _
  · rename_i h
    exact hw _ (ha.apk _ _ _ _ _ _ h) _
  · exact .ok _ _ (hu _)

theorem default_rel (ha : AllFns P gsym env) (hw : ∀ f, P f → ∀ addr, WRel strict R (env.symbolizeWith addr f)
      (Env.symbolizeWith { env with opts := opts, demangle := dem, demangler := demangler } addr f))
    (hu : ∀ r, R (.unknown r) (.unknown r)) (src : ProcessSource) (addr off : Nat) (entry : Maps.Entry) :
    WRel strict R (handleDefault env src addr off entry)
      (handleDefault { env with opts := opts, demangle := dem, demangler := demangler } src addr off entry) := by
  unfold handleDefault
  split
  · simp only
    split
    · exact apk_rel ha hw hu _ _ _ _
    · split
      · exact .same _
      · rename_i h
        exact offset_rel hw hu (ha.elf _ _ _ _ h) _
  · split
    · simp only
      split
      · exact .same _
      · rename_i h
        exact offset_rel hw hu (ha.vdso _ _ _ _ h) _
    · exact .ok _ _ (hu _)
  · split
    · unfold handlePerfMapAddr
      simp only
      split
      · exact .same _
      · rename_i h
        exact hw _ (ha.perfMap _ _ h) _
      · exact .ok _ _ (hu _)
    · exact .ok _ _ (hu _)

/-- What a dispatcher has supplied. -/
def GoodCache (P : SymFn → Prop) (c : DispatchCache) : Prop := ∀ n r, (n, some r) ∈ c → P r.find

theorem dispatch_good (ha : AllFns P gsym env) {c c' : DispatchCache} (hc : GoodCache P c) {a b : Nat}
    {n : Maps.PathName} {r : Option Resolver} (h : dispatchResolver env c a b n = .ok (r, c')) :
    GoodCache P c' ∧ ∀ q, r = some q → P q.find := by
  unfold dispatchResolver at h
  split at h
  · cases h; exact ⟨hc, by intro q hq; cases hq⟩
  · rename_i d hd
    split at h
    · rename_i r' hr
      cases h
      obtain ⟨m, hm⟩ := Extent.lookup_mem hr
      exact ⟨hc, fun q hq => hc m q (hq ▸ hm)⟩
    · split at h
      · cases h
      · rename_i r' hr
        cases h
        have key : ∀ q, r = some q → P q.find := fun q hq => ha.dispatch d hd _ _ _ q (hq ▸ hr)
        refine ⟨?_, key⟩
        intro m q hm
        rcases List.mem_cons.mp hm with hm | hm
        · cases hm; exact key q rfl
        · exact hc m q hm

theorem entry_rel (ha : AllFns P gsym env) (hw : ∀ f, P f → ∀ addr, WRel strict R (env.symbolizeWith addr f)
      (Env.symbolizeWith { env with opts := opts, demangle := dem, demangler := demangler } addr f))
    (hu : ∀ r, R (.unknown r) (.unknown r)) (src : ProcessSource) {c : DispatchCache} (hc : GoodCache P c) (addr : Nat)
    (entry : Maps.Entry) :
    WRel strict (fun x y => R x.1 y.1 ∧ x.2 = y.2 ∧ GoodCache P x.2) (handleEntryAddr env src c addr entry)
      (handleEntryAddr { env with opts := opts, demangle := dem, demangler := demangler } src c addr entry) := by
  have lift : ∀ (c : DispatchCache), GoodCache P c → ∀ x y, WRel strict R x y →
      WRel strict (fun x y => R x.1 y.1 ∧ x.2 = y.2 ∧ GoodCache P x.2)
        (match x with | .error e => .error e | .ok s => .ok (s, c)) (match y with | .error e => .error e | .ok s => .ok (s, c)) := by
    intro c hc x y h
    cases h with
    | errors e e' h => exact .errors _ _ h
    | ok a b h => exact .ok _ _ ⟨h, rfl, hc⟩
    | left a e h => exact .left _ _ h
    | right e b h => exact .right _ _ h
  unfold handleEntryAddr
  split
  · exact .same _
  · simp only
    split
    · exact lift c hc _ _ (default_rel ha hw hu _ _ _ _)
    · rename_i name _
      have hd : dispatchResolver { env with opts := opts, demangle := dem, demangler := demangler } c entry.start entry.stop name =
          dispatchResolver env c entry.start entry.stop name := rfl
      rw [hd]
      split
      · exact .same _
      · rename_i h
        exact lift _ (dispatch_good ha hc h).1 _ _ (default_rel ha hw hu _ _ _ _)
      · rename_i h
        obtain ⟨h1, h2⟩ := dispatch_good ha hc h
        exact lift _ h1 _ _ (offset_rel hw hu (h2 _ rfl) _)

theorem loop_rel (ha : AllFns P gsym env) (hw : ∀ f, P f → ∀ addr, WRel strict R (env.symbolizeWith addr f)
      (Env.symbolizeWith { env with opts := opts, demangle := dem, demangler := demangler } addr f))
    (hu : ∀ r, R (.unknown r) (.unknown r)) (src : ProcessSource) (addrs : List Nat) (prev : Nat) (entry : Maps.Entry)
    (items : Normalize.Source) (l l' : List Symbolized) (hl : List.Forall₂ R l l') (c : DispatchCache) (hc : GoodCache P c) :
    WRel strict (fun s s' => List.Forall₂ R s.1 s'.1)
      (Normalize.walkLoop (symHandler env src) addrs prev entry items (l, c))
      (Normalize.walkLoop (symHandler { env with opts := opts, demangle := dem, demangler := demangler } src) addrs prev
        entry items (l', c)) := by
  induction addrs generalizing prev entry items l l' c with
  | nil => exact .ok _ _ hl
  | cons addr rest ih =>
    have append : ∀ x y, R x y → List.Forall₂ R (l ++ [x]) (l' ++ [y]) := fun x y h =>
      List.rel_append hl (.cons h .nil)
    unfold Normalize.walkLoop
    split
    · exact .same _
    · split
      · exact .same _
      · exact .same _
      · exact ih _ _ _ _ _ (append _ _ (hu _)) _ hc
      · rename_i e s _
        split
        · exact ih _ _ _ _ _ (append _ _ (hu _)) _ hc
        · have hx := entry_rel ha hw hu src hc addr e
          simp only [symHandler] at ih ⊢
          generalize handleEntryAddr env src c addr e = x at hx ⊢
          generalize handleEntryAddr _ src c addr e = y at hx ⊢
          cases hx with
          | errors e e' h => exact .errors _ _ h
          | ok a b h =>
            obtain ⟨h1, h2, h3⟩ := h
            obtain ⟨a1, a2⟩ := a
            obtain ⟨b1, b2⟩ := b
            cases h2
            exact ih _ _ _ _ _ (append _ _ h1) _ h3
          | left a e h => exact .anyLeft h _ _
          | right e b h => exact .anyRight h _ _

theorem user_rel (ha : AllFns P gsym env) (hw : ∀ f, P f → ∀ addr, WRel strict R (env.symbolizeWith addr f)
      (Env.symbolizeWith { env with opts := opts, demangle := dem, demangler := demangler } addr f))
    (hu : ∀ r, R (.unknown r) (.unknown r)) (src : ProcessSource) (addrs : List Nat) :
    WRel strict (List.Forall₂ R) (symbolizeUserAddrs env src addrs)
      (symbolizeUserAddrs { env with opts := opts, demangle := dem, demangler := demangler } src addrs) := by
  unfold symbolizeUserAddrs
  simp only
  split
  · exact .same _
  · rename_i items _
    have hwalk : WRel strict (fun s s' => List.Forall₂ R s.1 s'.1)
        (Normalize.walk (symHandler env src) ((sortWithIdx addrs).map Prod.fst) (.list items) ([], env.dispatched))
        (Normalize.walk (symHandler { env with opts := opts, demangle := dem, demangler := demangler } src)
          ((sortWithIdx addrs).map Prod.fst) (.list items) ([], env.dispatched)) := by
      unfold Normalize.walk
      simp only
      split
      · exact .same _
      · exact .same _
      · exact loop_rel ha hw hu _ _ _ _ _ _ _ .nil _ ha.dispatched
    simp only [withOrderedElems, userHandle]
    generalize Normalize.walk (symHandler env src) _ _ _ = x at hwalk ⊢
    generalize Normalize.walk (symHandler _ src) _ _ _ = y at hwalk ⊢
    cases hwalk with
    | errors e e' h => exact .errors _ _ h
    | left a e h => exact .anyLeft h _ _
    | right e b h => exact .anyRight h _ _
    | ok a b h =>
      have := inOrder_rel addrs a.1 b.1 h
      unfold inOrder at this
      simp only
      generalize reorder (addrs.length + 1) a.1 (sortWithIdx addrs) = x at this ⊢
      generalize reorder (addrs.length + 1) b.1 (sortWithIdx addrs) = y at this ⊢
      cases x <;> cases y <;> simp only at this ⊢
      all_goals first
        | exact .same _
        | (cases this; exact .ok _ _ (by assumption))
        | cases this

theorem orElse_wrel {fold : Err → Except Err Symbolized}
    (hf : ∀ e e', (strict → e = e') → WRel strict R (orElse fold (.error e)) (orElse fold (.error e')))
    (hl : ¬ strict → ∀ a e, WRel strict R (.ok a) (orElse fold (.error e)))
    (hr : ¬ strict → ∀ e b, WRel strict R (orElse fold (.error e)) (.ok b)) {x y : Except Err Symbolized}
    (h : WRel strict R x y) : WRel strict R (orElse fold x) (orElse fold y) := by
  cases h with
  | errors e e' h => exact hf e e' h
  | ok a b h => exact .ok _ _ h
  | left a e h => exact hl h a e
  | right e b h => exact hr h e b

theorem map_rel {fold : Err → Except Err Symbolized}
    (ho : ∀ x y, WRel strict R x y → WRel strict R (orElse fold x) (orElse fold y)) (addrs : List Nat)
    {f g : Nat → Except Err Symbolized} (h : ∀ a, WRel strict R (f a) (g a)) :
    List.Forall₂ (WRel strict R) (addrs.map fun a => orElse fold (f a)) (addrs.map fun a => orElse fold (g a)) := by
  induction addrs with
  | nil => exact .nil
  | cons a t ih => exact .cons (ho _ _ (h a)) ih

theorem oks_rel {fold : Err → Except Err Symbolized} {l l' : List Symbolized} (h : List.Forall₂ R l l') :
    List.Forall₂ (WRel strict R) (l.map fun s => orElse fold (.ok s)) (l'.map fun s => orElse fold (.ok s)) := by
  induction h with
  | nil => exact .nil
  | cons h _ ih => exact .cons (.ok _ _ h) ih

theorem impl_rel (ha : AllFns P gsym env) (hw : ∀ f, P f → ∀ addr, WRel strict R (env.symbolizeWith addr f)
      (Env.symbolizeWith { env with opts := opts, demangle := dem, demangler := demangler } addr f))
    (hu : ∀ r, R (.unknown r) (.unknown r)) (src : Source) (hg : IsGsym src → gsym) (input : Input (List Nat))
    {fold : Err → Except Err Symbolized}
    (ho : ∀ x y, WRel strict R x y → WRel strict R (orElse fold x) (orElse fold y)) :
    WRel strict (List.Forall₂ (WRel strict R)) (symbolizeImpl env src input fold)
      (symbolizeImpl { env with opts := opts, demangle := dem, demangler := demangler } src input fold) := by
  unfold symbolizeImpl
  split
  · split
    · exact .same _
    · exact .same _
    · exact .ok _ _ (map_rel ho _ fun _ => apk_rel ha hw hu _ _ _ _)
  · split
    · exact .same _
    · exact .same _
    · simp only
      split
      · exact .same _
      · rename_i h
        exact .ok _ _ (map_rel ho _ fun _ => hw _ (ha.breakpad _ _ h) _)
  · simp only
    split
    · exact .same _
    · rename_i h
      split
      · exact .ok _ _ (map_rel ho _ fun _ => hw _ (ha.elf _ _ _ _ h) _)
      · exact .same _
      · exact .ok _ _ (map_rel ho _ fun _ => offset_rel hw hu (ha.elf _ _ _ _ h) _)
  · split
    · simp only
      split
      · exact .same _
      · rename_i h
        exact .ok _ _ (map_rel ho _ fun _ => hw _ (ha.kernel _ _ h) _)
    · exact .same _
    · exact .same _
  · rename_i p
    split
    · rename_i addrs
      have := user_rel ha hw hu p addrs
      generalize symbolizeUserAddrs env p addrs = x at this ⊢
      generalize symbolizeUserAddrs _ p addrs = y at this ⊢
      cases this with
      | errors e e' h => exact .errors _ _ h
      | left a e h => exact .anyLeft h _ _
      | right e b h => exact .anyRight h _ _
      | ok a b h => exact .ok _ _ (oks_rel h)
    · exact .same _
    · exact .same _
  · split
    · simp only
      split
      · exact .same _
      · rename_i h
        exact .ok _ _ (map_rel ho _ fun _ => hw _ (ha.gsymData (hg trivial) _ _ h) _)
    · exact .same _
    · exact .same _
  · split
    · simp only
      split
      · exact .same _
      · rename_i h
        exact .ok _ _ (map_rel ho _ fun _ => hw _ (ha.gsymFile (hg trivial) _ _ h) _)
    · exact .same _
    · exact .same _

theorem collect_rel {l l' : List (Except Err Symbolized)} (h : List.Forall₂ (WRel strict R) l l') :
    WRel strict (List.Forall₂ R) (Maps.collect l) (Maps.collect l') := by
  induction h with
  | nil => exact .ok _ _ .nil
  | cons h _ ih =>
    cases h with
    | errors e e' h => exact .errors _ _ h
    | left a e h => exact .anyLeft h _ _
    | right e b h => exact .anyRight h _ _
    | ok a b h =>
      unfold Maps.collect
      generalize Maps.collect _ = x at ih ⊢
      generalize Maps.collect _ = y at ih ⊢
      cases ih with
      | errors e e' h => exact .errors _ _ h
      | left a e h => exact .anyLeft h _ _
      | right e b h => exact .anyRight h _ _
      | ok s t h' => exact .ok _ _ (.cons h h')

theorem batch_rel (ha : AllFns P gsym env) (hw : ∀ f, P f → ∀ addr, WRel strict R (env.symbolizeWith addr f)
      (Env.symbolizeWith { env with opts := opts, demangle := dem, demangler := demangler } addr f))
    (hu : ∀ r, R (.unknown r) (.unknown r))
    (hi : ¬ strict → ∀ o, R o (.unknown .ignoredError) ∧ R (.unknown .ignoredError) o)
    (src : Source) (hg : IsGsym src → gsym) (input : Input (List Nat)) :
    WRel strict (List.Forall₂ R) (symbolize env src input)
      (symbolize { env with opts := opts, demangle := dem, demangler := demangler } src input) := by
  have ho : ∀ x y, WRel strict R x y → WRel strict R (orElse (fun _ => .ok (.unknown .ignoredError)) x)
      (orElse (fun _ => .ok (.unknown .ignoredError)) y) := by
    intro x y h
    refine orElse_wrel ?_ ?_ ?_ h
    · intro e e' h
      by_cases hs : strict
      · cases h hs
        cases e <;> first | exact .same _ | exact .ok _ _ (hu _)
      · cases e <;> cases e' <;> first
          | exact .same _
          | exact .ok _ _ (hu _)
          | exact .anyLeft hs _ _
          | exact .anyRight hs _ _
    · intro hs a e
      cases e <;> first | exact .ok _ _ (hi hs a).1 | exact .anyLeft hs _ _
    · intro hs e b
      cases e <;> first | exact .ok _ _ (hi hs b).2 | exact .anyRight hs _ _
  have := impl_rel ha hw hu src hg input ho
  unfold symbolize
  generalize symbolizeImpl env src input _ = x at this ⊢
  generalize symbolizeImpl _ src input _ = y at this ⊢
  cases this with
  | errors e e' h => exact .errors _ _ h
  | left a e h => exact .anyLeft h _ _
  | right e b h => exact .anyRight h _ _
  | ok a b h => exact collect_rel h

theorem single_rel (ha : AllFns P gsym env) (hw : ∀ f, P f → ∀ addr, WRel strict R (env.symbolizeWith addr f)
      (Env.symbolizeWith { env with opts := opts, demangle := dem, demangler := demangler } addr f))
    (hu : ∀ r, R (.unknown r) (.unknown r)) (src : Source) (hg : IsGsym src → gsym) (input : Input Nat) :
    WRel strict R (symbolizeSingle env src input)
      (symbolizeSingle { env with opts := opts, demangle := dem, demangler := demangler } src input) := by
  have ho : ∀ x y, WRel strict R x y → WRel strict R (orElse (fun e => .error e) x) (orElse (fun e => .error e) y) := by
    intro x y h
    rwa [orElse_keep, orElse_keep]
  have := impl_rel ha hw hu src hg (input.map fun addr => [addr]) ho
  unfold symbolizeSingle
  generalize symbolizeImpl env src _ _ = x at this ⊢
  generalize symbolizeImpl _ src _ _ = y at this ⊢
  cases this with
  | errors e e' h => exact .errors _ _ h
  | left a e h =>
    exact .anyLeft h _ _
  | right e b h => exact .anyRight h _ _
  | ok a b h =>
    cases h with
    | nil => exact .same _
    | cons h t =>
      cases t with
      | nil => exact h
      | cons _ _ => exact .same _

end

end Blazesym.Options
