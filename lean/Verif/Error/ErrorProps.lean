import Verif.Error.ErrorSpec

/-!
# C48: adding context never changes an error's kind
-/

set_option autoImplicit false

namespace Blazesym.Error

/-- Every error is a root error with context attached. -/
theorem C48_every_error (e : ErrorImpl) : ∃ (r : Root) (cs : List Cow), e = attach r cs := by
  induction e with
  | dwarf t b => exact ⟨.dwarf t b, [], rfl⟩
  | io k t s b => exact ⟨.io k t s b, [], rfl⟩
  | std t s b => exact ⟨.std t s b, [], rfl⟩
  | contextOwned c s ih => obtain ⟨r, cs, rfl⟩ := ih; exact ⟨r, .owned c :: cs, rfl⟩
  | contextStatic c s ih => obtain ⟨r, cs, rfl⟩ := ih; exact ⟨r, .borrowed c :: cs, rfl⟩

/-- **C48**.  The kind of an error is that of its root, however much context is attached. -/
theorem C48_kind (r : Root) (cs : List Cow) : (attach r cs).kind = r.error.kind := by
  induction cs with
  | nil => rfl
  | cons c cs ih => cases c <;> simpa [attach, ErrorImpl.layerContext, ErrorImpl.kind] using ih

/-- **C48**.  The kind of a root error: the one of the operating system if it has a counterpart. -/
theorem C48_root_kind (kind : IoKind) (text : Bytes) (sources : List Bytes) (b : Option Bytes) :
    Means kind (Root.io kind text sources b).error.kind
      ∧ (Root.dwarf text b).error.kind = .invalidDwarf
      ∧ (Root.std text sources b).error.kind = .other := by
  refine ⟨?_, rfl, rfl⟩
  cases kind <;> simp only [Root.error, ErrorImpl.kind] <;> constructor

/-- What an operating system error kind means is unambiguous. -/
theorem Means.unique {io : IoKind} {k k' : ErrorKind} (h : Means io k) (h' : Means io k') : k = k' := by
  cases h <;> cases h' <;> rfl

/-- **C48**.  An error made from a kind and a message (`ok_or_invalid_data` and so on) has that kind
and says that message, and a present value is passed on. -/
theorem C48_made {α : Type} (o : Option α) (kind : IoKind) (text : Bytes) (b : Option Bytes) :
    (∀ (a : α), o = some a → okOrError o kind text b = .ok a)
      ∧ (o = none → ∃ (e : ErrorImpl), okOrError o kind text b = .error e ∧ Means kind e.kind
          ∧ e.display true = text) := by
  constructor
  · rintro a rfl; rfl
  · rintro rfl
    refine ⟨_, rfl, (C48_root_kind kind text [] b).1, ?_⟩
    simp [ErrorImpl.display, withIoError, ErrorImpl.own, ErrorImpl.source, theirSource, writeSources]

theorem writeSources_theirs (sep : Bytes) (l : List Bytes) :
    writeSources sep (theirSource l) = l.flatMap (fun t => sep ++ t) := by
  induction l with
  | nil => simp [theirSource, writeSources]
  | cons t ts ih =>
    rw [theirSource, writeSources]
    simp only [Dyn.own, Dyn.source, ih, List.flatMap_cons]

theorem own_messages (r : Root) : ∃ (l : List Bytes), r.messages = r.error.own :: l ∧ ∀ (sep : Bytes),
    writeSources sep r.error.source = l.flatMap (fun t => sep ++ t) := by
  cases r with
  | dwarf t b => exact ⟨[], rfl, fun sep => by simp [Root.error, ErrorImpl.source, writeSources]⟩
  | io k t s b => exact ⟨s, rfl, fun sep => writeSources_theirs sep s⟩
  | std t s b => exact ⟨s, rfl, fun sep => writeSources_theirs sep s⟩

theorem attach_messages (r : Root) (cs : List Cow) : ∃ (l : List Bytes),
    cs.map Cow.text ++ r.messages = (attach r cs).own :: l ∧ ∀ (sep : Bytes),
      writeSources sep (attach r cs).source = l.flatMap (fun t => sep ++ t) := by
  induction cs with
  | nil => simpa [attach] using own_messages r
  | cons c cs ih =>
    obtain ⟨l, hl, hs⟩ := ih
    refine ⟨cs.map Cow.text ++ r.messages, ?_, ?_⟩
    · cases c <;> simp [attach, ErrorImpl.layerContext, ErrorImpl.own, Cow.text]
    · intro sep
      have : (attach r (c :: cs)).source = some (.ours (attach r cs)) := by
        cases c <;> rfl
      rw [this, writeSources, hl]
      simp only [Dyn.own, Dyn.source, hs, List.flatMap_cons]

theorem flatMap_intercalate (sep : Bytes) (t : Bytes) (l : List Bytes) :
    t ++ l.flatMap (fun t => sep ++ t) = List.intercalate sep (t :: l) := by
  induction l generalizing t with
  | nil => simp
  | cons u us ih =>
    rw [List.flatMap_cons, ← List.append_assoc, ← List.append_assoc, List.append_assoc, ih]
    simp [List.intercalate, List.intersperse]

/-- **C48**.  The alternate form lists all contexts, outermost first, then the root error and the
errors behind it, separated by `: `. -/
theorem C48_display_chain (r : Root) (cs : List Cow) :
    (attach r cs).display true = List.intercalate (ascii ": ") (cs.map Cow.text ++ r.messages) := by
  obtain ⟨l, hl, hs⟩ := attach_messages r cs
  rw [hl, ← flatMap_intercalate, ErrorImpl.display, if_pos rfl, hs]

/-- **C48**.  The plain form is the outermost message only. -/
theorem C48_display_plain (r : Root) (cs : List Cow) :
    some ((attach r cs).display false) = (cs.map Cow.text ++ r.messages).head? := by
  obtain ⟨l, hl, hs⟩ := attach_messages r cs
  rw [hl]; rfl

theorem attach_trace (r : Root) (cs : List Cow) : (attach r cs).backtrace = r.trace := by
  induction cs with
  | nil => cases r <;> rfl
  | cons c cs ih => cases c <;> simpa [attach, ErrorImpl.layerContext, ErrorImpl.backtrace] using ih

theorem source_none {r : Root} {cs : List Cow} {m : Bytes} {l : List Bytes}
    (h : cs.map Cow.text ++ r.messages = m :: l) : (attach r cs).source = none ↔ l = [] := by
  cases cs with
  | nil => cases r with
    | dwarf t b => simp [Root.messages] at h; simp [attach, Root.error, ErrorImpl.source, h.2]
    | io k t s b =>
      simp [Root.messages] at h
      cases s <;> simp [attach, Root.error, ErrorImpl.source, theirSource, ← h.2]
    | std t s b =>
      simp [Root.messages] at h
      cases s <;> simp [attach, Root.error, ErrorImpl.source, theirSource, ← h.2]
  | cons c cs =>
    have : (attach r (c :: cs)).source = some (.ours (attach r cs)) := by cases c <;> rfl
    rw [this]
    obtain ⟨l', hl', _⟩ := attach_messages r cs
    simp only [List.map_cons, List.cons_append, List.cons.injEq] at h
    rw [hl'] at h
    simp [← h.2]

/-- **C48**.  The multi-line form: the outermost message, then every other one on its own line, then
the stack trace of the root error if one was taken. -/
theorem C48_debug (r : Root) (cs : List Cow) (m : Bytes) (l : List Bytes)
    (h : cs.map Cow.text ++ r.messages = m :: l) :
    (attach r cs).debug = ascii "Error: " ++ m
      ++ (if l = [] then [] else ascii "\n\nCaused by:" ++ l.flatMap (fun t => ascii "\n    " ++ t))
      ++ (r.trace.elim [] fun t => ascii "\n\nStack backtrace:\n" ++ t) := by
  obtain ⟨l', hl', hs⟩ := attach_messages r cs
  have hn := source_none h
  rw [hl', List.cons.injEq] at h
  obtain ⟨rfl, rfl⟩ := h
  have ht := attach_trace r cs
  have hs := hs (ascii "\n    ")
  cases hsrc : (attach r cs).source with
  | none =>
    have hl : l' = [] := hn.mp hsrc
    cases htr : r.trace <;> simp [ErrorImpl.debug, ht, htr, hsrc, hl]
  | some src =>
    have hl : ¬ l' = [] := fun h => by simp [hn.mpr h] at hsrc
    rw [hsrc] at hs
    cases htr : r.trace <;> simp [ErrorImpl.debug, ht, htr, hsrc, hl, hs]

/-- **C48**.  Attaching context to a result keeps a success and adds one layer to a failure. -/
theorem C48_result {α : Type} (res : Except ErrorImpl α) (c : Cow) :
    (∀ (a : α), res = .ok a → context res c = .ok a)
      ∧ (∀ (r : Root) (cs : List Cow), res = .error (attach r cs) → context res c = .error (attach r (c :: cs))) := by
  constructor
  · rintro a rfl; rfl
  · rintro r cs rfl; rfl

/-- The example of the documentation: a missing file, with context. -/
example : (attach (.io .notFound (ascii "No such file or directory (os error 2)") [] none)
      [.owned (ascii "failed to symbolize"), .borrowed (ascii "failed to open /does-not-exist")]).kind = .notFound
    ∧ (attach (.io .notFound (ascii "No such file or directory (os error 2)") [] none)
      [.owned (ascii "failed to symbolize"), .borrowed (ascii "failed to open /does-not-exist")]).display true
      = ascii "failed to symbolize: failed to open /does-not-exist: No such file or directory (os error 2)" := by
  constructor
  · rfl
  · rw [C48_display_chain]; decide +kernel

/-- The multi-line form of the same error. -/
example : (attach (.io .notFound (ascii "No such file or directory (os error 2)") [] none)
      [.borrowed (ascii "failed to open /does-not-exist")]).debug
      = ascii "Error: failed to open /does-not-exist\n\nCaused by:\n    No such file or directory (os error 2)" := by
  rw [C48_debug _ _ _ _ rfl]; decide +kernel

end Blazesym.Error
