import Verif.Cache.InsertMap

/-!
# Model of `src/file_cache.rs`

Paths, file identities (`FileMeta`), opened files and cached values are abstract types
`P`, `M`, `F`, `T`; identities and paths are comparable.  What `stat` and `open` return at
the moment of a call is an argument of the operation, so that the file system may change
arbitrarily between (and during) calls.  `Cell`/`RefCell` mutation is state passing.  The
reference to an entry that the code returns is represented by the entry's key, plus the
entry at that moment.
-/

set_option autoImplicit false

namespace Blazesym.Cache

universe u v w x

/-- `src/file_cache.rs:45-66` (`Entry`): `value` is the `OnceCell`. -/
structure Entry (F : Type u) (T : Type v) where
  references : Nat
  file : F
  value : Option T
  deriving DecidableEq, Repr

/-- `src/file_cache.rs:68-82` (`PinState`, `PathEntry`): `current` is
`Option<(PinState, FileMeta)>`, with `true` for `Pinned`. -/
structure PathEntry (M : Type u) where
  current : Option (Bool × M)
  previous : List M
  deriving DecidableEq, Repr

/-- `src/file_cache.rs:90-98` (`PathEntry::metas`). -/
def PathEntry.metas {M : Type u} [DecidableEq M] (p : PathEntry M) : List M :=
  match p.current with
  | some (_, m) => if m ∈ p.previous then p.previous else p.previous ++ [m]
  | none => p.previous

/-- `src/file_cache.rs:101-108` (`PathEntry::default`). -/
def PathEntry.default {M : Type u} : PathEntry M := ⟨none, []⟩

/-- `src/file_cache.rs:156-172` (`FileCache`). -/
structure FileCache (P : Type u) (M : Type v) (F : Type w) (T : Type x) where
  cache : InsertMap P (PathEntry M)
  entries : InsertMap M (Entry F T)
  autoReload : Bool

variable {P : Type u} {M : Type v} {F : Type w} {T : Type x} [DecidableEq P] [DecidableEq M]

namespace FileCache

/-- `src/file_cache.rs:124-144` (`Builder::build`). -/
def new (autoReload : Bool) : FileCache P M F T := ⟨⟨[]⟩, ⟨[]⟩, autoReload⟩

/-- The path entry update of `src/file_cache.rs:195-211`, and whether the entry's
reference count is bumped. -/
def switchTo (pe : PathEntry M) (m : M) : PathEntry M × Bool :=
  match pe.current with
  | none => (⟨some (false, m), pe.previous⟩, decide (m ∉ pe.previous))
  | some (_, cur) =>
    if cur = m then (⟨some (false, m), pe.previous⟩, false)
    else
      let previous := if cur ∈ pe.previous then pe.previous else pe.previous ++ [cur]
      (⟨some (false, m), previous⟩, decide (m ∉ previous))

/-- `src/file_cache.rs:180-214` (`get_or_insert`): the updated entries, the updated path
entry and the identity of the returned entry. -/
def getOrInsert (s : FileCache P M F T) (pe : PathEntry M)
    (stat : Except Err M) (opened : Except Err F) :
    Except Err (InsertMap M (Entry F T) × PathEntry M × M) :=
  match stat with
  | .error e => .error e
  | .ok m =>
    match s.entries.getOrTryInsert m (fun _ => opened.map (fun f => ⟨0, f, none⟩)) with
    | (.error e, _) => .error e
    | (.ok _, entries) =>
      let (pe', bump) := switchTo pe m
      let entries := if bump then entries.update m (fun e => { e with references := e.references + 1 })
        else entries
      .ok (entries, pe', m)

/-- `src/file_cache.rs:231-232`: the branch of `entry` for a known path that is looked up
again.  The result is the identity of the entry and the entry. -/
def reload (s : FileCache P M F T) (path : P) (pe : PathEntry M) (stat : Except Err M)
    (opened : Except Err F) : Except Err (M × Entry F T) × FileCache P M F T :=
  match getOrInsert s pe stat opened with
  | .error e => (.error e, s)
  | .ok (entries, pe', m) =>
    match entries.get m with
    | some e => (.ok (m, e), { s with cache := s.cache.update path (fun _ => pe'), entries := entries })
    | none =>
      (.error .panic, { s with cache := s.cache.update path (fun _ => pe'), entries := entries })

/-- `src/file_cache.rs:217-242` (`entry`).  The result is the identity of the entry and
the entry; `unwrap` on a missing entry is a panic. -/
def entry (s : FileCache P M F T) (path : P) (stat : Except Err M) (opened : Except Err F) :
    Except Err (M × Entry F T) × FileCache P M F T :=
  match s.cache.get path with
  | some pe =>
    match pe.current with
    | some (pinned, m) =>
      if !s.autoReload || pinned then
        match s.entries.get m with
        | some e => (.ok (m, e), s)
        | none => (.error .panic, s)
      else s.reload path pe stat opened
    | none => s.reload path pe stat opened
  | none =>
    match getOrInsert s PathEntry.default stat opened with
    | .error e => (.error e, s)
    | .ok (entries, pe', m) =>
      match entries.get m with
      | some e =>
        (.ok (m, e), { s with cache := (s.cache.getOrInsert path pe').2, entries := entries })
      | none =>
        (.error .panic, { s with cache := (s.cache.getOrInsert path pe').2, entries := entries })

/-- `src/file_cache.rs:244-263` (`set_pin_state`, `pin`, `unpin`): the flag says whether
`Some(())` is returned. -/
def setPinState (s : FileCache P M F T) (path : P) (pinned : Bool) : Bool × FileCache P M F T :=
  match s.cache.get path with
  | none => (false, s)
  | some pe =>
    match pe.current with
    | none => (false, s)
    | some (_, m) =>
      (true, { s with cache := s.cache.update path (fun pe => { pe with current := some (pinned, m) }) })

/-- The loop of `src/file_cache.rs:279-291`. -/
def dropRefs : List M → InsertMap M (Entry F T) → Bool →
    Except Err (Bool × InsertMap M (Entry F T))
  | [], entries, evicted => .ok (evicted, entries)
  | m :: ms, entries, evicted =>
    match entries.get m with
    | none => .error .panic
    | some e =>
      if e.references > 1 then
        dropRefs ms (entries.update m (fun e => { e with references := e.references - 1 })) evicted
      else
        dropRefs ms (entries.remove m).2 true

/-- `src/file_cache.rs:273-293` (`evict`). -/
def evict (s : FileCache P M F T) (path : P) : Except Err Bool × FileCache P M F T :=
  match s.cache.remove path with
  | (none, _) => (.ok false, s)
  | (some pe, cache) =>
    match dropRefs pe.metas s.entries false with
    | .error e => (.error e, { s with cache := cache })
    | .ok (b, entries) => (.ok b, { s with cache := cache, entries := entries })

/-- Initialisation of the `OnceCell` of the entry with identity `m`, as the users of
`entry` do with the returned reference (`src/elf/resolver.rs:65-127`). -/
def initValue (s : FileCache P M F T) (m : M) (t : T) : FileCache P M F T :=
  { s with entries := s.entries.update m (fun e => { e with value := e.value.orElse (fun _ => some t) }) }

/-- One call on the cache. -/
inductive Op (P : Type u) (M : Type v) (F : Type w) (T : Type x) where
  | entry (path : P) (stat : Except Err M) (opened : Except Err F)
  | pin (path : P)
  | unpin (path : P)
  | evict (path : P)
  | initValue (m : M) (t : T)

/-- The state after one call. -/
def step (s : FileCache P M F T) : Op P M F T → FileCache P M F T
  | .entry p st op => (s.entry p st op).2
  | .pin p => (s.setPinState p true).2
  | .unpin p => (s.setPinState p false).2
  | .evict p => (s.evict p).2
  | .initValue m t => s.initValue m t

/-- The state after a history of calls. -/
def run (s : FileCache P M F T) (ops : List (Op P M F T)) : FileCache P M F T := ops.foldl step s

end FileCache
end Blazesym.Cache
