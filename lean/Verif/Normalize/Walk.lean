import Verif.Maps.Maps

/-!
# Model of the walk over addresses and mappings

`src/normalize/user.rs:304-361` (`normalize_sorted_user_addrs_with_entries`), used for
normalization and for process symbolization.
-/

set_option autoImplicit false

namespace Blazesym.Normalize
open Blazesym.Util Blazesym.Maps

/-- Where entries come from (the closure `entries` passed by
`src/normalize/normalizer.rs:250-304` and `src/symbolize/symbolizer.rs:1006-1022`): an
iterator over a listing, or a query of the kernel that is asked for an address. -/
inductive Source where
  | list (items : List (Except Err Entry))
  | query (q : Nat → Except Err (Option Entry))

/-- One call of the closure: the item, and the source afterwards.  An exhausted iterator stays
exhausted. -/
def Source.next : Source → Nat → Option (Except Err Entry) × Source
  | .list [], _ => (none, .list [])
  | .list (x :: t), _ => (some x, .list t)
  | .query q, addr =>
    match q addr with
    | .error e => (some (.error e), .query q)
    | .ok (some e) => (some (.ok e), .query q)
    | .ok none => (none, .query q)

/-- `src/normalize/user.rs:118-124` (`Handler`): a state and what happens to it for an
address that is in no entry resp. in an entry. -/
structure Handler (S : Type) where
  unknown : Nat → S → S
  entryAddr : Nat → Entry → S → Except Err S

/-- Outcome of the inner loop. -/
inductive Found where
  | entry (e : Entry) (src : Source)
  | exhausted (e : Entry) (src : Source)
  | failed (err : Err)
  | diverged

/-- The loop `while addr >= entry.as_ref().range.end` of `src/normalize/user.rs:334-345`.
Every iteration of a listing uses up an item; a query that keeps answering with entries
before the address would never end (`diverged`). -/
def skip (addr : Nat) : Nat → Entry → Source → Found
  | 0, _, _ => .diverged
  | fuel + 1, entry, src =>
    if addr ≥ entry.stop then
      match src.next addr with
      | (none, src) => .exhausted entry src
      | (some (.error e), _) => .failed e
      | (some (.ok entry), src) => skip addr fuel entry src
    else .entry entry src

/-- A bound on the number of iterations of `skip`: the items left, or one query. -/
def Source.fuel : Source → Nat
  | .list l => l.length + 1
  | .query _ => 2

/-- The loop over the addresses, `src/normalize/user.rs:326-358`. -/
def walkLoop {S : Type} (h : Handler S) : List Nat → Nat → Entry → Source → S → Except Err S
  | [], _, _, _, s => .ok s
  | addr :: rest, prev, entry, src, s =>
    if addr < prev then .error .invalidInput
    else
      match skip addr src.fuel entry src with
      | .diverged => .error .panic
      | .failed e => .error e
      | .exhausted entry src => walkLoop h rest addr entry src (h.unknown addr s)
      | .entry entry src =>
        if addr < entry.start then walkLoop h rest addr entry src (h.unknown addr s)
        else
          match h.entryAddr addr entry s with
          | .error e => .error e
          | .ok s => walkLoop h rest addr entry src s

/-- `src/normalize/user.rs:304-361` (`normalize_sorted_user_addrs_with_entries`). -/
def walk {S : Type} (h : Handler S) (addrs : List Nat) (src : Source) (s : S) : Except Err S :=
  let prev := addrs.head?.getD 0
  match src.next prev with
  | (none, _) => .error .unexpectedEof
  | (some (.error e), _) => .error e
  | (some (.ok entry), src) => walkLoop h addrs prev entry src s

end Blazesym.Normalize
