import Verif.Util.Join
import Verif.Util.Reader

/-!
# Model of the depmod index (`src/kernel/depmod.rs`)

The memory mapped file is its contents.  Opening the file is not modelled.
-/

set_option autoImplicit false

namespace Blazesym.Kernel.Depmod
open Blazesym.Util

/-- A cursor operation with `.ok_or_else(|| Error::with_invalid_data(..))?`. -/
def need {α : Type} (m : Rd α) (reader : Bytes) : Except Err (α × Bytes) :=
  match m ⟨0, reader⟩ with
  | (.ok a, c) => .ok (a, c.data)
  | (.error .none, _) => .error .invalidData
  | (.error .panic, _) => .error .panic

/-- `u32::from_be` on a little endian machine: swaps the bytes. -/
def fromBe (n : Nat) : Nat :=
  n % 256 * 16777216 + n / 256 % 256 * 65536 + n / 65536 % 256 * 256 + n / 16777216 % 256

/-- `src/kernel/depmod.rs:16`. -/
def INDEX_NODE_MASK : Nat := 0x0fffffff
/-- `src/kernel/depmod.rs:17`. -/
def INDEX_NODE_CHILDS : Nat := 0x20000000
/-- `src/kernel/depmod.rs:18`. -/
def INDEX_NODE_VALUES : Nat := 0x40000000
/-- `src/kernel/depmod.rs:19`. -/
def INDEX_NODE_PREFIX : Nat := 0x80000000

/-- `src/kernel/depmod.rs:71-95` (`validate`). -/
def validate (data : Bytes) : Except Err Unit :=
  match need readU32 data with
  | .error e => .error e
  | .ok (magic, reader) =>
    if fromBe magic ≠ 0xb007f457 then .error .invalidData
    else
      match need readU32 reader with
      | .error e => .error e
      | .ok (version, _) => if fromBe version ≠ 0x00020001 then .error .invalidData else .ok ()

/-- `src/kernel/depmod.rs:168-195`: the values of the node at which the name ends (without the
final `join`; `bytes_to_path` does not fail on Unix). -/
def values (offset : Nat) (reader : Bytes) : Except Err (Option Bytes) :=
  if offset &&& INDEX_NODE_VALUES = 0 then .ok none
  else
    match need readU32 reader with
    | .error e => .error e
    | .ok (count, reader) =>
      if fromBe count = 0 then .ok none
      else
        match need (advance 4) reader with
        | .error e => .error e
        | .ok ((), reader) =>
          match position (fun b => b == 58) reader with
          | none => .error .invalidData
          | some pos => .ok (some (reader.take pos))

/-- `src/kernel/depmod.rs:125-135`: the prefix of a node; `none` if the name does not start
with it. -/
def dropPrefix (offset : Nat) (name reader : Bytes) : Except Err (Option (Bytes × Bytes)) :=
  if offset &&& INDEX_NODE_PREFIX ≠ 0 then
    match need readCstr reader with
    | .error e => .error e
    | .ok (pre, reader) =>
      if pre.isPrefixOf name then .ok (some (name.drop pre.length, reader)) else .ok none
  else .ok (some (name, reader))

/-- One iteration of the loop `src/kernel/depmod.rs:112-166` from the point at which `offset`
has been read, and what follows the loop.  Every iteration consumes a byte of the name; the budget
is larger than its length (`C33_panics_iff` shows that it is not exhausted). -/
def visit (data : Bytes) : Nat → Nat → Bytes → Except Err (Option Bytes)
  | 0, _, _ => .error .panic
  | fuel + 1, offset, name =>
    if offset &&& INDEX_NODE_MASK > data.length then .error .invalidData
    else
      match dropPrefix offset name (data.drop (offset &&& INDEX_NODE_MASK)) with
      | .error e => .error e
      | .ok none => .ok none
      | .ok (some (name, reader)) =>
        if offset &&& INDEX_NODE_CHILDS ≠ 0 then
          match need readU8 reader with
          | .error e => .error e
          | .ok (first, reader) =>
            match need readU8 reader with
            | .error e => .error e
            | .ok (last, reader) =>
              match name with
              | cur :: name =>
                if cur.toNat < first ∨ cur.toNat > last then .ok none
                else
                  match need (advance (4 * (cur.toNat - first))) reader with
                  | .error e => .error e
                  | .ok ((), reader) =>
                    match need readU32 reader with
                    | .error e => .error e
                    | .ok (offset, _) => visit data fuel (fromBe offset) name
              | [] =>
                -- `last - first + 1` is computed with 8 bits.
                if last < first then .error .panic
                else if last - first + 1 ≥ 256 then .error .panic
                else
                  match need (advance (4 * (last - first + 1))) reader with
                  | .error e => .error e
                  | .ok ((), reader) => values offset reader
        else
          match name with
          | _ :: _ => .ok none
          | [] => values offset reader

/-- `src/kernel/depmod.rs:195`: the path is relative to the directory of the index. -/
def joined (baseDir : Bytes) : Except Err (Option Bytes) → Except Err (Option Bytes)
  | .error e => .error e
  | .ok none => .ok none
  | .ok (some path) => .ok (some (pathJoin baseDir path))

/-- `src/kernel/depmod.rs:101-196` (`find_path`). -/
def findPath (baseDir data name : Bytes) : Except Err (Option Bytes) :=
  match need (advance 8) data with
  | .error e => .error e
  | .ok ((), reader) =>
    match need readU32 reader with
    | .error e => .error e
    | .ok (offset, _) => joined baseDir (visit data (name.length + 1) (fromBe offset) name)

end Blazesym.Kernel.Depmod
