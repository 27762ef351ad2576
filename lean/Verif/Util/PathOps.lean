import Verif.Util.Join
import Verif.Util.Extension

/-! # Model of further `std::path::Path` operations on Unix

`parent`, `set_file_name`, comparison, and taking components off both ends, as used by
`src/dwarf/debug_link.rs`. The source is `library/std/src/path.rs` of the standard library. -/

set_option autoImplicit false

namespace Blazesym.Util

/-- `Path::parent`: none for the root and the empty path. -/
def parent (path : Bytes) : Option Bytes :=
  match splitLast path with
  | some (dir, comp) => if comp = [47] then none else some dir
  | none => none

/-- `PathBuf::set_file_name`: `if self.file_name().is_some() { self.pop() }; self.push(name)`;
`pop` truncates to the parent, if any. -/
def setFileName (path name : Bytes) : Bytes :=
  match fileName path with
  | some _ =>
    match parent path with
    | some p => pathJoin p name
    | none => pathJoin path name
  | none => pathJoin path name

/-- The components of a path (`Path::components`), collected from the back. Every step shortens
the path, its length is fuel enough. -/
def pathComps (fuel : Nat) (path : Bytes) : List Bytes :=
  match fuel with
  | 0 => []
  | fuel + 1 =>
    match splitLast path with
    | some (dir, comp) => pathComps fuel dir ++ [comp]
    | none => []

/-- `PartialEq for Path`: the components are the same. -/
def pathEq (a b : Bytes) : Bool := pathComps a.length a == pathComps b.length b

/-- `Components::parse_next_component` on what follows the root or the leading `.`: the piece before
the first separator and the number of bytes up to and including that separator. -/
def nextComponent (body : Bytes) : Nat × Bytes :=
  let comp := body.takeWhile (fun b => b != 47)
  (if comp.length = body.length then comp.length else comp.length + 1, comp)

/-- The loop of `Components::next` while there is body left: what is left after the first
component. -/
def dropBody (fuel : Nat) (body : Bytes) : Bytes :=
  match fuel with
  | 0 => body
  | fuel + 1 =>
    if body = [] then []
    else
      let c := nextComponent body
      if isComponent c.2 then body.drop c.1 else dropBody fuel (body.drop c.1)

/-- `Components::next` on a new iterator: what is left after the root, a leading `.` or the first
component. -/
def dropFirst (path : Bytes) : Bytes :=
  if path.head? = some 47 then path.drop 1
  else if includeCurDir path then path.drop 1
  else dropBody path.length path

/-- `Components::parse_next_component_back` when something has been taken off the front: all that
is left is body. -/
def bodyComponentBack (body : Bytes) : Nat × Bytes :=
  let comp := (body.reverse.takeWhile (fun b => b != 47)).reverse
  (if comp.length = body.length then comp.length else comp.length + 1, comp)

/-- `Components::next_back` when something has been taken off the front. -/
def dropBack (fuel : Nat) (body : Bytes) : Bytes :=
  match fuel with
  | 0 => body
  | fuel + 1 =>
    if body = [] then []
    else
      let c := bodyComponentBack body
      let body' := body.take (body.length - c.1)
      if isComponent c.2 then body' else dropBack fuel body'

/-- `Components::trim_left` when something has been taken off the front. -/
def trimBodyLeft (fuel : Nat) (body : Bytes) : Bytes :=
  match fuel with
  | 0 => body
  | fuel + 1 =>
    if body = [] then []
    else
      let c := nextComponent body
      if isComponent c.2 then body else trimBodyLeft fuel (body.drop c.1)

/-- `Components::trim_right` when something has been taken off the front. -/
def trimBodyRight (fuel : Nat) (body : Bytes) : Bytes :=
  match fuel with
  | 0 => body
  | fuel + 1 =>
    if body = [] then []
    else
      let c := bodyComponentBack body
      if isComponent c.2 then body else trimBodyRight fuel (body.take (body.length - c.1))

/-- `components.next(); components.next_back(); components.as_path()`: the path without its first
and last component. -/
def middle (path : Bytes) : Bytes :=
  let b := dropBack path.length (dropFirst path)
  trimBodyRight path.length (trimBodyLeft path.length b)

end Blazesym.Util
