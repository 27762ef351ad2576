import Verif.Basic

/-!
# Model of `std::path::Components` on Unix

Only what blazesym uses: taking components off the back, and the path of what is left.
The source is `library/std/src/path.rs` of the standard library.
-/

set_option autoImplicit false

namespace Blazesym.Util

/-- `Components::include_cur_dir`: a relative path starting with a `.` component. -/
def includeCurDir : Bytes → Bool
  | [46] => true
  | 46 :: 47 :: _ => true
  | _ => false

/-- `Components::len_before_body`, nothing having been taken off the front: the root or the
leading `.`. -/
def lenBeforeBody (path : Bytes) : Nat :=
  if path.head? = some 47 then 1 else if includeCurDir path then 1 else 0

/-- `Components::parse_next_component_back`: what comes after the last separator of the body
of the path, and the number of bytes up to and including that separator. -/
def nextComponentBack (path : Bytes) : Nat × Bytes :=
  let body := path.drop (lenBeforeBody path)
  let comp := (body.reverse.takeWhile (fun b => b != 47)).reverse
  (if comp.length = body.length then comp.length else comp.length + 1, comp)

/-- `Components::parse_single_component`: `.` and nothing are skipped. -/
def isComponent (comp : Bytes) : Bool := comp != [] && comp != [46]

/-- The loop of `Components::next_back` while there is body left: skip what is not a
component, take off the component, if any. -/
def popBody (fuel : Nat) (path : Bytes) : Bytes × Option Bytes :=
  match fuel with
  | 0 => (path, none)
  | fuel + 1 =>
    if lenBeforeBody path < path.length then
      let c := nextComponentBack path
      let path' := path.take (path.length - c.1)
      if isComponent c.2 then (path', some c.2) else popBody fuel path'
    else (path, none)

/-- The loop of `Components::trim_right` (`as_path`). -/
def trimRight (fuel : Nat) (path : Bytes) : Bytes :=
  match fuel with
  | 0 => path
  | fuel + 1 =>
    if lenBeforeBody path < path.length then
      let c := nextComponentBack path
      if isComponent c.2 then path else trimRight fuel (path.take (path.length - c.1))
    else path

/-- `Components::next_back` followed by `Components::as_path`: the last component of a path and
the path of the others; `none` if there is no component.  Every step shortens the path, its
length is fuel enough. -/
def splitLast (path : Bytes) : Option (Bytes × Bytes) :=
  match popBody path.length path with
  | (rest, some comp) => some (trimRight path.length rest, comp)
  | (rest, none) =>
    if rest.head? = some 47 then some ([], [47])
    else if includeCurDir rest then some ([], [46])
    else none

end Blazesym.Util
