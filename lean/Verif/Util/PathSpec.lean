import Verif.Basic

/-! Specification vocabulary for Unix paths (independent of the model). -/

set_option autoImplicit false

namespace Blazesym.Spec

/-- The pieces of a byte string between separators (`/`). -/
def pieces : Bytes → List Bytes
  | [] => [[]]
  | b :: t =>
    if b = 47 then [] :: pieces t
    else
      match pieces t with
      | [] => [[b]]
      | p :: ps => (b :: p) :: ps

/-- The components of a path: the root directory of an absolute path, a leading `.`, and the
pieces between separators other than `.` and empty ones. -/
def components (path : Bytes) : List Bytes :=
  (if path.head? = some 47 then [[47]]
    else if (pieces path).head? = some [46] then [[46]] else []) ++
  (pieces path).filter (fun p => decide (p ≠ [] ∧ p ≠ [46]))

/-- The last component of the path has this extension, after a dot that is not its first byte. -/
def HasExtension (path e : Bytes) : Prop :=
  ∃ base, (components path).getLast? = some (base ++ 46 :: e) ∧ base ≠ []

end Blazesym.Spec
