import Verif.Util.LayoutSpec
import Verif.Zip.Archive

/-!
Specification of ZIP archives, after
<https://pkware.cachefly.net/webdocs/casestudies/APPNOTE.TXT> (sections 4.3.7, 4.3.12, 4.3.16).
-/

set_option autoImplicit false

namespace Blazesym.Spec.Zip
open Blazesym.Zip

/-- At offset `off` there is a local file header with these flags, followed by the file's name, an
extra field and the file's data; the entry describes the file. -/
def LocalAt (d : Bytes) (off flags : Nat) (e : Entry) : Prop :=
  ∃ extra,
    Num d off 4 0x04034b50 ∧ Num d (off + 6) 2 flags ∧ Num d (off + 8) 2 e.compression ∧
    Num d (off + 18) 4 e.data.length ∧ Num d (off + 26) 2 e.path.length ∧ Num d (off + 28) 2 extra ∧
    IsSlice d (off + 30) e.path.length e.path ∧
    e.dataOffset = off + 30 + e.path.length + extra ∧
    IsSlice d e.dataOffset e.data.length e.data

/-- At offset `pos` there is a central directory header, all in all of `len` bytes, that refers
to a local file header at `off`. -/
def HeaderAt (d : Bytes) (pos off len : Nat) : Prop :=
  ∃ name extra comment,
    Num d pos 4 0x02014b50 ∧ Num d (pos + 28) 2 name ∧ Num d (pos + 30) 2 extra ∧
    Num d (pos + 32) 2 comment ∧ Num d (pos + 42) 4 off ∧
    len = 46 + name + extra + comment ∧ pos + len ≤ d.length

/-- From offset `pos` on, up to `stop`, there are central directory headers that refer to these
local file headers. -/
def Directory (d : Bytes) (pos stop : Nat) : List Nat → Prop
  | [] => pos = stop
  | off :: offs => ∃ len, HeaderAt d pos off len ∧ Directory d (pos + len) stop offs

/-- An end of central directory record. -/
structure Eocd where
  thisDisk : Nat
  cdDisk : Nat
  records : Nat
  recordsTotal : Nat
  cdOffset : Nat
  commentLength : Nat
  deriving DecidableEq

/-- The record is at offset `pos`, and there are enough bytes after it for the comment. -/
def EocdAt (d : Bytes) (pos : Nat) (r : Eocd) : Prop :=
  Num d pos 4 0x06054b50 ∧ Num d (pos + 4) 2 r.thisDisk ∧ Num d (pos + 6) 2 r.cdDisk ∧
  Num d (pos + 8) 2 r.records ∧ Num d (pos + 10) 2 r.recordsTotal ∧ Num d (pos + 16) 4 r.cdOffset ∧
  Num d (pos + 20) 2 r.commentLength ∧ pos + 22 + r.commentLength ≤ d.length

/-- The last such record of the archive, not too far away from its end. -/
def LastEocd (d : Bytes) (r : Eocd) : Prop :=
  ∃ pos, EocdAt d pos r ∧ d.length ≤ pos + 22 + 65536 ∧ ∀ pos' r', pos < pos' → ¬ EocdAt d pos' r'

/-- The archive is in a single file. -/
def Eocd.SingleFile (r : Eocd) : Prop := r.thisDisk = 0 ∧ r.cdDisk = 0 ∧ r.recordsTotal = r.records

/-- The archive can be opened: it has `n` central directory headers from offset `pos` on. -/
def Opens (d : Bytes) (pos n : Nat) : Prop :=
  ∃ r, LastEocd d r ∧ r.SingleFile ∧ pos = r.cdOffset ∧ n = r.records ∧ pos + n * 46 ≤ d.length

end Blazesym.Spec.Zip
