import Verif.Util.LayoutSpec

/-!
Specification of the depmod index format (independent of the model): a trie stored as nodes.  A
node is referred to by a big endian 32 bit word: the low 28 bits are its offset in the file, bit 31
tells that the node begins with a NUL terminated prefix, bit 29 that it has children (the bytes
of the first and last one and a reference for each in between), and bit 30 that it has values (a
count, and for each value a priority and a string).
-/

set_option autoImplicit false

namespace Blazesym.Spec.Depmod
open Blazesym.Spec

/-- The big endian 32 bit number at offset `off` is `v`. -/
def Be (d : Bytes) (off v : Nat) : Prop :=
  ∃ a b c e : UInt8, IsSlice d off 4 [a, b, c, e] ∧
    v = a.toNat * 2 ^ 24 + b.toNat * 2 ^ 16 + c.toNat * 2 ^ 8 + e.toNat

def HasPrefix (ref : Nat) : Prop := ref / 2 ^ 31 % 2 = 1
def HasKids (ref : Nat) : Prop := ref / 2 ^ 29 % 2 = 1
def HasValues (ref : Nat) : Prop := ref / 2 ^ 30 % 2 = 1

/-- The node referred to by `ref` has prefix `pre`, and continues at `next`. -/
def Node (d : Bytes) (ref : Nat) (pre : Bytes) (next : Nat) : Prop :=
  ref % 2 ^ 28 ≤ d.length ∧
  ((HasPrefix ref ∧ NameAt d (ref % 2 ^ 28) pre ∧ next = ref % 2 ^ 28 + pre.length + 1) ∨
   (¬ HasPrefix ref ∧ pre = [] ∧ next = ref % 2 ^ 28))

/-- The node has children for the bytes from `first` to `last`. -/
def Kids (d : Bytes) (ref next : Nat) (first last : UInt8) : Prop :=
  HasKids ref ∧ d[next]? = some first ∧ d[next + 1]? = some last

/-- Following `name` from the node `ref` ends at the node `r`, which continues at `next` (after
its prefix). -/
inductive Leads (d : Bytes) : Nat → Bytes → Nat → Nat → Prop
  | here (ref : Nat) (pre : Bytes) (next : Nat) (h : Node d ref pre next) : Leads d ref pre ref next
  | child (ref : Nat) (pre : Bytes) (next : Nat) (first last c : UInt8) (ref' : Nat) (rest : Bytes) (r next' : Nat)
      (h : Node d ref pre next) (hk : Kids d ref next first last) (hc : first ≤ c ∧ c ≤ last)
      (hr : Be d (next + 2 + 4 * (c.toNat - first.toNat)) ref') (hl : Leads d ref' rest r next') :
      Leads d ref (pre ++ c :: rest) r next'

/-- The values of the node start at `v`: after its children. -/
def ValuesAt (d : Bytes) (ref next v : Nat) : Prop :=
  (∃ first last : UInt8, Kids d ref next first last ∧ first ≤ last ∧
    v = next + 2 + 4 * (last.toNat - first.toNat + 1)) ∨
  (¬ HasKids ref ∧ v = next)

/-- The path of the first value: the text up to the first colon. -/
def PathAt (d : Bytes) (v : Nat) (path : Bytes) : Prop :=
  ∃ n, Be d v n ∧ n ≠ 0 ∧ ∃ rest, v + 8 ≤ d.length ∧ d.drop (v + 8) = path ++ 58 :: rest ∧ ∀ b ∈ path, b ≠ 58

/-- The range of the node's children is not usable: it is reversed, or has all 256 bytes. -/
def BadRange (d : Bytes) (ref next : Nat) : Prop :=
  ∃ first last : UInt8, Kids d ref next first last ∧ (last < first ∨ last.toNat - first.toNat = 255)

/-- The path stored for a name, starting from the node `ref`. -/
def Stored (d : Bytes) (ref : Nat) (name path : Bytes) : Prop :=
  ∃ r next v, Leads d ref name r next ∧ HasValues r ∧ ValuesAt d r next v ∧ PathAt d v path

/-! ### Tries -/

/-- A trie: a prefix, the byte of the first child, the children (for consecutive bytes) and the
path stored. -/
inductive Trie where
  | node (pre : Bytes) (first : Nat) (kids : List Trie) (val : Option Bytes)

/-- The trie maps `name` to `path`. -/
inductive Trie.Has : Trie → Bytes → Bytes → Prop
  | here (pre : Bytes) (first : Nat) (kids : List Trie) (path : Bytes) :
      Has (.node pre first kids (some path)) pre path
  | child (pre : Bytes) (first : Nat) (kids : List Trie) (val : Option Bytes) (i : Nat) (t : Trie) (c : UInt8)
      (rest path : Bytes) (hi : kids[i]? = some t) (hc : c.toNat = first + i) (h : Has t rest path) :
      Has (.node pre first kids val) (pre ++ c :: rest) path

/-- The file `d` stores the trie at the reference `ref`. -/
inductive Encodes (d : Bytes) : Nat → Trie → Prop
  | node (ref : Nat) (pre : Bytes) (next first : Nat) (kids : List Trie) (refs : List Nat) (val : Option Bytes)
      (hnode : Node d ref pre next)
      (hkids : (¬ HasKids ref ∧ kids = []) ∨
        (∃ f l : UInt8, Kids d ref next f l ∧ f.toNat = first ∧ l.toNat + 1 = first + kids.length ∧
          kids ≠ [] ∧ kids.length ≤ 255))
      (hlen : refs.length = kids.length)
      (hrefs : ∀ (i r : Nat), refs[i]? = some r → Be d (next + 2 + 4 * i) r)
      (hsub : ∀ (i : Nat) (t : Trie) (r : Nat), kids[i]? = some t → refs[i]? = some r → Encodes d r t)
      (hval : ∀ path, val = some path → HasValues ref ∧ ∃ v, ValuesAt d ref next v ∧ PathAt d v path)
      (hnone : val = none → ¬ HasValues ref ∨ ∃ v, ValuesAt d ref next v ∧ Be d v 0) :
      Encodes d ref (.node pre first kids val)

end Blazesym.Spec.Depmod
