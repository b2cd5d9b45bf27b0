/-
What the kernel promises about its tree search (`BTRFS_IOC_TREE_SEARCH_V2`), independent of how the tool
uses it: which items of a tree match a request, in which order they come, how they are laid out in the
result buffer, and that a reply may stop early.
-/
import Verif.Spec.Layout
import Verif.Model.Fs

namespace Btrd.Spec

/-- the key of an item: (objectid, type, offset) -/
abbrev Key := Nat × Nat × Nat

/-- keys are ordered by objectid, then by type, then by offset -/
def KeyLt (a b : Key) : Prop :=
  a.1 < b.1 ∨ a.1 = b.1 ∧ (a.2.1 < b.2.1 ∨ a.2.1 = b.2.1 ∧ a.2.2 < b.2.2)

instance (a b : Key) : Decidable (KeyLt a b) := inferInstanceAs (Decidable (_ ∨ _))

def keyOf (it : Item) : Key := (it.1.objectid, it.1.ty, it.1.offset)

/-- the size of the result buffer: 16 MiB -/
def bufSize : Nat := 16777216

/-- the buffer holds these items from `off` on: 32 bytes of header (transid, objectid and offset in 8 bytes
each, type and length in 4 bytes each, little endian), then as many bytes of payload as the header says,
then the next item; all within the buffer -/
def Holds (buf : Mem) : Nat → List Item → Prop
  | _, [] => True
  | off, (h, payload) :: its =>
    off + 32 + payload.length ≤ bufSize ∧
    leAt buf off 8 = h.transid ∧ leAt buf (off + 8) 8 = h.objectid ∧ leAt buf (off + 16) 8 = h.offset ∧
    leAt buf (off + 24) 4 = h.ty ∧ leAt buf (off + 28) 4 = h.len ∧ h.len = payload.length ∧
    (∀ j < payload.length, payload[j]? = some (buf (off + 32 + j))) ∧
    Holds buf (off + 32 + payload.length) its

/-- the item is one the request asks for: its key within the bounds (inclusive), its transaction too -/
def Asked (a : SearchArgs) (it : Item) : Prop :=
  ¬ KeyLt (keyOf it) (a.minObjectid, a.minType, a.minOffset) ∧
  ¬ KeyLt (a.maxObjectid, a.maxType, a.maxOffset) (keyOf it) ∧
  a.minTransid ≤ it.1.transid ∧ it.1.transid ≤ a.maxTransid

instance (a : SearchArgs) (it : Item) : Decidable (Asked a it) := inferInstanceAs (Decidable (_ ∧ _))

/-- a filesystem: the items of each tree -/
abbrev Trees := Nat → List Item

/-- trees hold their items in key order, no two with the same key; types are single bytes -/
def WellOrdered (trees : Trees) : Prop :=
  ∀ t, (trees t).Pairwise (fun a b => KeyLt (keyOf a) (keyOf b)) ∧ ∀ it ∈ trees t, it.1.ty < 256

/-- the items a request asks for, in key order -/
def matching (trees : Trees) (a : SearchArgs) : List Item := (trees a.treeId).filter (fun it => decide (Asked a it))

/-- the kernel keeps its promise: it replies with the first so many of the items asked for, how many is up
to it, call by call; but with none only if there are none. -/
def Honours (k : Kernel) (trees : Trees) : Prop :=
  ∀ i a, ∃ buf q rest, k i a = .data q.length buf ∧ Holds buf 0 q ∧ matching trees a = q ++ rest ∧
    (q = [] → rest = [])

/-- **the kernel keeps its promise call by call, whatever happens to the filesystem in between**: `trees i` is what it
holds at call `i` -/
def HonoursEach (k : Kernel) (trees : Nat → Trees) : Prop :=
  ∀ i a, ∃ buf q rest, k i a = .data q.length buf ∧ Holds buf 0 q ∧ matching (trees i) a = q ++ rest ∧ (q = [] → rest = [])

/-- at every call its trees are in order -/
def OrderedEach (trees : Nat → Trees) : Prop := ∀ i, WellOrdered (trees i)

/-- one of the upper bounds of the request is below the largest value -/
def Bounded (a : SearchArgs) : Prop :=
  ¬ (a.maxObjectid = 2 ^ 64 - 1 ∧ a.maxType = 2 ^ 8 - 1 ∧ a.maxOffset = 2 ^ 64 - 1 ∧ a.maxTransid = 2 ^ 64 - 1)

/-- the image has the magic `_BHRfS_M` at the position -/
def magicAt (img : Bytes) (pos : Nat) : Prop :=
  ∀ j (c : Char), s!' "_BHRfS_M"[j]? = some c → (img[pos + j]?).map (fun b => Char.ofNat b.toNat) = some c

end Btrd.Spec
