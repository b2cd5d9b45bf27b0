/-
What the bundled scripts are for (C75, C76).
-/
import Verif.Spec.Search
import Verif.Spec.Hist
import Verif.Model.Eval
import Batteries.Data.List.Basic

namespace Btrd.Spec

/-- the values in order, each as displayed, each followed by a line feed -/
inductive Shown : List Value → Str → Prop where
  | nil : Shown [] []
  | cons {v vs t ts} : v.display = .ok t → Shown vs ts → Shown (v :: vs) (t ++ ['\n'] ++ ts)

/-! ### `block_group_dist.btrd`: how full the data block groups are, and the free space between extents

Block groups are items of type 192 in the extent tree (tree 2): from byte `objectid`, `offset` bytes long;
the item holds the number of bytes used (8 bytes), an objectid (8 bytes) and the flags (8 bytes), of which
the lowest says that the group is for data. Extents are items of type 168: from byte `objectid`, `offset`
bytes long. -/

/-- the data block groups of a filesystem -/
def dataGroups (trees : Trees) : List Item :=
  (trees 2).filter fun it => it.1.ty == 192 && leAt (mem it.2) 16 8 % 2 == 1

/-- how much of a block group is in use, in whole percent -/
def percentUsed (g : Item) : Nat := 100 * leAt (mem g.2) 0 8 / g.1.offset

/-- the extents that start in a block group -/
def extentsOf (trees : Trees) (g : Item) : List Item :=
  (trees 2).filter fun it => it.1.ty == 168 && decide (g.1.objectid ≤ it.1.objectid) &&
    decide (it.1.objectid < g.1.objectid + g.1.offset)

/-- the lengths of the gaps in front of the extents, from a position on -/
def gaps : Nat → List Item → List Nat
  | _, [] => []
  | pos, it :: its =>
    (if pos < it.1.objectid then [it.1.objectid - pos] else []) ++ gaps (it.1.objectid + it.1.offset) its

/-- the numbers of the first histogram -/
def usageOf (trees : Trees) : List Nat := (dataGroups trees).map percentUsed

/-- the numbers of the second -/
def freeSpaceOf (trees : Trees) : List Nat :=
  (dataGroups trees).flatMap fun g => gaps g.1.objectid (extentsOf trees g)

/-- the text of a histogram of some numbers: nothing if there are none; otherwise one line for each of the
buckets, which lie side by side between neighbouring boundaries, from the greatest boundary not above the smallest
number up to the least boundary not below the largest (none when both are that boundary), and count the numbers
between their boundaries -/
def HistText (vals : List Int) (t : Str) : Prop :=
  (vals = [] ∧ t = []) ∨
  ∃ mn mx lo hi bs ls, IsMin mn vals ∧ IsMax mx vals ∧ IsFloor mn lo ∧ mx ≤ hi ∧ Contiguous lo hi bs ∧
    (bs = [] ∨ IsCeil mx hi) ∧ (∀ b ∈ bs, b.count = howMany vals fun x => decide (b.start ≤ x ∧ x < b.stop)) ∧
    List.Forall₂ (IsLine vals.length) bs ls ∧ t = ls.flatten

end Btrd.Spec
