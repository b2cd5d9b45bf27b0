/-
Vocabulary for the requests of a search and their replies (C102, C103).
-/
import Verif.Spec.Search
import Verif.Model.Handles

namespace Btrd.Spec

/-- the least key a request asks for -/
def fromKey (a : SearchArgs) : Key := (a.minObjectid, a.minType, a.minOffset)

/-- **these requests, the first being call number `i`, were replied to with these items** -/
inductive Replied (k : Kernel) : Nat → List SearchArgs → List (List Item) → Prop where
  | none (i) : Replied k i [] []
  | next {i a buf q as qs} : k i a = .data q.length buf → Holds buf 0 q → Replied k (i + 1) as qs →
      Replied k i (a :: as) (q :: qs)

/-- the requests of a search of this mounted filesystem, on this descriptor, in order -/
def Requested (fuel : Nat) (k : Kernel) (a : SearchArgs) (as : List SearchArgs) : Prop :=
  ∀ fd, searchSys fuel (.mounted k) a (some (.dir fd)) = as.map (.ioctl fd)

end Btrd.Spec
