/-
What the messages of `--debug` say: which entries were read and what was given to the parser, and every call of every
search with its result.
-/
import Verif.Spec.Ioctl
import Verif.Spec.Messages
import Verif.Model.Debug

namespace Btrd.Spec

/-- The messages of a session: for each entry what was read and what was given to the parser, then two messages for each
answered call of each search while it was evaluated; nothing for other events. `log` is what happened. -/
inductive SessionLog (fuel : Nat) : List ReplEvent → List Event → List LogLine → Prop
  | nil : SessionLog fuel [] [] []
  | line (s : Str) (evs : List Event) {es : List ReplEvent} {log : List Event} {ls : List LogLine} :
      SessionLog fuel es log ls →
      SessionLog fuel (.line s :: es) (evs ++ log)
        (.read s :: .cleaned (fixupInput (stripComments s)) :: evs.flatMap (fun e => match e with
          | .searched fs a _ => fs.searchLog fuel a
          | _ => []) ++ ls)
  | other {e : ReplEvent} {es : List ReplEvent} {log : List Event} {ls : List LogLine} :
      (∀ s, e ≠ .line s) → SessionLog fuel es log ls → SessionLog fuel (e :: es) log ls

/-- two requests that differ at most in where they begin -/
def SameButStart (a b : SearchArgs) : Prop :=
  b = { a with minObjectid := b.minObjectid, minType := b.minType, minOffset := b.minOffset }

/-- where a request begins -/
def startOf (a : SearchArgs) : Key := (a.minObjectid, a.minType, a.minOffset)

/-- the kernel leaves the key as it was, but for `nr_items` (bytes 64 to 67 of 104) -/
def LeavesKey (M : Machine) : Prop :=
  ∀ i m m', M i treeSearchV2 m = .done m' → ∀ j < 104, j < 64 ∨ 68 ≤ j → m' j = m j

/-- a line with the value of a member -/
def memberLine (name : Str) (n : Nat) : Str := s!' "    " ++ name ++ s!' ": " ++ numeral n ++ s!' ",\n"

/-- the text of the two messages about a call for `a` that reported `n` items -/
def keyText (a : SearchArgs) (n : Nat) : Str :=
  s!' "search() key: BtrfsIoctlSearchKey {\n" ++
    memberLine s!' "tree_id" a.treeId ++
    memberLine s!' "min_objectid" a.minObjectid ++ memberLine s!' "max_objectid" a.maxObjectid ++
    memberLine s!' "min_offset" a.minOffset ++ memberLine s!' "max_offset" a.maxOffset ++
    memberLine s!' "min_transid" a.minTransid ++ memberLine s!' "max_transid" a.maxTransid ++
    memberLine s!' "min_type" a.minType ++ memberLine s!' "max_type" a.maxType ++
    memberLine s!' "nr_items" n ++
    memberLine s!' "_unused" 0 ++ memberLine s!' "_unused1" 0 ++ memberLine s!' "_unused2" 0 ++
    memberLine s!' "_unused3" 0 ++ memberLine s!' "_unused4" 0 ++ s!' "}"

def foundText (n : Nat) : Str := s!' "search() found " ++ numeral n ++ s!' " items"

/-- a control character of ASCII -/
def Control (c : Char) : Prop := c.toNat < 32 ∨ c.toNat = 127

end Btrd.Spec
