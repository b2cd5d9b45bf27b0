/-
What a description of an on-disk structure says about the bytes of an image, stated with absolute
positions: an image is a map from positions to bytes, every type has a width, and the value of a type at
a position is given by the bytes from there on. Nothing here mentions the decoder.
-/
import Verif.Model.Structs
import Verif.Model.Value

namespace Btrd.Spec

/-- bytes by position; positions past the end read 0 (and are never looked at) -/
abbrev Mem := Nat → UInt8

/-- the bytes of a list, by position -/
def mem (bytes : Bytes) : Mem := fun i => bytes.getD i 0

/-- the little endian number in the `n` bytes from `pos`: least significant byte first -/
def leAt (m : Mem) (pos : Nat) : Nat → Nat
  | 0 => 0
  | n + 1 => (m pos).toNat + 256 * leAt m (pos + 1) n

mutual
/-- how many bytes a type of fixed size covers -/
def width : Ty → Nat
  | .u8 => 1
  | .u16 => 2
  | .u32 => 4
  | .u64 => 8
  | .array t n => n * width t
  | .struct _ fs => widths fs
  | .union _ fs => widest fs
  | _ => 0
/-- fields one after the other -/
def widths : List (Option Str × Ty) → Nat
  | [] => 0
  | (_, t) :: fs => width t + widths fs
/-- fields on top of each other -/
def widest : List (Option Str × Ty) → Nat
  | [] => 0
  | (_, t) :: fs => if width t ≤ widest fs then widest fs else width t
end

mutual
/-- the type has a size known in advance: no trailing or dynamic part anywhere -/
def FixedSize : Ty → Prop
  | .u8 | .u16 | .u32 | .u64 => True
  | .array t _ => FixedSize t
  | .struct _ fs => FixedSizes fs
  | .union _ fs => FixedSizes fs
  | .trailingString _ | .trailingTypes _ _ | .dynamic _ => False
def FixedSizes : List (Option Str × Ty) → Prop
  | [] => True
  | (_, t) :: fs => FixedSize t ∧ FixedSizes fs
end

mutual
/-- only structs and unions are used as anonymous fields -/
def AnonOk : Ty → Prop
  | .array t _ => AnonOk t
  | .struct _ fs => AnonOks fs
  | .union _ fs => AnonOks fs
  | _ => True
def AnonOks : List (Option Str × Ty) → Prop
  | [] => True
  | (some _, t) :: fs => AnonOk t ∧ AnonOks fs
  | (none, .struct n gs) :: fs => AnonOk (.struct n gs) ∧ AnonOks fs
  | (none, .union n gs) :: fs => AnonOk (.union n gs) ∧ AnonOks fs
  | (none, _) :: _ => False
end

/-- the fields of a struct value -/
def components : Value → List (Str × Value)
  | .struct _ _ fs => fs
  | _ => []

/-- a field contributes its value under its name, an anonymous one contributes its components -/
def asFields : Option Str → Value → List (Str × Value)
  | some n, v => [(n, v)]
  | none, v => components v

mutual
/-- the value of a fixed size type at a position -/
def valueAt (m : Mem) (pos : Nat) : Ty → Value
  | .u8 => .int (leAt m pos 1)
  | .u16 => .int (leAt m pos 2)
  | .u32 => .int (leAt m pos 4)
  | .u64 => .int (leAt m pos 8)
  | .array t n => .array ((List.range n).map fun i => valueAt m (pos + i * width t) t) false
  | .struct name fs => .struct name none (fieldsAt m pos fs)
  | .union name fs => .struct name none (membersAt m pos fs)
  | _ => .int 0
/-- the fields of a struct: each starts where the previous one ends -/
def fieldsAt (m : Mem) (pos : Nat) : List (Option Str × Ty) → List (Str × Value)
  | [] => []
  | (name, t) :: fs => asFields name (valueAt m pos t) ++ fieldsAt m (pos + width t) fs
/-- the members of a union: each starts where the union starts -/
def membersAt (m : Mem) (pos : Nat) : List (Option Str × Ty) → List (Str × Value)
  | [] => []
  | (name, t) :: fs => asFields name (valueAt m pos t) ++ membersAt m pos fs
end

/-! ### descriptions with trailing and dynamic parts -/

/-- the first field with the name -/
def lookup (fs : List (Str × Value)) (name : Str) : Option Value :=
  (fs.find? fun f => f.1 == name).map (·.2)

/-- the `n` bytes from `pos` -/
def bytesAt (bytes : Bytes) (pos n : Nat) : Bytes := (bytes.drop pos).take n

/-- `Laid bytes fs pos seen out stop`: reading the fields `fs` from position `pos`, when the fields before
them have given `seen`, gives `out` (which starts with `seen`) and ends at `stop`; nothing past the end of
the bytes is used. -/
inductive Laid (bytes : Bytes) :
    List (Option Str × Ty) → Nat → List (Str × Value) → List (Str × Value) → Nat → Prop
  | done (pos : Nat) (seen : List (Str × Value)) : Laid bytes [] pos seen seen pos
  /-- a field of fixed size -/
  | fixed {name : Option Str} {t : Ty} {fs : List (Option Str × Ty)} {pos : Nat} {seen out : List (Str × Value)}
      {stop : Nat} (hf : FixedSize t) (hl : pos + width t ≤ bytes.length)
      (rest : Laid bytes fs (pos + width t) (seen ++ asFields name (valueAt (mem bytes) pos t)) out stop) :
      Laid bytes ((name, t) :: fs) pos seen out stop
  /-- a string as long as the value of an earlier field says -/
  | string {name lenField : Str} {fs : List (Option Str × Ty)} {pos n : Nat} {seen out : List (Str × Value)}
      {stop : Nat} (hn : lookup seen lenField = some (.int n)) (hl : pos + n ≤ bytes.length)
      (rest : Laid bytes fs (pos + n) (seen ++ [(name, .str (bytesAt bytes pos n))]) out stop) :
      Laid bytes ((some name, .trailingString lenField) :: fs) pos seen out stop
  /-- as many elements as the value of an earlier field says -/
  | types {name countField : Str} {t : Ty} {fs : List (Option Str × Ty)} {pos n : Nat}
      {seen out : List (Str × Value)} {stop : Nat} (hn : lookup seen countField = some (.int n))
      (hl : pos + n * width t ≤ bytes.length)
      (rest : Laid bytes fs (pos + n * width t)
        (seen ++ [(name, .array ((List.range n).map fun i => valueAt (mem bytes) (pos + i * width t) t) false)])
        out stop) :
      Laid bytes ((some name, .trailingTypes t countField) :: fs) pos seen out stop
  /-- fields that depend on the bytes -/
  | dynamic {name : Option Str} {cb : Bytes → Except Fail (List (Option Str × Ty))}
      {gs fs : List (Option Str × Ty)} {pos : Nat} {seen out : List (Str × Value)} {stop : Nat}
      (hcb : cb (bytes.drop pos) = .ok gs) (hf : FixedSizes gs) (hl : pos + widths gs ≤ bytes.length)
      (rest : Laid bytes fs (pos + widths gs) (seen ++ fieldsAt (mem bytes) pos gs) out stop) :
      Laid bytes ((name, .dynamic cb) :: fs) pos seen out stop

/-- A description that makes sense: only structs and unions are anonymous, trailing parts are named, the
elements of a trailing array have a fixed size. -/
def WellFormed : List (Option Str × Ty) → Prop
  | [] => True
  | (name, .trailingString _) :: fs => name ≠ none ∧ WellFormed fs
  | (name, .trailingTypes t _) :: fs =>
    name ≠ none ∧ FixedSize t ∧ AnonOk t ∧ WellFormed fs
  | (_, .dynamic cb) :: fs => (∀ s gs, cb s = .ok gs → FixedSizes gs → AnonOks gs) ∧ WellFormed fs
  | (name, t) :: fs => FixedSize t ∧ AnonOks [(name, t)] ∧ WellFormed fs

mutual
/-- in every struct inside the value, looking a field up by its name finds that very field -/
def Accessible : Value → Prop
  | .array vs _ => AccessibleL vs
  | .struct _ _ fs => (∀ n v, (n, v) ∈ fs → lookup fs n = some v) ∧ AccessibleF fs
  | _ => True
def AccessibleL : List Value → Prop
  | [] => True
  | v :: vs => Accessible v ∧ AccessibleL vs
def AccessibleF : List (Str × Value) → Prop
  | [] => True
  | (_, v) :: fs => Accessible v ∧ AccessibleF fs
end

/-- the number of bytes a cast to the struct looks at: its fixed part, or 1024 if that is empty -/
def castSpan (s : StructDef) : Nat := if widths s.fields = 0 then 1024 else widths s.fields

/-! ### encoding -/

/-- `n` bytes, least significant first -/
def leBytes : Nat → Int → Bytes
  | 0, _ => []
  | n + 1, i => UInt8.ofNat (i % 256).toNat :: leBytes n (i / 256)

def longer (a b : Bytes) : Bytes := if a.length ≤ b.length then b else a

mutual
/-- the bytes of a value of a type -/
def encode : Ty → Value → Bytes
  | .u8, .int i => leBytes 1 i
  | .u16, .int i => leBytes 2 i
  | .u32, .int i => leBytes 4 i
  | .u64, .int i => leBytes 8 i
  | .array t _, .array vs _ => vs.flatMap fun v => encode t v
  | .struct _ fs, .struct _ _ vs => (encodeFields fs vs).1
  | .union _ fs, .struct _ _ vs => (encodeMembers fs vs).1
  | .trailingString _, .str s => s
  | .trailingTypes t _, .array vs _ => vs.flatMap fun v => encode t v
  | _, _ => []
/-- the bytes of the fields of a struct, and the values left over -/
def encodeFields : List (Option Str × Ty) → List (Str × Value) → Bytes × List (Str × Value)
  | [], vs => ([], vs)
  | (some _, t) :: fs, (_, v) :: vs =>
    (encode t v ++ (encodeFields fs vs).1, (encodeFields fs vs).2)
  | (none, .struct _ gs) :: fs, vs =>
    ((encodeFields gs vs).1 ++ (encodeFields fs (encodeFields gs vs).2).1, (encodeFields fs (encodeFields gs vs).2).2)
  | (none, .union _ gs) :: fs, vs =>
    ((encodeMembers gs vs).1 ++ (encodeFields fs (encodeMembers gs vs).2).1,
      (encodeFields fs (encodeMembers gs vs).2).2)
  | _ :: _, vs => ([], vs)
/-- the bytes of the members of a union: the longest member covers all of it -/
def encodeMembers : List (Option Str × Ty) → List (Str × Value) → Bytes × List (Str × Value)
  | [], vs => ([], vs)
  | (some _, t) :: fs, (_, v) :: vs =>
    (longer (encode t v) (encodeMembers fs vs).1, (encodeMembers fs vs).2)
  | (none, .struct _ gs) :: fs, vs =>
    (longer (encodeFields gs vs).1 (encodeMembers fs (encodeFields gs vs).2).1,
      (encodeMembers fs (encodeFields gs vs).2).2)
  | (none, .union _ gs) :: fs, vs =>
    (longer (encodeMembers gs vs).1 (encodeMembers fs (encodeMembers gs vs).2).1,
      (encodeMembers fs (encodeMembers gs vs).2).2)
  | _ :: _, vs => ([], vs)
end

/-! ### extent items -/

/-- the little endian number in a list of bytes -/
def le (bs : Bytes) : Int := bs.foldr (fun b n => (b.toNat : Int) + 256 * n) 0

/-- `InlineRefs bytes fields`: the bytes are a sequence of inline references, which read as the fields.
The layouts are those of the btrfs on-disk format: a type byte, followed by
* 178 (EXTENT_DATA_REF): root, objectid, offset (8 bytes each), count (4 bytes);
* 184 (SHARED_DATA_REF): offset (8 bytes), count (4 bytes);
* 176 (TREE_BLOCK_REF) or 182 (SHARED_BLOCK_REF): offset (8 bytes). -/
inductive InlineRefs : Bytes → List (Str × Value) → Prop
  | nil : InlineRefs [] []
  | dataRef {root oid off count rest : Bytes} {vs : List (Str × Value)} (h1 : root.length = 8)
      (h2 : oid.length = 8) (h3 : off.length = 8) (h4 : count.length = 4) (hr : InlineRefs rest vs) :
      InlineRefs (178 :: (root ++ oid ++ off ++ count ++ rest))
        ((s!' "inline_ref", .struct s!' "btrfs_extent_inline_ref" none
          [(s!' "type", .int 178),
           (s!' "data_ref", .struct s!' "btrfs_extent_data_ref" none
             [(s!' "root", .int (le root)), (s!' "objectid", .int (le oid)), (s!' "offset", .int (le off)),
              (s!' "count", .int (le count))])]) :: vs)
  | sharedDataRef {off count rest : Bytes} {vs : List (Str × Value)} (h1 : off.length = 8)
      (h2 : count.length = 4) (hr : InlineRefs rest vs) :
      InlineRefs (184 :: (off ++ count ++ rest))
        ((s!' "inline_ref", .struct s!' "btrfs_extent_inline_ref" none
          [(s!' "type", .int 184), (s!' "offset", .int (le off)),
           (s!' "shared_data_ref", .struct s!' "btrfs_shared_data_ref" none
             [(s!' "count", .int (le count))])]) :: vs)
  | blockRef {ty : UInt8} {off rest : Bytes} {vs : List (Str × Value)} (ht : ty = 176 ∨ ty = 182)
      (h1 : off.length = 8) (hr : InlineRefs rest vs) :
      InlineRefs (ty :: (off ++ rest))
        ((s!' "inline_ref", .struct s!' "btrfs_extent_inline_ref" none
          [(s!' "type", .int ty.toNat), (s!' "offset", .int (le off))]) :: vs)

end Btrd.Spec
