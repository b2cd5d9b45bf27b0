/-
Model of `src/btrfs/structs.rs`.
-/
import Verif.Model.Base

namespace Btrd

/-- `Type` (structs.rs:13-37), `Struct` and `Union` nested in it. A field (structs.rs:74-79) is a pair
of an optional name and a type. `Struct::key_match` is only ever applied to top-level structs, so nested
structs carry no key predicate. -/
inductive Ty where
  | u8
  | u16
  | u32
  | u64
  | array (t : Ty) (n : Nat)
  | struct (name : Str) (fields : List (Option Str × Ty))
  | union (name : Str) (fields : List (Option Str × Ty))
  | trailingString (lenField : Str)
  | trailingTypes (t : Ty) (countField : Str)
  | dynamic (cb : Bytes → Except Fail (List (Option Str × Ty)))

/-- `Field` (structs.rs:74-79) -/
abbrev Field := Option Str × Ty

mutual
/-- `Type::size` (structs.rs:41-58) -/
def Ty.size : Ty → Nat
  | .u8 => 1
  | .u16 => 2
  | .u32 => 4
  | .u64 => 8
  | .array t n => t.size * n
  | .struct _ fs => sizeSum fs
  | .union _ fs => sizeMax fs
  | .trailingString _ => 0
  | .trailingTypes _ _ => 0
  | .dynamic _ => 0
/-- `Struct::size` (structs.rs:127-129): the sum of the field sizes -/
def sizeSum : List (Option Str × Ty) → Nat
  | [] => 0
  | (_, t) :: fs => t.size + sizeSum fs
/-- `Union::size` (structs.rs:98-103): the largest field size, 0 for no fields -/
def sizeMax : List (Option Str × Ty) → Nat
  | [] => 0
  | (_, t) :: fs => max t.size (sizeMax fs)
end

mutual
/-- `Type::is_static_sized` (structs.rs:61-69) -/
def Ty.isStatic : Ty → Bool
  | .u8 | .u16 | .u32 | .u64 => true
  | .array t _ => t.isStatic
  | .struct _ fs => allStatic fs
  | .union _ fs => allStatic fs
  | .trailingString _ | .trailingTypes _ _ | .dynamic _ => false
/-- `Struct::is_static_sized` / `Union::is_static_sized` (structs.rs:106-108, 132-134) -/
def allStatic : List (Option Str × Ty) → Bool
  | [] => true
  | (_, t) :: fs => t.isStatic && allStatic fs
end

/-- `Struct` at top level, with its key predicate (structs.rs:115-121) -/
structure StructDef where
  name : Str
  keyMatch : Int → Int → Int → Bool
  fields : List (Option Str × Ty)

/-- `Struct::size` (structs.rs:127-129) -/
def StructDef.size (s : StructDef) : Nat := sizeSum s.fields

/-- a top-level struct used as the type of a field: `Type::Struct(FOO.clone())`
(e.g. definitions.rs:875) -/
def StructDef.ty (s : StructDef) : Ty := .struct s.name s.fields

end Btrd
