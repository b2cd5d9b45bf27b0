/-
Model of the byte decoding of `src/lang/eval/value.rs`: `Struct::from_bytes`, `StructField::from_bytes`,
`BtrfsType::to_value`.
-/
import Verif.Model.Structs
import Verif.Model.Value

namespace Btrd

/-- `Struct::get_field_value` (value.rs:286-297): the first field with the name, as an integer, `as
usize` -/
def getFieldValue (name : Str) : List (Str × Value) → R Nat
  | [] => R.err (.noLengthField name)
  | (n, v) :: fs =>
    if n = name then
      match v.asInteger with
      | .ok i => .ok (asUsize i)
      | .error e => .error e
    else getFieldValue name fs

/-- little endian integers of `n` bytes: `bytes[0..n]` panics when too short (value.rs:513-516) -/
def leInt (n : Nat) (bytes : Bytes) : R Value :=
  if n ≤ bytes.length then .ok (.int (leNat (bytes.take n))) else R.panic

/-- the loop of an array type (value.rs:520-525): element `i` starts at `i * size` -/
def arrayLoop (f : Bytes → R Value) (size : Nat) (bytes : Bytes) : Nat → Nat → R (List Value)
  | 0, _ => .ok []
  | k + 1, i => do
    let s ← sliceFrom bytes (i * size)
    let v ← f s
    let vs ← arrayLoop f size bytes k (i + 1)
    .ok (v :: vs)

/-- `StructField::from_bytes` (value.rs:474-503), given the name of the field, the size of its type and
`to_value` of its type -/
def fieldWrap (name : Option Str) (size : Nat) (f : Bytes → R Value) (bytes : Bytes) :
    R (List (Str × Value)) :=
  if size ≤ bytes.length then
    match f bytes with
    | .error e => .error e
    | .ok v =>
      match name with
      | some n => .ok [(n, v)]
      | none =>
        match v with
        | .struct _ _ fs => .ok fs
        | _ => R.err (.anonymous s!' "Only structs can be used as anonymous fields")
  else R.err (.shortRead (name.getD s!' "(anon)") [] bytes.length size)

/-- the `TrailingString` arm of `Struct::from_bytes` (value.rs:325-345); `what` is the name of the struct -/
def trailingStringStep (b : Build) (what : Str) (name : Option Str) (lenField : Str) (bytes : Bytes) (offset : Nat)
    (acc : List (Str × Value)) : R (Nat × List (Str × Value)) := do
  let len ← getFieldValue lenField acc
  let stop ← usizeAdd b len offset
  if stop ≤ bytes.length then do
    let n ← orErr name (.anonymous s!' "TrailingString can't be anonymous")
    let s ← sliceRange bytes offset stop
    .ok (offset + len, acc ++ [(n, .str s)])
  else R.err (.shortRead what s!' " for string read" bytes.length stop)

/-- the element loop of the `TrailingTypes` arm (value.rs:359-364) -/
def trailingLoop (f : Bytes → R Value) (size : Nat) (bytes : Bytes) : Nat → Nat → R (Nat × List Value)
  | 0, offset => .ok (offset, [])
  | k + 1, offset => do
    let s ← sliceRange bytes offset (offset + size)
    let v ← f s
    let (o, vs) ← trailingLoop f size bytes k (offset + size)
    .ok (o, v :: vs)

/-- the `TrailingTypes` arm of `Struct::from_bytes` (value.rs:346-375) -/
def trailingTypesStep (b : Build) (what : Str) (name : Option Str) (f : Bytes → R Value) (size : Nat) (countField : Str)
    (bytes : Bytes) (offset : Nat) (acc : List (Str × Value)) : R (Nat × List (Str × Value)) := do
  let count ← getFieldValue countField acc
  let total ← usizeMul b size count
  let stop ← usizeAdd b total offset
  if stop ≤ bytes.length then do
    let (o, vs) ← trailingLoop f size bytes count offset
    let n ← orErr name (.anonymous s!' "TrailingTypes array can't be anonymous")
    .ok (o, acc ++ [(n, .array vs false)])
  else R.err (.shortRead what s!' " for trailing types read" bytes.length stop)

mutual
/-- `BtrfsType::to_value` (value.rs:511-556) -/
def toValue (b : Build) : Ty → Bytes → R Value
  | .u8, bytes => leInt 1 bytes
  | .u16, bytes => leInt 2 bytes
  | .u32, bytes => leInt 4 bytes
  | .u64, bytes => leInt 8 bytes
  | .trailingString _, _ => R.panic
  | .array t n, bytes =>
    match arrayLoop (toValue b t) t.size bytes n 0 with
    | .ok vs => .ok (.array vs false)
    | .error e => .error e
  | .struct name fs, bytes =>
    if sizeSum fs ≤ bytes.length then
      match fieldsLoop b name fs bytes 0 [] with
      | .ok (_, vs) => .ok (.struct name none vs)
      | .error e => .error e
    else R.err (.shortRead name [] bytes.length (sizeSum fs))
  | .union name fs, bytes =>
    match unionLoop b fs bytes with
    | .ok vs => .ok (.struct name none vs)
    | .error e => .error e
  | .trailingTypes _ _, _ => R.panic
  | .dynamic _, _ => R.panic
/-- the field loop of `Struct::from_bytes` (value.rs:323-398) for the struct named `what`; state: current offset,
fields so far -/
def fieldsLoop (b : Build) (what : Str) : List (Option Str × Ty) → Bytes → Nat → List (Str × Value) →
    R (Nat × List (Str × Value))
  | [], _, offset, acc => .ok (offset, acc)
  | f :: fs, bytes, offset, acc =>
    match fieldStep b what f bytes offset acc with
    | .ok (o, a) => fieldsLoop b what fs bytes o a
    | .error e => .error e
/-- one iteration of the field loop (value.rs:324-397) -/
def fieldStep (b : Build) (what : Str) : (Option Str × Ty) → Bytes → Nat → List (Str × Value) →
    R (Nat × List (Str × Value))
  | (name, ty), bytes, offset, acc =>
    match ty with
    | .trailingString n => trailingStringStep b what name n bytes offset acc
    | .trailingTypes t n => trailingTypesStep b what name (toValue b t) t.size n bytes offset acc
    | .dynamic cb =>
      match sliceFrom bytes offset with
      | .error e => .error e
      | .ok s => dynStep b what (cb s) s offset acc
    | t =>
      match sliceFrom bytes offset with
      | .error e => .error e
      | .ok s =>
        match fieldWrap name t.size (toValue b t) s with
        | .ok vs => .ok (offset + t.size, acc ++ vs)
        | .error e => .error e
/-- the `DynamicStruct` arm (value.rs:376-391), after the callback: the reified fields must be statically
sized and are decoded as a struct of the same name -/
def dynStep (b : Build) (what : Str) : Except Fail (List (Option Str × Ty)) → Bytes → Nat → List (Str × Value) →
    R (Nat × List (Str × Value))
  | .error e, _, _, _ => .error e
  | .ok fs, s, offset, acc =>
    if allStatic fs then
      if sizeSum fs ≤ s.length then
        match fieldsLoop b what fs s 0 [] with
        | .ok (_, vs) => .ok (offset + sizeSum fs, acc ++ vs)
        | .error e => .error e
      else R.err (.shortRead what [] s.length (sizeSum fs))
    else R.err .notStatic
/-- the loop over the fields of a union (value.rs:542-545): each from the same bytes -/
def unionLoop (b : Build) : List (Option Str × Ty) → Bytes → R (List (Str × Value))
  | [], _ => .ok []
  | (name, t) :: fs, bytes =>
    match fieldWrap name t.size (toValue b t) bytes with
    | .error e => .error e
    | .ok vs =>
      match unionLoop b fs bytes with
      | .error e => .error e
      | .ok ws => .ok (vs ++ ws)
end

/-- `Struct::from_bytes` (value.rs:303-401) for a top-level struct -/
def structFromBytes (b : Build) (s : StructDef) (key : Option (Int × Int × Int)) (bytes : Bytes) :
    R StructVal :=
  if s.size ≤ bytes.length then
    match fieldsLoop b s.name s.fields bytes 0 [] with
    | .ok (_, vs) => .ok ⟨s.name, key, vs⟩
    | .error e => .error e
  else R.err (.shortRead s.name [] bytes.length s.size)

end Btrd
