/-
The unit tests of `src/input.rs`, `src/btrfs/structs.rs`, `src/btrfs/definitions.rs` and `src/lang/eval/value.rs`, case by
case, on the model. These are tests of the model, not proofs of properties (except for those on the tables of
definitions.rs, which are about these tables).
-/
import Verif.Model.Input
import Verif.Model.Hist
import Verif.Model.Decode
import Verif.Model.StructTable

namespace Btrd.Validation

/-! ### input.rs -/

/-- `test_strip_comments` (input.rs:68-81) -/
example : stripComments (s!' "asdf") = s!' "asdf" ∧ stripComments (s!' "asdf #comment") = s!' "asdf " ∧
    stripComments (s!' "asdf#comment") = s!' "asdf" ∧
    stripComments (s!' "\"string#notcomment\"") = s!' "\"string#notcomment\"" ∧
    stripComments (s!' "\"string\\#notcomment\"") = s!' "\"string\\#notcomment\"" := by decide +kernel

/-- `test_fixup_input` (input.rs:83-91) -/
example : fixupInput (s!' "asdf \\\nme") = s!' "asdf  me;" ∧ fixupInput (s!' "asdf \\ \nme") = s!' "asdf \\ \nme;" ∧
    fixupInput (s!' "asdf \\ \nme;") = s!' "asdf \\ \nme;" ∧ fixupInput (s!' "meline") = s!' "meline;" ∧
    fixupInput (s!' "meline;") = s!' "meline;" ∧ fixupInput (s!' "meline ;  ") = s!' "meline ;  " := by decide +kernel

/-! ### structs.rs -/

/-- a field with a name -/
def named (name : Str) (t : Ty) : Field := (some name, t)

/-- `test_type_size` (structs.rs) -/
example : Ty.size .u8 = 1 ∧ Ty.size .u32 = 4 ∧ Ty.size .u64 = 8 ∧ Ty.size (.array .u8 5) = 5 ∧ Ty.size (.array .u32 5) = 20 ∧
    Ty.size (.struct s!' "foo" [named s!' "f1" .u32, named s!' "f2" .u8]) = 5 ∧
    Ty.size (.array (.struct s!' "foo" [named s!' "f1" .u32, named s!' "f2" .u8]) 4) = 20 ∧
    Ty.size (.union s!' "foo" [named s!' "f1" .u32, named s!' "f2" .u8, named s!' "f3" .u64]) = 8 ∧
    Ty.size (.struct s!' "foo" [named s!' "f1" (.union s!' "union_one" [named s!' "f1" .u32, named s!' "f1" .u8]),
      named s!' "f2" (.union s!' "union_two" [named s!' "f1" .u8, named s!' "f1" .u16])]) = 6 ∧
    Ty.size (.struct s!' "bar" [named s!' "f1" .u32, named s!' "f2" (.struct s!' "foo" [named s!' "f1" .u32, named s!' "f2" .u8])]) = 9 := by
  decide +kernel

/-! ### definitions.rs -/

/-- `test_constant_names_unique` (definitions.rs) -/
example : (constants.map Prod.fst).Nodup := by decide +kernel

/-- `test_struct_names_unique` (definitions.rs) -/
example : (structs.map StructDef.name).Nodup := by decide +kernel

mutual
/-- the names of the fields, with those of anonymous structs and unions; `none` if another field is anonymous -/
def flatNames : List (Option Str × Ty) → Option (List Str)
  | [] => some []
  | (some n, _) :: fs => (flatNames fs).map (n :: ·)
  | (none, t) :: fs => match anonNames t, flatNames fs with
    | some a, some b => some (a ++ b)
    | _, _ => none
/-- the names in an anonymous field -/
def anonNames : Ty → Option (List Str)
  | .struct _ fs => flatNames fs
  | .union _ fs => flatNames fs
  | .dynamic _ => some []
  | _ => none
end

/-- there are names and no two of them are the same -/
def allDifferent : Option (List Str) → Bool
  | some l => decide l.Nodup
  | none => false

/-- `test_struct_field_names_unique` (definitions.rs) -/
example : (structs.all fun s => allDifferent (flatNames s.fields)) = true := by decide +kernel

/-- a field is a struct, a union or computed -/
def anonymous : Ty → Bool
  | .struct .. => true
  | .union .. => true
  | .dynamic _ => true
  | _ => false

/-- `test_only_anon_struct_unions_or_dynamicstruct` (definitions.rs) -/
example : (structs.all fun s => s.fields.all fun f => f.1.isSome || anonymous f.2) = true := by decide +kernel

/-- an unsigned integer -/
def integral : Ty → Bool
  | .u8 | .u16 | .u32 | .u64 => true
  | _ => false

/-- the field with a length or a number of elements exists and is an integer -/
def lengthExists (fs : List (Option Str × Ty)) : Ty → Bool
  | .trailingString n => fs.any fun f => f.1 == some n && integral f.2
  | .trailingTypes _ n => fs.any fun f => f.1 == some n && integral f.2
  | _ => true

/-- `test_trailing_fields_exist` (definitions.rs) -/
example : (structs.all fun s => s.fields.all fun f => lengthExists s.fields f.2) = true := by decide +kernel

/-! ### value.rs -/

/-- an integer is the result -/
def gives (r : R Int) (i : Int) : Bool :=
  match r with
  | .ok j => i == j
  | .error _ => false

/-- `test_previous_power_2` (value.rs) -/
example : ([(0, 0), (1, 1), (3, 2), (5, 4), (2049, 2048), (-2049, -4096), (-2048, -2048), (-1, -1), (-3, -4), (-4, -4)].all
    fun (x, y) => gives (previousPower2 200 x) y) = true := by decide +kernel

/-- `test_next_power_2` (value.rs) -/
example : ([(0, 1), (1, 2), (2, 4), (3, 4), (5, 8), (-1, 0), (-3, -2), (-4, -2)].all
    fun (x, y) => gives (nextPower2 200 x) y) = true := by decide +kernel

/-- a text is the result -/
def givesText (r : R Str) (s : Str) : Bool :=
  match r with
  | .ok t => s == t
  | .error _ => false

/-- `test_num_bytes_to_pretty` (value.rs) -/
example : ([(0, s!' "0"), (8, s!' "8"), (4096, s!' "4K"), (4 * 2 ^ 20, s!' "4M"), (8 * 2 ^ 30, s!' "8G"), (16 * 2 ^ 40, s!' "16T"),
    (-16 * 2 ^ 40, s!' "-16T")].all fun (x, y) => givesText (numBytesToPretty ⟨true⟩ 200 x) y) = true := by decide +kernel

/-- the little-endian bytes of an integer -/
def le : Nat → Nat → Bytes
  | 0, _ => []
  | n + 1, x => UInt8.ofNat (x % 256) :: le n (x / 256)

mutual
/-- the same value (of those without keys) -/
def sameValue : Value → Value → Bool
  | .int i, .int j => i == j
  | .str s, .str t => s == t
  | .array l _, .array l' _ => sameValues l l'
  | .struct n _ fs, .struct n' _ fs' => n == n' && sameFields fs fs'
  | _, _ => false
/-- the same values -/
def sameValues : List Value → List Value → Bool
  | [], [] => true
  | a :: l, b :: l' => sameValue a b && sameValues l l'
  | _, _ => false
/-- the same fields -/
def sameFields : List (Str × Value) → List (Str × Value) → Bool
  | [], [] => true
  | (n, a) :: l, (n', b) :: l' => n == n' && sameValue a b && sameFields l l'
  | _, _ => false
end

/-- a struct of the tests -/
def someStruct (fs : List Field) : StructDef := ⟨s!' "some_struct", fun _ _ _ => false, fs⟩

/-- the bytes are read as these fields -/
def decodesTo (s : StructDef) (bytes : Bytes) (fs : List (Str × Value)) : Bool :=
  match structFromBytes ⟨true⟩ s none bytes with
  | .ok v => v.name == s.name && sameFields v.fields fs
  | .error _ => false

/-- `test_struct_deserialize` (value.rs), 1: integers -/
example : decodesTo (someStruct [named s!' "one" .u64, named s!' "two" .u32, named s!' "three" .u16, named s!' "four" .u8])
    (le 8 11111 ++ le 4 2222 ++ le 2 333 ++ le 1 4)
    [(s!' "one", .int 11111), (s!' "two", .int 2222), (s!' "three", .int 333), (s!' "four", .int 4)] = true := by decide +kernel

/-- 2: arrays -/
example : decodesTo (someStruct [named s!' "one" (.array .u32 5), named s!' "two" .u64])
    (le 4 666 ++ le 4 555 ++ le 4 444 ++ le 4 333 ++ le 4 222 ++ le 8 11111)
    [(s!' "one", .array [.int 666, .int 555, .int 444, .int 333, .int 222] false), (s!' "two", .int 11111)] = true := by decide +kernel

/-- 3: an anonymous struct with a struct in it -/
example : decodesTo (someStruct [(none, .struct s!' "_anon_struct" [named s!' "one" .u64, named s!' "two" .u64,
      named s!' "inner" (.struct s!' "inner_struct" [named s!' "three" .u8])])])
    (le 8 12345 ++ le 8 543210 ++ le 1 3)
    [(s!' "one", .int 12345), (s!' "two", .int 543210), (s!' "inner", .struct s!' "inner_struct" none [(s!' "three", .int 3)])] = true := by
  decide +kernel

/-- 4: an anonymous union with an anonymous struct in it -/
example : decodesTo (someStruct [(none, .union s!' "_anon_union" [named s!' "one" .u64,
      (none, .struct s!' "_anon_struct" [named s!' "two" .u64, named s!' "three" .u64])])])
    (le 8 88888888888 ++ le 8 7777777777777)
    [(s!' "one", .int 88888888888), (s!' "two", .int 88888888888), (s!' "three", .int 7777777777777)] = true := by decide +kernel

/-- 5: trailing strings -/
example : decodesTo (someStruct [named s!' "name_1_len" .u16, named s!' "name_2_len" .u16,
      named s!' "name1" (.trailingString s!' "name_1_len"), named s!' "name2" (.trailingString s!' "name_2_len")])
    (le 2 5 ++ le 2 7 ++ [104, 101, 108, 108, 111] ++ [119, 111, 114, 108, 100, 49, 50])
    [(s!' "name_1_len", .int 5), (s!' "name_2_len", .int 7), (s!' "name1", .str [104, 101, 108, 108, 111]),
      (s!' "name2", .str [119, 111, 114, 108, 100, 49, 50])] = true := by decide +kernel

/-- 6: trailing structs -/
example : decodesTo (someStruct [named s!' "boo" .u16, named s!' "nr_trailing" .u16, named s!' "trailing"
      (.trailingTypes (.struct s!' "trailing_struct" [named s!' "one" .u64, named s!' "two" .u32]) s!' "nr_trailing")])
    (le 2 5 ++ le 2 2 ++ le 8 1 ++ le 4 2 ++ le 8 (2 ^ 64 - 1) ++ le 4 (2 ^ 32 - 1))
    [(s!' "boo", .int 5), (s!' "nr_trailing", .int 2), (s!' "trailing", .array [
      .struct s!' "trailing_struct" none [(s!' "one", .int 1), (s!' "two", .int 2)],
      .struct s!' "trailing_struct" none [(s!' "one", .int (2 ^ 64 - 1)), (s!' "two", .int (2 ^ 32 - 1))]] false)] = true := by
  decide +kernel

/-- 7: a computed part -/
example : decodesTo (someStruct [named s!' "_" (.dynamic fun _ => .ok [named s!' "one" .u64, named s!' "two" .u32])])
    (le 8 11111 ++ le 4 2222) [(s!' "one", .int 11111), (s!' "two", .int 2222)] = true := by decide +kernel

end Btrd.Validation
