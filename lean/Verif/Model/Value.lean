/-
Model of `src/lang/eval/value.rs`: values, accessors, equality, display.
-/
import Verif.Model.Input
import Verif.Model.Variables

namespace Btrd

/-- `Value`, `Array`, `Struct`, `StructField` (value.rs:10-23, 118-125, 275-283, 460-464) -/
inductive Value where
  | int (i : Int)
  | str (s : Bytes)
  | bool (b : Bool)
  | array (vec : List Value) (isHist : Bool)
  | func (f : Function)
  | struct (name : Str) (key : Option (Int × Int × Int)) (fields : List (Str × Value))
deriving Repr, Inhabited

/-- `StructField` (value.rs:460-464) -/
abbrev SField := Str × Value

mutual
/-- derived `PartialEq for Value` (value.rs:10) -/
def Value.beq : Value → Value → Bool
  | .int i, .int j => i == j
  | .str s, .str t => s == t
  | .bool a, .bool b => a == b
  | .array v h, .array w k => beqList v w && h == k
  | .func f, .func g => f == g
  | .struct n k fs, .struct m l gs => n == m && k == l && beqFields fs gs
  | _, _ => false
/-- derived `PartialEq` of `Vec<Value>` (value.rs:118-120) -/
def beqList : List Value → List Value → Bool
  | [], [] => true
  | v :: vs, w :: ws => Value.beq v w && beqList vs ws
  | _, _ => false
/-- derived `PartialEq` of `Vec<StructField>` (value.rs:460) -/
def beqFields : List (Str × Value) → List (Str × Value) → Bool
  | [], [] => true
  | (n, v) :: fs, (m, w) :: gs => n == m && Value.beq v w && beqFields fs gs
  | _, _ => false
end

/-- `Display for i128` (value.rs:104) -/
def intDisplay (i : Int) : Str :=
  if i < 0 then '-' :: Nat.toDigits 10 i.natAbs else Nat.toDigits 10 i.natAbs

/-- lower case hexadecimal digit of `escape_default` (value.rs:69) -/
def hexDigit (n : Nat) : UInt8 :=
  if n < 10 then UInt8.ofNat (48 + n) else UInt8.ofNat (87 + n)

/-- `std::ascii::escape_default` (used at value.rs:69) -/
def escapeDefault (b : UInt8) : Bytes :=
  if b = 9 then [92, 116]            -- \t
  else if b = 13 then [92, 114]      -- \r
  else if b = 10 then [92, 110]      -- \n
  else if b = 39 then [92, 39]       -- \'
  else if b = 34 then [92, 34]       -- \"
  else if b = 92 then [92, 92]       -- \\
  else if 32 ≤ b ∧ b ≤ 126 then [b]
  else [92, 120, hexDigit (b.toNat / 16), hexDigit (b.toNat % 16)]

/-- `u8::is_ascii_whitespace` (value.rs:66): space, `\t`, `\n`, form feed, `\r` -/
def isAsciiWhitespace (b : UInt8) : Bool := b == 32 || b == 9 || b == 10 || b == 12 || b == 13

/-- the loop of `as_string` (value.rs:65-71) -/
def escapeBytes (escWhitespace : Bool) (s : Bytes) : Bytes :=
  s.flatMap fun b => if !escWhitespace && isAsciiWhitespace b then [b] else escapeDefault b

/-- `Value::short_display` (value.rs:26-32). The escaped bytes of a string are always ASCII (`Props/Display`), so
taking them as characters is what `Display for Value` does. -/
def Value.shortDisplay : Value → Str
  | .int i => intDisplay i
  | .str s => (escapeBytes true s).map fun b => Char.ofNat b.toNat
  | .bool b => if b then s!' "true" else s!' "false"
  | .array vec _ => s!' "[][" ++ Nat.toDigits 10 vec.length ++ s!' "]"
  | .func f => f.display ++ s!' "()"
  | .struct name _ _ => s!' "struct " ++ name

/-- `bail!("Expected {}, got '{}'", ..)` (e.g. value.rs:48) -/
@[reducible, simp] def Value.mismatch {α : Type} (v : Value) (want : Str) : R α := R.err (.typeMismatch want v.shortDisplay)

/-- `Value::as_integer` (value.rs:45-50) -/
def Value.asInteger : Value → R Int
  | .int i => .ok i
  | v => v.mismatch s!' "integer"

/-- `Value::as_boolean` (value.rs:52-57) -/
def Value.asBoolean : Value → R Bool
  | .bool b => .ok b
  | v => v.mismatch s!' "boolean"

/-- `Value::as_vec` (value.rs:79-84) -/
def Value.asVec : Value → R (List Value)
  | .array v _ => .ok v
  | v => v.mismatch s!' "array"

/-- `Value::as_function` (value.rs:93-98) -/
def Value.asFunction : Value → R Function
  | .func f => .ok f
  | v => v.mismatch s!' "function"

/-- the contents of a `Struct` value (value.rs:275-283) -/
structure StructVal where
  name : Str
  key : Option (Int × Int × Int)
  fields : List (Str × Value)

/-- `Value::as_struct` (value.rs:86-91) -/
def Value.asStruct : Value → R StructVal
  | .struct n k fs => .ok ⟨n, k, fs⟩
  | v => v.mismatch s!' "struct"

/-- `find_map` over the fields, first one with the name (value.rs:406-408) -/
def fieldLookup : List (Str × Value) → Str → Option Value
  | [], _ => none
  | (n, v) :: fs, name => if n = name then some v else fieldLookup fs name

/-- `Struct::field` (value.rs:403-410) -/
def StructVal.field (s : StructVal) (name : Str) : R Value :=
  orErr (fieldLookup s.fields name) (.noField name s.name)

/-- UTF-8 encoding, `str::as_bytes` (eval.rs:67, 414, 456) -/
def utf8 (s : Str) : Bytes := s.flatMap String.utf8EncodeChar

/-- `String::from_utf8(escaped)` (value.rs:73). Only the ASCII case is modelled; the escaped bytes are
always ASCII (`Props/Display`), so the error branch is never taken. -/
def fromAscii (s : Bytes) : R Str :=
  if s.all (· < 128) then .ok (s.map fun b => Char.ofNat b.toNat) else R.err .conversion

/-- `Value::as_string` (value.rs:59-77) -/
def Value.asString (escWhitespace : Bool) : Value → R Str
  | .str s => fromAscii (escapeBytes escWhitespace s)
  | v => v.mismatch s!' "string"

/-- `indent(1)` (value.rs:428-430) -/
def indent1 : Str := s!' "    "

/-- `format!("{}{}\n", indent(1), line)` for each line (value.rs:193, 450) -/
def indentLines (ls : List Str) : Str := ls.flatMap fun l => indent1 ++ l ++ ['\n']

/-- One iteration of the loop of `Display for Struct` (value.rs:438-452), given the displayed value.
`expect("Value has no display")` panics when there is no line. -/
def fieldDisplay (name : Str) (valueText : Str) : R Str :=
  match lines (valueText ++ [',']) with
  | [] => R.panic
  | l :: ls => .ok (indent1 ++ ['.'] ++ name ++ s!' " = " ++ l ++ ['\n'] ++ indentLines ls)

mutual
/-- `Display for Value` (value.rs:101-116). A failed `unwrap()` on `as_string` is a panic. -/
def Value.display : Value → R Str
  | .int i => .ok (intDisplay i)
  | .str s =>
    match fromAscii (escapeBytes true s) with
    | .ok t => .ok t
    | .error _ => R.panic
  | .bool b => .ok (if b then s!' "true" else s!' "false")
  | .array vec _ =>
    match displayItems vec with
    | .ok t => .ok (s!' "[\n" ++ t ++ s!' "]")
    | .error f => .error f
  | .func f => .ok (f.display ++ s!' "()")
  | .struct name _ fields =>
    match displayFields fields with
    | .ok t => .ok (s!' "struct " ++ name ++ s!' " {\n" ++ t ++ s!' "}")
    | .error f => .error f
/-- the loop of `Display for Array` (value.rs:190-195) -/
def displayItems : List Value → R Str
  | [] => .ok []
  | v :: vs =>
    match Value.display v with
    | .error f => .error f
    | .ok t =>
      match displayItems vs with
      | .error f => .error f
      | .ok ts => .ok (indentLines (lines (t ++ [','])) ++ ts)
/-- the loop of `Display for Struct` (value.rs:436-454) -/
def displayFields : List (Str × Value) → R Str
  | [] => .ok []
  | (name, v) :: fs =>
    match Value.display v with
    | .error f => .error f
    | .ok t =>
      match fieldDisplay name t with
      | .error f => .error f
      | .ok d =>
        match displayFields fs with
        | .error f => .error f
        | .ok ds => .ok (d ++ ds)
end

/-- `Value::type_str` (value.rs:34-43) -/
def Value.typeStr : Value → Str
  | .int _ => s!' "integer"
  | .str _ => s!' "string"
  | .bool _ => s!' "boolean"
  | .array _ _ => s!' "array"
  | .func _ => s!' "function"
  | .struct n _ _ => s!' "struct " ++ n

end Btrd
