/-
Specification of printed text (C41, C42).
-/
import Verif.Model.Value

namespace Btrd.Spec

/-- a printable ASCII character: space to tilde -/
def Printable (c : Char) : Prop := 32 ≤ c.toNat ∧ c.toNat ≤ 126

/-- ASCII white space: tab, line feed, form feed, carriage return, space -/
def AsciiSpace (c : Char) : Prop := c.toNat ∈ [9, 10, 12, 13, 32]

mutual
/-- every struct and field name inside the value is printable text -/
def PlainNames : Value → Prop
  | .array vec _ => plainItems vec
  | .struct name _ fields => (∀ c ∈ name, Printable c) ∧ plainFields fields
  | .int _ => True
  | .str _ => True
  | .bool _ => True
  | .func _ => True
def plainItems : List Value → Prop
  | [] => True
  | v :: vs => PlainNames v ∧ plainItems vs
def plainFields : List (Str × Value) → Prop
  | [] => True
  | (n, v) :: fs => (∀ c ∈ n, Printable c) ∧ PlainNames v ∧ plainFields fs
end

/-- a comma after the last line -/
def addComma : List Str → List Str
  | [] => []
  | [l] => [l ++ [',']]
  | l :: ls => l :: addComma ls

/-- four more spaces before every line -/
def deeper (ls : List Str) : List Str := ls.map (s!' "    " ++ ·)

/-- a label before the first line -/
def labelled (label : Str) : List Str → List Str
  | [] => []
  | l :: ls => (label ++ l) :: ls

/-- how one byte of a string is shown: printable characters as themselves, quotes and the backslash
escaped by a backslash, tab, line feed and carriage return as `\t`, `\n`, `\r`, all other bytes as
`\x` and two lower case hexadecimal digits -/
def byteText (b : UInt8) : Str :=
  let hex (n : Nat) : Char := s!' "0123456789abcdef"[n]?.getD '?'
  if b = 9 then s!' "\\t"
  else if b = 10 then s!' "\\n"
  else if b = 13 then s!' "\\r"
  else if b = 34 ∨ b = 39 ∨ b = 92 then ['\\', Char.ofNat b.toNat]
  else if 32 ≤ b ∧ b ≤ 126 then [Char.ofNat b.toNat]
  else ['\\', 'x', hex (b.toNat / 16), hex (b.toNat % 16)]

mutual
/-- The lines in which a value is shown. -/
def shown : Value → List Str
  | .int i => [if i < 0 then '-' :: Nat.toDigits 10 i.natAbs else Nat.toDigits 10 i.natAbs]
  | .str s => [s.flatMap byteText]
  | .bool b => [if b then s!' "true" else s!' "false"]
  | .func f => [f.display ++ s!' "()"]
  | .array vec _ => [s!' "["] ++ shownItems vec ++ [s!' "]"]
  | .struct name _ fields => [s!' "struct " ++ name ++ s!' " {"] ++ shownFields fields ++ [s!' "}"]
def shownItems : List Value → List Str
  | [] => []
  | v :: vs => deeper (addComma (shown v)) ++ shownItems vs
def shownFields : List (Str × Value) → List Str
  | [] => []
  | (n, v) :: fs => deeper (labelled (['.'] ++ n ++ s!' " = ") (addComma (shown v))) ++ shownFields fs
end

/-- lines joined by line feeds -/
def unlines : List Str → Str
  | [] => []
  | [l] => l
  | l :: ls => l ++ ['\n'] ++ unlines ls

end Btrd.Spec
