/-
Specification of histograms (C43-C45).
-/
import Verif.Model.Hist

namespace Btrd.Spec

/-- the bucket boundaries: zero, the powers of two, and their negatives -/
def Boundary (p : Int) : Prop := p = 0 ∨ ∃ k : Nat, p = 2 ^ k ∨ p = -(2 ^ k)

/-- the greatest boundary not above `x` -/
def IsFloor (x p : Int) : Prop := Boundary p ∧ p ≤ x ∧ ∀ q, Boundary q → q ≤ x → q ≤ p

/-- the least boundary strictly above `x` -/
def IsNext (x p : Int) : Prop := Boundary p ∧ x < p ∧ ∀ q, Boundary q → x < q → p ≤ q

/-- the least boundary not below `x` -/
def IsCeil (x p : Int) : Prop := Boundary p ∧ x ≤ p ∧ ∀ q, Boundary q → x ≤ q → p ≤ q

/-- buckets that lie side by side between neighbouring boundaries and cover `[lo, hi)` -/
def Contiguous : Int → Int → List Bucket → Prop
  | lo, hi, [] => lo = hi
  | lo, hi, b :: bs => b.start = lo ∧ IsNext b.start b.stop ∧ Contiguous b.stop hi bs

/-- how many of the values satisfy `p` -/
def howMany (vals : List Int) (p : Int → Bool) : Nat := (vals.filter p).length

/-- the smallest of some values -/
def IsMin (m : Int) (vals : List Int) : Prop := m ∈ vals ∧ ∀ v ∈ vals, m ≤ v

/-- the largest of some values -/
def IsMax (m : Int) (vals : List Int) : Prop := m ∈ vals ∧ ∀ v ∈ vals, v ≤ m

/-- `2^k` with a binary unit: `512`, `1K`, `2M`, `4G`, `8T`, `1024T` -/
def powText (k : Nat) : Str :=
  if k < 10 then Nat.toDigits 10 (2 ^ k)
  else if k < 20 then Nat.toDigits 10 (2 ^ (k - 10)) ++ ['K']
  else if k < 30 then Nat.toDigits 10 (2 ^ (k - 20)) ++ ['M']
  else if k < 40 then Nat.toDigits 10 (2 ^ (k - 30)) ++ ['G']
  else Nat.toDigits 10 (2 ^ (k - 40)) ++ ['T']

/-- the label of a boundary -/
def IsLabel (p : Int) (t : Str) : Prop :=
  (p = 0 ∧ t = ['0']) ∨ (∃ k : Nat, p = 2 ^ k ∧ t = powText k) ∨ ∃ k : Nat, p = -(2 ^ k) ∧ t = '-' :: powText k

/-- spaces after a text up to a width -/
def column (w : Nat) (s : Str) : Str := s ++ List.replicate (w - s.length) ' '

/-- spaces before a text up to a width -/
def columnRight (w : Nat) (s : Str) : Str := List.replicate (w - s.length) ' ' ++ s

/-- the line of a bucket: its range, its count, and a bar of up to 50 characters in proportion -/
def IsLine (total : Nat) (b : Bucket) (l : Str) : Prop :=
  ∃ s e : Str, ∃ n : Nat, IsLabel b.start s ∧ IsLabel b.stop e ∧
    n * total ≤ b.count * 50 ∧ b.count * 50 < (n + 1) * total ∧ n ≤ 50 ∧
    l = column 17 (s!' "[" ++ s ++ s!' ", " ++ e ++ s!' ")") ++ columnRight 6 (Nat.toDigits 10 b.count) ++ s!' " |" ++
      column 50 (List.replicate n '@') ++ s!' "|\n"

end Btrd.Spec
