/-
Model of the histogram printing of `src/lang/eval/value.rs`.
-/
import Verif.Model.Value

namespace Btrd

/-- `i128::checked_shl(1)` / `<< 1` on an i128: never `None` because `1 < 128`; bits shifted out are
lost. -/
def shl1 (i : Int) : Int := wrapI128 (2 * i)

/-- `while i <= x { i = i.checked_shl(1)?; }` (value.rs:208-211), at most `fuel` iterations -/
def pow2Up (x : Int) : Nat → Int → R Int
  | 0, _ => R.diverge
  | fuel + 1, i => if i ≤ x then pow2Up x fuel (shl1 i) else .ok i

/-- `while i > x { i = i.checked_shl(1)?; }` (value.rs:216-219), at most `fuel` iterations -/
def pow2Down (x : Int) : Nat → Int → R Int
  | 0, _ => R.diverge
  | fuel + 1, i => if i > x then pow2Down x fuel (shl1 i) else .ok i

/-- `previous_power_2` (value.rs:203-223). It never returns `None`: `checked_shl(1)` cannot fail. -/
def previousPower2 (fuel : Nat) (x : Int) : R Int :=
  if x = 0 then .ok 0
  else if x > 0 then do
    let i ← pow2Up x fuel 1
    .ok (i / 2)                       -- arithmetic `i >> 1`
  else pow2Down x fuel (-1)

/-- `next_power_2` (value.rs:226-236) -/
def nextPower2 (fuel : Nat) (x : Int) : R Int :=
  if x = -1 then .ok 0
  else if x = 0 then .ok 1
  else if x > 0 then do
    let i ← previousPower2 fuel x
    .ok (shl1 i)
  else do
    let i ← previousPower2 fuel x
    .ok (i / 2)

/-- arithmetic negation `-x` of an i128 (value.rs:253, eval.rs:262): overflows at `i128::MIN` -/
def negI128 (b : Build) (x : Int) : R Int :=
  if x = i128Min then (if b.ovfChecks then R.panic else .ok x) else .ok (-x)

/-- the magnitude part of `num_bytes_to_pretty` (value.rs:256-266); `>>` is arithmetic -/
def prettyUnit (bytes : Int) : Str :=
  if bytes / 2 ^ 40 ≠ 0 then intDisplay (bytes / 2 ^ 40) ++ ['T']
  else if bytes / 2 ^ 30 ≠ 0 then intDisplay (bytes / 2 ^ 30) ++ ['G']
  else if bytes / 2 ^ 20 ≠ 0 then intDisplay (bytes / 2 ^ 20) ++ ['M']
  else if bytes / 2 ^ 10 ≠ 0 then intDisplay (bytes / 2 ^ 10) ++ ['K']
  else intDisplay bytes

/-- `num_bytes_to_pretty` (value.rs:243-273), including its `assert_eq!` -/
def numBytesToPretty (b : Build) (fuel : Nat) (bytes : Int) : R Str := do
  let p ← previousPower2 fuel bytes
  if bytes ≠ p then R.panic
  else if bytes = 0 then .ok ['0']
  else if bytes < 0 then do
    let n ← negI128 b bytes
    .ok ('-' :: prettyUnit n)
  else .ok (prettyUnit bytes)

/-- Collect the integers of a histogram array; anything else is an error (value.rs:129-138) -/
def histInts : List Value → R (List Int)
  | [] => .ok []
  | .int i :: vs => do
    let is ← histInts vs
    .ok (i :: is)
  | v :: _ => R.err (.histValue v.shortDisplay)

/-- One histogram bucket: inclusive start, exclusive end, number of values (value.rs:144-145) -/
structure Bucket where
  start : Int
  stop : Int
  count : Nat
deriving DecidableEq, Repr

/-- `vals.iter().filter(|v| v >= cur && v < next).count()` (value.rs:155) -/
def countIn (vals : List Int) (lo hi : Int) : Nat :=
  (vals.filter fun v => decide (lo ≤ v) && decide (v < hi)).length

/-- The bucketing loop (value.rs:152-159), at most `fuel` iterations -/
def bucketLoop (pfuel : Nat) (vals : List Int) (maxv : Int) : Nat → Int → R (List Bucket)
  | 0, _ => R.diverge
  | fuel + 1, cur =>
    if cur < maxv then do
      let next ← nextPower2 pfuel cur
      let rest ← bucketLoop pfuel vals maxv fuel next
      .ok (⟨cur, next, countIn vals cur next⟩ :: rest)
    else .ok []

/-- The buckets of a non-empty histogram (value.rs:144-159) -/
def histBuckets (fuel : Nat) (v : Int) (vs : List Int) : R (List Bucket) := do
  let cur ← previousPower2 fuel (vs.foldl min v)
  bucketLoop fuel (v :: vs) (vs.foldl max v) fuel cur

/-- `{:w}` for a string: padded on the right (value.rs:173, eval.rs:801) -/
def padRight (w : Nat) (s : Str) : Str := s ++ List.replicate (w - s.length) ' '

/-- `{:w}` for a number: padded on the left (value.rs:173) -/
def padLeft (w : Nat) (s : Str) : Str := List.replicate (w - s.length) ' ' ++ s

/-- One line of the diagram (value.rs:164-178); `total` is `vals.len()` -/
def bucketLine (b : Build) (fuel : Nat) (total : Nat) (k : Bucket) : R Str := do
  let s ← numBytesToPretty b fuel k.start
  let e ← numBytesToPretty b fuel k.stop
  let range := ['['] ++ s ++ s!' ", " ++ e ++ [')']
  let bar := List.replicate (k.count * 50 / total) '@'
  .ok (padRight 17 range ++ padLeft 6 (Nat.toDigits 10 k.count) ++ s!' " |" ++ padRight 50 bar ++ s!' "|\n")

/-- the drawing loop (value.rs:161-179) -/
def bucketLines (b : Build) (fuel : Nat) (total : Nat) : List Bucket → R Str
  | [] => .ok []
  | k :: ks => do
    let l ← bucketLine b fuel total k
    let ls ← bucketLines b fuel total ks
    .ok (l ++ ls)

/-- `Array::as_hist` (value.rs:128-182) -/
def asHist (b : Build) (fuel : Nat) (vec : List Value) : R Str := do
  let vals ← histInts vec
  match vals with
  | [] => .ok []
  | v :: vs =>
    let buckets ← histBuckets fuel v vs
    bucketLines b fuel (v :: vs).length buckets

end Btrd
