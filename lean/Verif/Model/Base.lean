/-
Shared vocabulary of the model: text, bytes, failures, machine-integer helpers.
-/

namespace Btrd

/-- A Rust `String`/`&str`: a sequence of Unicode scalar values (input.rs:27, 57; parse.rs:430-431 reads it as chars). -/
abbrev Str := List Char

/-- A Rust `Vec<u8>`/`&[u8]` (value.rs:18, 306). -/
abbrev Bytes := List UInt8

open Lean in
/-- Notation only: `s!' "abc"` is the list of characters `['a', 'b', 'c']`. -/
macro:max "s!'" s:str : term => do
  let elems ← s.getString.toList.mapM fun c => `($(Syntax.mkCharLit c))
  `(([ $(elems.toArray),* ] : List Char))

/-- Why an evaluation failed: one constructor per family of `bail!`/`ensure!`/`?` sites, with what the
message shows; the texts are in `Model/Message`. (eval.rs, value.rs, fs.rs, definitions.rs, semantics.rs) -/
inductive Err where
  /-- the parser rejected the input, which goes on with `found` at this position: runtime.rs:30, parse.rs:432 -/
  | parse (pos : Nat) (found : Char)
  /-- "Unknown variable": eval.rs:61, eval.rs:647, semantics.rs:30 -/
  | unknownVar (name : Str)
  /-- "Expected integer|boolean|string|array|struct|function, got ...": value.rs:45-98, eval.rs:257 -/
  | typeMismatch (want got : Str)
  /-- `checked_*` returned `None`: eval.rs:82-183 -/
  | overflow (l : Int) (op : Str) (r : Int)
  /-- "Divide by zero": eval.rs:126, eval.rs:140 -/
  | divByZero
  /-- a failed `try_into()`: eval.rs:172, 182, 358-366, 439, 485, 670, fs.rs:271 -/
  | conversion
  /-- "Cannot add types": eval.rs:98 -/
  | cannotAdd (l r : Str)
  /-- "Invalid bytenr": eval.rs:268-271 -/
  | negativeBytenr (i : Int)
  /-- "No filesystem set": eval.rs:301, eval.rs:368 -/
  | noFilesystem
  /-- "Index out of range": eval.rs:488, 671 -/
  | indexRange (idx : Int) (len : Nat)
  /-- wrong number of call arguments, with the message: eval.rs:316, 345, 412, 417, 436, 442, 450 -/
  | argCount (msg : Str)
  /-- "Argument 2 of search() must be ...": eval.rs:350 -/
  | notSearchKey
  /-- "Failed to find field": value.rs:409, 424 -/
  | noField (name struct : Str)
  /-- "Could not take keyof() struct with no on-disk key": eval.rs:432 -/
  | noKey
  /-- bad target of an assignment: eval.rs:648, 660, 674-684, with the message -/
  | badLhs (msg : Str)
  /-- a write to the sink failed: eval.rs:532, 748, 806 -/
  | sink
  /-- not enough bytes for a struct: value.rs:308, 329, 350, 475, definitions.rs:830, 862, 1210; the struct, what
  was read of it, the bytes there are and the bytes needed -/
  | shortRead (struct part : Str) (have_ need : Nat)
  /-- "Did not find length field": value.rs:296 -/
  | noLengthField (name : Str)
  /-- "TrailingString/TrailingTypes can't be anonymous", "Only structs can be used as anonymous
  fields": value.rs:340, 369, 498, with the message -/
  | anonymous (msg : Str)
  /-- "Reified DynamicStruct is not statically sized": value.rs:381 -/
  | notStatic
  /-- "Unknown btrfs_extent_inline_ref type": definitions.rs:896 -/
  | unknownInlineRef (ty : Nat)
  /-- "Leftover data in btrfs_extent_item": definitions.rs:905 -/
  | leftover
  /-- "Found invalid value when printing histogram": value.rs:133 -/
  | histValue (got : Str)
  /-- "Cannot search() an unmounted filesystem": fs.rs:180 -/
  | searchUnmounted
  /-- the ioctl failed with an errno other than EOVERFLOW: fs.rs:205 -/
  | ioctl
  /-- short reads inside the search buffer: fs.rs:216 (header), 226 (payload) -/
  | searchShort (payload : Bool)
  /-- "Could not bump key.offset": fs.rs:275 -/
  | bumpOffset
  /-- "Saw identical payloads": fs.rs:279 -/
  | collisions (n : Nat)
  /-- `get_bytes` out of range: fs.rs:295 -/
  | bytesRange (len : Nat)
  /-- "Cannot reinterpret bytes from mounted image": fs.rs:296 -/
  | bytesMounted
  /-- `Fs::new` failures: fs.rs:102-160; neither a directory nor a file that can be opened, a directory of another
  filesystem, the system calls, no magic -/
  | neitherFs (path : Str)
  | notBtrfs (path : Str)
  | statfs
  | mmap
  | badMagic (path : Str)
  /-- analyzer-only errors: semantics.rs:80 ("Unknown type"), 88 ("Invalid type in type cast"),
  101/154 (field / loop variable must be identifier; also eval.rs:475, 605, 655, with the message), 221 (jump
  outside loop), 230 (filesystem) -/
  | unknownType (name : Str)
  | badCast
  | notIdentifier (msg : Str)
  | jumpOutsideLoop (isBreak : Bool)
  | filesystemArg
  /-- "Unhandled control flow eval result": eval.rs:38-43 -/
  | controlFlow
deriving DecidableEq, Repr

/-- How a computation can fail to return a value: a Rust `Err`, a Rust panic (process abort), or not
finishing within the loop-iteration bound of the model. -/
inductive Fail where
  | err (e : Err)
  | panic
  | diverge
deriving DecidableEq, Repr

/-- Result of a Rust computation returning `Result<T>` (eval.rs:5, value.rs:5). -/
abbrev R (α : Type) := Except Fail α

/-- `bail!` (e.g. eval.rs:126) -/
@[reducible] def R.err {α : Type} (e : Err) : R α := .error (.err e)
/-- `panic!`, a failed `assert!`/`unwrap()`, an out-of-range slice, or overflow in a debug build (e.g. value.rs:244, eval.rs:286) -/
@[reducible] def R.panic {α : Type} : R α := .error .panic
/-- the bound of the model was reached (loops at eval.rs:569, fs.rs:190, value.rs:152, 208, 216) -/
@[reducible] def R.diverge {α : Type} : R α := .error .diverge

/-- anyhow `ensure!` (e.g. eval.rs:316) -/
def ensure (c : Bool) (e : Err) : R Unit := if c then .ok () else R.err e

/-- Option to Result, `ok_or_else` (e.g. eval.rs:84) -/
def orErr {α : Type} (o : Option α) (e : Err) : R α :=
  match o with
  | some a => .ok a
  | none => R.err e

/-- `i128::MIN` (integers are i128: value.rs:15) -/
def i128Min : Int := -(2 ^ 127)
/-- `i128::MAX` (integers are i128: value.rs:15) -/
def i128Max : Int := 2 ^ 127 - 1
/-- the value is representable as an `i128` (value.rs:15) -/
def inI128 (x : Int) : Bool := i128Min ≤ x && x ≤ i128Max
/-- two's complement wrap to 128 bits (i128 operations that wrap: eval.rs:172, 262, value.rs:209) -/
def wrapI128 (x : Int) : Int := Int.bmod x (2 ^ 128)
/-- `u64::MAX` (eval.rs:331, fs.rs:182) -/
def u64Max : Nat := 2 ^ 64 - 1
/-- `u8::MAX` (eval.rs:334, fs.rs:183) -/
def u8Max : Nat := 255

/-- `i128 as usize` on a 64 bit target: the low 64 bits (eval.rs:274, value.rs:292). -/
def asUsize (x : Int) : Nat := (x % 2 ^ 64).toNat

/-- `TryFrom<i128>` for an unsigned type with `2^bits` values (eval.rs:172, 358-366, 485). -/
def tryUnsigned (bits : Nat) (x : Int) : R Nat :=
  match x with
  | .ofNat n => if n < 2 ^ bits then .ok n else R.err .conversion
  | .negSucc _ => R.err .conversion

/-- Build configuration: whether integer overflow panics (debug builds) or wraps (release builds);
`Cargo.toml` sets neither, so both profiles exist. -/
structure Build where
  ovfChecks : Bool
deriving Repr

/-- `usize` addition (`+`): panics on overflow in a debug build, wraps in a release build (eval.rs:298, value.rs:327). -/
def usizeAdd (b : Build) (x y : Nat) : R Nat :=
  if x + y < 2 ^ 64 then .ok (x + y)
  else if b.ovfChecks then R.panic else .ok ((x + y) % 2 ^ 64)

/-- `usize` multiplication (`*`) (value.rs:348). -/
def usizeMul (b : Build) (x y : Nat) : R Nat :=
  if x * y < 2 ^ 64 then .ok (x * y)
  else if b.ovfChecks then R.panic else .ok ((x * y) % 2 ^ 64)

/-- `&bytes[offset..]`: panics when `offset > len` (value.rs:377, 393, 524). -/
def sliceFrom (bs : Bytes) (offset : Nat) : R Bytes :=
  if offset ≤ bs.length then .ok (bs.drop offset) else R.panic

/-- `&bytes[a..b]`: panics unless `a ≤ b ≤ len` (value.rs:341, 361). -/
def sliceRange (bs : Bytes) (a b : Nat) : R Bytes :=
  if a ≤ b ∧ b ≤ bs.length then .ok ((bs.drop a).take (b - a)) else R.panic

/-- `{uN}::from_le_bytes` (value.rs:513-516) -/
def leNat : Bytes → Nat
  | [] => 0
  | b :: bs => b.toNat + 256 * leNat bs

end Btrd
