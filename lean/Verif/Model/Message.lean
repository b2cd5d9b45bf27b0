/-
The texts of the error messages: what `e.to_string()` gives for the errors of `src/lang` and `src/btrfs`
(runtime.rs:30, 36; eval.rs throughout). `repl` and `script` write `Error: ` and this text on standard error
(main.rs:99, 133).
-/
import Verif.Model.Eval

namespace Btrd

/-- `{}` of an unsigned number (e.g. value.rs:311) -/
def natDisplay (n : Nat) : Str := Nat.toDigits 10 n

/-- The text of an error. `none` where it is made outside this program: errors of the operating system (fs.rs:124, 149, 205, eval.rs:532). -/
def Err.text : Err → Option Str
  -- `Display for pom::Error` and `end()` (pom 3.2.0; runtime.rs:30)
  | .parse pos found => some (s!' "Mismatch at " ++ natDisplay pos ++ s!' ": expect end of input, found: " ++ [found])
  -- eval.rs:61, 647, semantics.rs:30
  | .unknownVar name => some (s!' "Unknown variable: " ++ name)
  -- value.rs:48, 55, 75, 82, 89, 96, eval.rs:257
  | .typeMismatch want got => some (s!' "Expected " ++ want ++ s!' ", got '" ++ got ++ s!' "'")
  -- eval.rs:84, 107, 117, 131, 145, 173, 183
  | .overflow l op r => some (intDisplay l ++ s!' " " ++ op ++ s!' " " ++ intDisplay r ++ s!' " overflows")
  -- eval.rs:126, 140
  | .divByZero => some s!' "Divide by zero"
  -- `Display for TryFromIntError` (eval.rs:172, 182, 358-366, 439, 485, 670, fs.rs:271)
  | .conversion => some s!' "out of range integral type conversion attempted"
  -- eval.rs:98
  | .cannotAdd l r => some (s!' "Cannot add types '" ++ l ++ s!' "' and '" ++ r ++ s!' "'")
  -- eval.rs:268-271
  | .negativeBytenr i => some (s!' "Invalid bytenr (" ++ intDisplay i ++ s!' ") in type cast: must be non-negative")
  -- eval.rs:302, 369
  | .noFilesystem => some s!' "No filesystem set, set a filesystem first with 'filesystem \"/path\"'"
  -- eval.rs:488, 671
  | .indexRange idx len => some (s!' "Index " ++ intDisplay idx ++ s!' " out of range, length is " ++ natDisplay len)
  | .argCount msg => some msg
  -- eval.rs:352; the closing quote is missing there
  | .notSearchKey => some (s!' "Argument 2 of search() must be 'struct " ++ BTRFS_SEARCH_KEY.name)
  -- value.rs:409, 424
  | .noField name struct =>
    some (s!' "Failed to find field '" ++ name ++ s!' "' in 'struct " ++ struct ++ s!' "'")
  -- eval.rs:432
  | .noKey => some s!' "Could not take 'keyof()' struct with no on-disk key"
  | .badLhs msg => some msg
  | .sink => none
  -- value.rs:310, 331, 352, 477, definitions.rs:829, 862, 1213
  | .shortRead struct part have_ need =>
    some (s!' "Cannot interpret 'struct " ++ struct ++ s!' "', not enough bytes provided" ++ part ++ s!' " (" ++
      natDisplay have_ ++ s!' " < " ++ natDisplay need ++ s!' ")")
  -- value.rs:296
  | .noLengthField name => some (s!' "Did not find length field '" ++ name ++ s!' "'")
  | .anonymous msg => some msg
  -- value.rs:383
  | .notStatic => some s!' "Reified DynamicStruct is not statically sized"
  -- definitions.rs:896
  | .unknownInlineRef ty => some (s!' "Unknown btrfs_extent_inline_ref type: " ++ natDisplay ty)
  -- definitions.rs:905
  | .leftover => some s!' "Leftover data in btrfs_extent_item"
  -- value.rs:133-136
  | .histValue got => some (s!' "Found invalid value '" ++ got ++ s!' "' when printing histogram")
  -- fs.rs:180
  | .searchUnmounted => some s!' "Cannot search() an unmounted filesystem"
  | .ioctl => none
  -- fs.rs:218, 228
  | .searchShort payload =>
    some (if payload then s!' "BtrfsIoctlSearchHeader payload short read" else s!' "BtrfsIoctlSearchHeader short read")
  -- fs.rs:275
  | .bumpOffset => some s!' "Could not bump key.offset -- overflow detected"
  -- fs.rs:279-282
  | .collisions n => some (s!' "Saw " ++ natDisplay n ++ s!' " identical payloads -- this should not be possible")
  -- fs.rs:295
  | .bytesRange len => some (s!' "Index out of range, max length is " ++ natDisplay len)
  -- fs.rs:296
  | .bytesMounted => some s!' "Cannot reinterpret bytes from mounted image"
  -- fs.rs:116-119
  | .neitherFs path => some (path ++ s!' " is neither a mounted nor unmounted btrfs filesystem")
  -- fs.rs:127
  | .notBtrfs path => some (path ++ s!' " is not a btrfs filesystem")
  | .statfs => none
  | .mmap => none
  -- fs.rs:153
  | .badMagic path => some (s!' "Failed to find valid superblock magic for: " ++ path)
  -- semantics.rs:80
  | .unknownType name => some (s!' "Unknown type: struct " ++ name)
  -- semantics.rs:88
  | .badCast => some s!' "Invalid type in type cast"
  | .notIdentifier msg => some msg
  -- semantics.rs:221, with `Display for JumpStatement` (ast.rs)
  | .jumpOutsideLoop isBreak =>
    some (s!' "Cannot '" ++ (if isBreak then s!' "break" else s!' "continue") ++ s!' "' outside of a loop")
  -- semantics.rs:230
  | .filesystemArg => some s!' "'filesystem' builtin only takes string literal arguments"
  -- eval.rs:39, 42
  | .controlFlow => some s!' "Unhandled control flow eval result (tell Daniel)"

end Btrd
