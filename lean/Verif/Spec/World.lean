/-
The world of the rules (C78, C83) in full: opening a filesystem, reading structs from bytes, type casts, `search()`,
the text that shows a value, histogram diagrams, and the messages of all of these. Written for a reader of a manual:
it mentions the data of the model (values, the table of structs, the operating system) and none of its functions.
-/
import Batteries.Data.List.Basic
import Verif.Spec.Search
import Verif.Spec.Dispatch
import Verif.Spec.Hist
import Verif.Spec.Messages

namespace Btrd.Spec

/-! ### opening a filesystem -/

/-- an image of a btrfs filesystem has a superblock with the magic `_BHRfS_M` at its byte 64, at 64 KiB, 64 MiB or
256 GiB -/
def BtrfsImage (img : Bytes) : Prop :=
  magicAt img (2 ^ 16 + 64) ∨ magicAt img (2 ^ 26 + 64) ∨ magicAt img (2 ^ 38 + 64)

/-- **the path names this filesystem**: a directory of a mounted btrfs filesystem, or else a file that is the image
of one -/
inductive OpensAs (h : Host) : Str → Fs → Prop where
  | mounted {path d} : h.openDir path = some d → d.fsType = some 0x9123683e → OpensAs h path (.mounted d.kernel)
  | image {path img} : h.openDir path = none → h.openFile path = some (some img) → BtrfsImage img →
      OpensAs h path (.unmounted img)

/-- **the path does not name a filesystem**, with this message -/
inductive OpenFails (h : Host) : Str → Option Str → Prop where
  | statfs {path d} : h.openDir path = some d → d.fsType = none → OpenFails h path none
  | notBtrfs {path d t} : h.openDir path = some d → d.fsType = some t → t ≠ 0x9123683e →
      OpenFails h path (some (path ++ s!' " is not a btrfs filesystem"))
  | mmap {path} : h.openDir path = none → h.openFile path = some none → OpenFails h path none
  | noImage {path img} : h.openDir path = none → h.openFile path = some (some img) → ¬ BtrfsImage img →
      OpenFails h path (some (s!' "Failed to find valid superblock magic for: " ++ path))
  | neither {path} : h.openDir path = none → h.openFile path = none →
      OpenFails h path (some (path ++ s!' " is neither a mounted nor unmounted btrfs filesystem"))

/-! ### reading structs -/

/-- what every file extent item starts with -/
def fileExtentHead : List (Option Str × Ty) :=
  [(some s!' "generation", .u64), (some s!' "ram_bytes", .u64), (some s!' "compression", .u8),
   (some s!' "encryption", .u8), (some s!' "other_encoding", .u16), (some s!' "type", .u8)]

/-- what follows it when the extent is not inline -/
def fileExtentPlace : List (Option Str × Ty) :=
  [(some s!' "disk_bytenr", .u64), (some s!' "disk_num_bytes", .u64), (some s!' "offset", .u64),
   (some s!' "num_bytes", .u64)]

/-- the type of a file extent item (byte 20) is regular (1) or preallocated (2) -/
def Placed (bytes : Bytes) : Prop := bytes[20]? = some 1 ∨ bytes[20]? = some 2

/-- **the bytes read as this struct have these fields.** What is left over of the bytes is not looked at, except
for extent items, which are filled by their inline references. -/
inductive ReadAs (bytes : Bytes) : StructDef → List (Str × Value) → Prop where
  | laid {s out stop} : s.name ≠ s!' "btrfs_extent_item" → s.name ≠ s!' "btrfs_file_extent_item" →
      Laid bytes s.fields 0 [] out stop → ReadAs bytes s out
  | extentItem {s refs gen flags rest vs} : s.name = s!' "btrfs_extent_item" → refs.length = 8 → gen.length = 8 →
      flags.length = 8 → bytes = refs ++ gen ++ flags ++ rest → InlineRefs rest vs →
      ReadAs bytes s ([(s!' "refs", .int (le refs)), (s!' "generation", .int (le gen)),
        (s!' "flags", .int (le flags))] ++ vs)
  | inlineExtent {s} : s.name = s!' "btrfs_file_extent_item" → 21 ≤ bytes.length → ¬ Placed bytes →
      ReadAs bytes s (fieldsAt (mem bytes) 0 fileExtentHead)
  | placedExtent {s} : s.name = s!' "btrfs_file_extent_item" → 53 ≤ bytes.length → Placed bytes →
      ReadAs bytes s (fieldsAt (mem bytes) 0 (fileExtentHead ++ fileExtentPlace))

/-- the message about too few bytes for (a part of) a struct -/
def tooShort (name part : Str) (have_ need : Nat) : Str :=
  s!' "Cannot interpret 'struct " ++ name ++ s!' "', not enough bytes provided" ++ part ++ s!' " (" ++
    numeral have_ ++ s!' " < " ++ numeral need ++ s!' ")"

/-- how many bytes follow the type byte of an inline reference -/
def refLength (ty : UInt8) : Option Nat :=
  if ty = 178 then some 28 else if ty = 184 then some 12 else if ty = 176 ∨ ty = 182 then some 8 else none

/-- **the bytes cannot be read as this struct**, with this message -/
inductive Unreadable (bytes : Bytes) : StructDef → Str → Prop where
  | short {s} : bytes.length < widths s.fields → Unreadable bytes s (tooShort s.name [] bytes.length (widths s.fields))
  | string {s pre name lenField post seen pos} {n : Nat} : widths s.fields ≤ bytes.length →
      s.fields = pre ++ (some name, .trailingString lenField) :: post → Laid bytes pre 0 [] seen pos →
      lookup seen lenField = some (.int n) → bytes.length < pos + n →
      Unreadable bytes s (tooShort s.name s!' " for string read" bytes.length (pos + n))
  | types {s pre name t countField post seen pos} {n : Nat} : widths s.fields ≤ bytes.length →
      s.fields = pre ++ (some name, .trailingTypes t countField) :: post → Laid bytes pre 0 [] seen pos →
      lookup seen countField = some (.int n) → bytes.length < pos + n * width t →
      Unreadable bytes s (tooShort s.name s!' " for trailing types read" bytes.length (pos + n * width t))
  | extentShort {s} : s.name = s!' "btrfs_extent_item" → bytes.length < 24 →
      Unreadable bytes s (tooShort s.name [] bytes.length 24)
  | extentUnknown {s head refs vs ty rest} : s.name = s!' "btrfs_extent_item" → head.length = 24 →
      bytes = head ++ refs ++ ty :: rest → InlineRefs refs vs → refLength ty = none →
      Unreadable bytes s (s!' "Unknown btrfs_extent_inline_ref type: " ++ numeral ty.toNat)
  | extentCut {s head refs vs ty rest n} : s.name = s!' "btrfs_extent_item" → head.length = 24 →
      bytes = head ++ refs ++ ty :: rest → InlineRefs refs vs → refLength ty = some n → rest.length < n →
      Unreadable bytes s s!' "Leftover data in btrfs_extent_item"
  | fileShort {s} : s.name = s!' "btrfs_file_extent_item" → bytes.length < 21 →
      Unreadable bytes s (tooShort s.name [] bytes.length 21)
  | fileCut {s} : s.name = s!' "btrfs_file_extent_item" → 21 ≤ bytes.length → Placed bytes → bytes.length < 53 →
      Unreadable bytes s (tooShort s.name [] bytes.length 53)

/-! ### type casts -/

/-- **`(struct name) p` gives this value**: the struct at byte `p` (of which the low 64 bits count) of the image -/
inductive CastGives : Option Fs → Str → Int → Value → Prop where
  | mk {img s p out} {start : Nat} : s ∈ structs → 0 ≤ p → (start : Int) = p % 2 ^ 64 →
      start + castSpan s < 2 ^ 64 → start + castSpan s ≤ img.length →
      ReadAs (bytesAt img start (castSpan s)) s out →
      CastGives (some (.unmounted img)) s.name p (.struct s.name none out)

/-- **`(struct name) p` fails** with this message, on a filesystem, for a position that is not negative. When the end
of the struct is past 2^64, it fails where additions wrap around (release builds). -/
inductive CastFails (wraps : Prop) : Fs → Str → Nat → Option Str → Prop where
  | mounted {k s p} {start : Nat} : s ∈ structs → start = p % 2 ^ 64 → (start + castSpan s < 2 ^ 64 ∨ wraps) →
      CastFails wraps (.mounted k) s.name p (some s!' "Cannot reinterpret bytes from mounted image")
  | range {img s p} {start : Nat} : s ∈ structs → start = p % 2 ^ 64 →
      (start + castSpan s < 2 ^ 64 ∧ img.length < start + castSpan s ∨ 2 ^ 64 ≤ start + castSpan s ∧ wraps) →
      CastFails wraps (.unmounted img) s.name p (some (s!' "Index out of range, max length is " ++ numeral img.length))
  | unreadable {img s p m} {start : Nat} : s ∈ structs → start = p % 2 ^ 64 → start + castSpan s < 2 ^ 64 →
      start + castSpan s ≤ img.length → Unreadable (bytesAt img start (castSpan s)) s m →
      CastFails wraps (.unmounted img) s.name p (some m)

/-! ### `search()` -/

/-- the field is this number, of so many bits -/
def Num (fs : List (Str × Value)) (name : Str) (bits n : Nat) : Prop := FirstField fs name (.int n) ∧ n < 2 ^ bits

/-- what a search asks for: the tree, and the bounds in the fields of the key -/
structure Requests (tree : Int) (fs : List (Str × Value)) (a : SearchArgs) : Prop where
  tree : tree = a.treeId ∧ a.treeId < 2 ^ 64
  minObjectid : Num fs s!' "min_objectid" 64 a.minObjectid
  maxObjectid : Num fs s!' "max_objectid" 64 a.maxObjectid
  minType : Num fs s!' "min_type" 8 a.minType
  maxType : Num fs s!' "max_type" 8 a.maxType
  minOffset : Num fs s!' "min_offset" 64 a.minOffset
  maxOffset : Num fs s!' "max_offset" 64 a.maxOffset
  minTransid : Num fs s!' "min_transid" 64 a.minTransid
  maxTransid : Num fs s!' "max_transid" 64 a.maxTransid

/-- the fields of a key, in the order in which they are looked at, and how many bits they have -/
def keyBits : List (Str × Nat) :=
  [(s!' "min_objectid", 64), (s!' "max_objectid", 64), (s!' "min_type", 8), (s!' "max_type", 8),
   (s!' "min_offset", 64), (s!' "max_offset", 64), (s!' "min_transid", 64), (s!' "max_transid", 64)]

/-- a field is no such number -/
inductive NumFails (struct : Str) (fs : List (Str × Value)) (name : Str) (bits : Nat) : Option Str → Prop where
  | none : (∀ v, ¬ FirstField fs name v) → NumFails struct fs name bits (noSuchField name struct)
  | kind {v} : FirstField fs name v → (∀ i, v ≠ .int i) → NumFails struct fs name bits (expected s!' "integer" v)
  | range {i : Int} : FirstField fs name (.int i) → i < 0 ∨ 2 ^ bits ≤ i → NumFails struct fs name bits unconvertible

/-- nothing can be asked for: the message is about the first offender, the tree before the fields -/
inductive RequestFails (struct : Str) (tree : Int) (fs : List (Str × Value)) : Option Str → Prop where
  | tree : tree < 0 ∨ 2 ^ 64 ≤ tree → RequestFails struct tree fs unconvertible
  | field {before name bits after m} : 0 ≤ tree → tree < 2 ^ 64 → keyBits = before ++ (name, bits) :: after →
      (∀ p ∈ before, ∃ n, Num fs p.1 p.2 n) → NumFails struct fs name bits m → RequestFails struct tree fs m

/-- no item has a larger key -/
def Largest (it : Item) (items : List Item) : Prop := it ∈ items ∧ ∀ x ∈ items, ¬ KeyLt (keyOf it) (keyOf x)

/-- the request for what comes after an item -/
def after (a : SearchArgs) (it : Item) : SearchArgs :=
  { a with minObjectid := it.1.objectid, minType := it.1.ty, minOffset := it.1.offset + 1 }

/-- **the conversation with the kernel**: call number `i` makes the request `a`, when the calls before it have given
`got`; in the end there are the items `all`. The reply holds items; unless the search is not to go `on`, or the reply
is empty, there is another call, for what comes after the largest key so far. -/
inductive Talk (k : Kernel) (on : Prop) : Nat → SearchArgs → List Item → List Item → Prop where
  | last {i a got buf q} : k i a = .data q.length buf → Holds buf 0 q → ¬ on ∨ q = [] → Talk k on i a got (got ++ q)
  | more {i a got buf q it all} : k i a = .data q.length buf → Holds buf 0 q → on → q ≠ [] → Largest it (got ++ q) →
      it.1.ty < 256 → it.1.offset + 1 < 2 ^ 64 → Talk k on (i + 1) (after a it) (got ++ q) all → Talk k on i a got all

/-- how many bytes of the buffer items take -/
def filled : List Item → Nat
  | [] => 0
  | it :: its => 32 + it.2.length + filled its

/-- **the conversation fails** with this message -/
inductive TalkFails (k : Kernel) (on : Prop) : Nat → SearchArgs → List Item → Option Str → Prop where
  | errno {i a got} : k i a = .errno → TalkFails k on i a got none
  | noHeader {i a got n buf q} : k i a = .data n buf → Holds buf 0 q → q.length < n → bufSize < filled q + 32 →
      TalkFails k on i a got (some s!' "BtrfsIoctlSearchHeader short read")
  | noPayload {i a got n buf q} : k i a = .data n buf → Holds buf 0 q → q.length < n → filled q + 32 ≤ bufSize →
      bufSize < filled q + 32 + leAt buf (filled q + 28) 4 →
      TalkFails k on i a got (some s!' "BtrfsIoctlSearchHeader payload short read")
  | type {i a got buf q it} : k i a = .data q.length buf → Holds buf 0 q → on → q ≠ [] → Largest it (got ++ q) →
      256 ≤ it.1.ty → TalkFails k on i a got unconvertible
  | offset {i a got buf q it} : k i a = .data q.length buf → Holds buf 0 q → on → q ≠ [] → Largest it (got ++ q) →
      it.1.ty < 256 → 2 ^ 64 ≤ it.1.offset + 1 →
      TalkFails k on i a got (some s!' "Could not bump key.offset -- overflow detected")
  | more {i a got buf q it m} : k i a = .data q.length buf → Holds buf 0 q → on → q ≠ [] → Largest it (got ++ q) →
      it.1.ty < 256 → it.1.offset + 1 < 2 ^ 64 → TalkFails k on (i + 1) (after a it) (got ++ q) m →
      TalkFails k on i a got m

/-- `n` of the items repeat the header of an earlier one -/
def Repeated (n : Nat) (items : List Item) : Prop :=
  ∃ hs : List Header, hs.Nodup ∧ (∀ h, h ∈ hs ↔ h ∈ items.map (·.1)) ∧ items.length = hs.length + n

/-- the kinds of items the tool knows: the documented ones, but no directory log items of type 60, and balance items
have the objectid 4 -/
def knownKinds : List ItemKind :=
  (itemKinds.filter fun k => k.ty != 60 && k.ty != 248) ++
    [{ layout := s!' "btrfs_balance_item", ty := 248, oid := some 4, off := some 0 }]

/-- the item holds this struct -/
def HoldsStruct (h : Header) (name : Str) : Prop :=
  ∃ k ∈ knownKinds, k.matches h.objectid h.ty h.offset = true ∧ k.layout = name

/-- **the values of the items**: those of the kinds the tool knows, in order, each with its key -/
inductive Contents : List Item → List Value → Prop where
  | nil : Contents [] []
  | skip {h payload its vs} : (∀ name, ¬ HoldsStruct h name) → Contents its vs → Contents ((h, payload) :: its) vs
  | item {h payload s out its vs} : s ∈ structs → HoldsStruct h s.name → ReadAs payload s out → Contents its vs →
      Contents ((h, payload) :: its) (.struct s.name (some (h.objectid, h.ty, h.offset)) out :: vs)

/-- the first item that cannot be read, and why -/
inductive ContentFails : List Item → Str → Prop where
  | here {h payload s its m} : s ∈ structs → HoldsStruct h s.name → Unreadable payload s m →
      ContentFails ((h, payload) :: its) m
  | skip {h payload its m} : (∀ name, ¬ HoldsStruct h name) → ContentFails its m → ContentFails ((h, payload) :: its) m
  | later {h payload s out its m} : s ∈ structs → HoldsStruct h s.name → ReadAs payload s out → ContentFails its m →
      ContentFails ((h, payload) :: its) m

/-- **`search(tree, key)` gives this value** -/
inductive SearchGives : Option Fs → Int → Value → Value → Prop where
  | mk {k tree own fs a items vs} : Requests tree fs a → Talk k (Bounded a) 0 a [] items → (items.map (·.1)).Nodup →
      Contents items vs →
      SearchGives (some (.mounted k)) tree (.struct s!' "_btrfs_ioctl_search_key" own fs) (.array vs false)

/-- **`search(tree, key)` fails** with this message, on a filesystem, for a search key -/
inductive SearchFails : Fs → Int → Value → Option Str → Prop where
  | request {x tree own fs m} : RequestFails s!' "_btrfs_ioctl_search_key" tree fs m →
      SearchFails x tree (.struct s!' "_btrfs_ioctl_search_key" own fs) m
  | unmounted {img tree own fs a} : Requests tree fs a →
      SearchFails (.unmounted img) tree (.struct s!' "_btrfs_ioctl_search_key" own fs)
        (some s!' "Cannot search() an unmounted filesystem")
  | talk {k tree own fs a m} : Requests tree fs a → TalkFails k (Bounded a) 0 a [] m →
      SearchFails (.mounted k) tree (.struct s!' "_btrfs_ioctl_search_key" own fs) m
  | repeated {k tree own fs a items n} : Requests tree fs a → Talk k (Bounded a) 0 a [] items →
      Repeated n items → n ≠ 0 →
      SearchFails (.mounted k) tree (.struct s!' "_btrfs_ioctl_search_key" own fs)
        (some (s!' "Saw " ++ numeral n ++ s!' " identical payloads -- this should not be possible"))
  | content {k tree own fs a items m} : Requests tree fs a → Talk k (Bounded a) 0 a [] items →
      (items.map (·.1)).Nodup → ContentFails items m →
      SearchFails (.mounted k) tree (.struct s!' "_btrfs_ioctl_search_key" own fs) (some m)

/-! ### histogram diagrams -/

/-- the label of a boundary in a diagram; release builds label the boundary −2^127 wrongly -/
def LabelIn (wraps : Prop) (p : Int) (t : Str) : Prop :=
  p ≠ -(2 ^ 127) ∧ IsLabel p t ∨ wraps ∧ p = -(2 ^ 127) ∧ t = s!' "--154742504910672534362390528T"

/-- the line of a bucket -/
def LineIn (wraps : Prop) (total : Nat) (b : Bucket) (l : Str) : Prop :=
  ∃ s e : Str, ∃ n : Nat, LabelIn wraps b.start s ∧ LabelIn wraps b.stop e ∧
    n * total ≤ b.count * 50 ∧ b.count * 50 < (n + 1) * total ∧
    l = column 17 (s!' "[" ++ s ++ s!' ", " ++ e ++ s!' ")") ++ columnRight 6 (numeral b.count) ++ s!' " |" ++
      column 50 (List.replicate n '@') ++ s!' "|\n"

/-- the buckets of a histogram: side by side between neighbouring boundaries, from the greatest boundary not above
the smallest value to the least boundary not below the largest; none if these are the same -/
inductive BucketsOf (vals : List Int) (bs : List Bucket) : Prop where
  | mk {lo hi mn mx} : IsMin mn vals → IsMax mx vals → IsFloor mn lo → IsCeil mx hi → Contiguous lo hi bs →
      (∀ b ∈ bs, b.count = howMany vals fun x => decide (b.start ≤ x ∧ x < b.stop)) → BucketsOf vals bs

/-- **the diagram of a histogram**; there is none for values above 2^125 -/
inductive Diagram (wraps : Prop) : List Value → Str → Prop where
  | nil : Diagram wraps [] []
  | mk {vals bs ls} : vals ≠ [] → (∀ x ∈ vals, x ≤ 2 ^ 125) → BucketsOf vals bs →
      List.Forall₂ (LineIn wraps vals.length) bs ls → Diagram wraps (vals.map .int) ls.flatten

/-! ### the world -/

/-- the world of a run: its operating system, whether arithmetic wraps around (release builds), and whether it is a
REPL -/
def theWorld (h : Host) (wraps interactive : Prop) : World where
  search := SearchGives
  cast := CastGives
  opens := OpensAs h
  diagram := Diagram wraps
  shows v t := t = unlines (shown v)
  wraps := wraps
  interactive := interactive

/-- its messages -/
def theComplaints (h : Host) (wraps : Prop) : Complaints where
  search := SearchFails
  cast := CastFails wraps
  opens := OpenFails h

end Btrd.Spec
