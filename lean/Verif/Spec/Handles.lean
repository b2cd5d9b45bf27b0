/-
How a process may use descriptors and mappings (C96).
-/
import Verif.Model.Handles

namespace Btrd.Spec

/-- **A sequence of system calls that is in order**: `InOrder P T calls T'` says that with `T` open the process may make
these calls, that then `T'` is open, and that `P` holds of what is open after each of them. A descriptor that is asked,
mapped or closed is open and of the right kind, a mapping that is read or unmapped exists, a read stays within it, and
what is closed or unmapped is gone. -/
inductive InOrder (P : Table → Prop) : Table → List Sys → Table → Prop where
  | nil {T} : InOrder P T [] T
  | openDir {T path fd l T'} : fd ∉ T.dirs → fd ∉ T.files → P { T with dirs := fd :: T.dirs } →
      InOrder P { T with dirs := fd :: T.dirs } l T' → InOrder P T (.openDir path (some fd) :: l) T'
  | noDir {T path l T'} : InOrder P T l T' → InOrder P T (.openDir path none :: l) T'
  | openFile {T path fd l T'} : fd ∉ T.dirs → fd ∉ T.files → P { T with files := fd :: T.files } →
      InOrder P { T with files := fd :: T.files } l T' → InOrder P T (.openFile path (some fd) :: l) T'
  | noFile {T path l T'} : InOrder P T l T' → InOrder P T (.openFile path none :: l) T'
  | fstatfs {T fd l T'} : fd ∈ T.dirs → InOrder P T l T' → InOrder P T (.fstatfs fd :: l) T'
  | mmap {T fd m n l T'} : fd ∈ T.files → (∀ x ∈ T.maps, x.1 ≠ m) → P { T with maps := (m, n) :: T.maps } →
      InOrder P { T with maps := (m, n) :: T.maps } l T' → InOrder P T (.mmap fd (some (m, n)) :: l) T'
  | noMap {T fd l T'} : fd ∈ T.files → InOrder P T l T' → InOrder P T (.mmap fd none :: l) T'
  | ioctl {T fd a l T'} : fd ∈ T.dirs → InOrder P T l T' → InOrder P T (.ioctl fd a :: l) T'
  | load {T m n i j l T'} : (m, n) ∈ T.maps → i ≤ j → j ≤ n → InOrder P T l T' → InOrder P T (.load m i j :: l) T'
  | closeDir {dirs dirs' files maps fd l T'} : fd ∉ dirs → fd ∉ dirs' → P ⟨dirs ++ dirs', files, maps⟩ →
      InOrder P ⟨dirs ++ dirs', files, maps⟩ l T' → InOrder P ⟨dirs ++ fd :: dirs', files, maps⟩ (.close fd :: l) T'
  | closeFile {dirs files files' maps fd l T'} : fd ∉ files → fd ∉ files' → P ⟨dirs, files ++ files', maps⟩ →
      InOrder P ⟨dirs, files ++ files', maps⟩ l T' → InOrder P ⟨dirs, files ++ fd :: files', maps⟩ (.close fd :: l) T'
  | munmap {dirs files maps maps' m n l T'} : (∀ x ∈ maps, x.1 ≠ m) → (∀ x ∈ maps', x.1 ≠ m) →
      P ⟨dirs, files, maps ++ maps'⟩ → InOrder P ⟨dirs, files, maps ++ maps'⟩ l T' →
      InOrder P ⟨dirs, files, maps ++ (m, n) :: maps'⟩ (.munmap m :: l) T'

/-- at most so many descriptors and mappings at a time -/
def AtMost (fds maps : Nat) (T : Table) : Prop := T.dirs.length + T.files.length ≤ fds ∧ T.maps.length ≤ maps

/-- the operating system gives numbers that are not in use -/
structure Fresh (os : Numbers) : Prop where
  dirs : ∀ T, os.fd T ∉ T.dirs
  files : ∀ T, os.fd T ∉ T.files
  maps : ∀ T, ∀ x ∈ T.maps, x.1 ≠ os.map T

/-- **What is open for a filesystem in use**, and nothing else: a directory of it if it is mounted, a mapping of the whole
image if it is one -/
inductive OpenFor : Option Fs → Option Held → Table → Prop where
  | none : OpenFor none none ⟨[], [], []⟩
  | mounted {k fd} : OpenFor (some (.mounted k)) (some (.dir fd)) ⟨[fd], [], []⟩
  | image {img m} : OpenFor (some (.unmounted img)) (some (.map m)) ⟨[], [], [(m, img.length)]⟩

/-- a change of the world under an open filesystem: a mounted one stays mounted and a mapping stays as long as it was -/
def SameKind (drift : Fs → Fs) : Prop :=
  (∀ k, ∃ k', drift (.mounted k) = .mounted k') ∧
  ∀ img, ∃ img', drift (.unmounted img) = .unmounted img' ∧ img'.length = img.length

end Btrd.Spec
