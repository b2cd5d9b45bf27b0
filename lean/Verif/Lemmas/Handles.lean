/-
Opening, switching and releasing filesystems keeps the descriptors in order.
-/
import Verif.Spec.Handles
import Verif.Lemmas.InUse

namespace Btrd
open Spec

theorem Spec.InOrder.append {P : Table → Prop} {T T' T'' : Table} {l l' : List Sys} (h : InOrder P T l T') (h' : InOrder P T' l' T'') :
    InOrder P T (l ++ l') T'' := by
  induction h with
  | nil => exact h'
  | openDir a b c _ ih => exact .openDir a b c (ih h')
  | noDir _ ih => exact .noDir (ih h')
  | openFile a b c _ ih => exact .openFile a b c (ih h')
  | noFile _ ih => exact .noFile (ih h')
  | fstatfs a _ ih => exact .fstatfs a (ih h')
  | mmap a b c _ ih => exact .mmap a b c (ih h')
  | noMap a _ ih => exact .noMap a (ih h')
  | ioctl a _ ih => exact .ioctl a (ih h')
  | load a b c _ ih => exact .load a b c (ih h')
  | closeDir a b c _ ih => exact .closeDir a b c (ih h')
  | closeFile a b c _ ih => exact .closeFile a b c (ih h')
  | munmap a b c _ ih => exact .munmap a b c (ih h')

theorem close_dir (T : Table) (fd : Nat) (h : fd ∉ T.files) : ({ T with dirs := fd :: T.dirs } : Table).close fd = T := by
  obtain ⟨d, f, m⟩ := T
  have : f.erase fd = f := List.erase_of_not_mem h
  simp [Table.close, this]

theorem close_file (T : Table) (fd : Nat) (h : fd ∉ T.dirs) : ({ T with files := fd :: T.files } : Table).close fd = T := by
  obtain ⟨d, f, m⟩ := T
  have : d.erase fd = d := List.erase_of_not_mem h
  simp [Table.close, this]

theorem unmap_new (T : Table) (m n : Nat) (h : ∀ x ∈ T.maps, x.1 ≠ m) :
    ({ T with maps := (m, n) :: T.maps } : Table).unmap m = T := by
  obtain ⟨d, f, ms⟩ := T
  simp only [Table.unmap, List.filter_cons, ne_eq, not_true, decide_false]
  simp
  exact fun a b hab => h (a, b) hab

section
variable {P : Table → Prop}

theorem runs_close_dir {T T' : Table} {fd : Nat} {l : List Sys} (hd : fd ∉ T.dirs) (hP : P T) (h : InOrder P T l T') :
    InOrder P { T with dirs := fd :: T.dirs } (.close fd :: l) T' := by
  obtain ⟨d, f, m⟩ := T
  exact InOrder.closeDir (dirs := []) (dirs' := d) (by simp) hd hP h

theorem runs_close_file {T T' : Table} {fd : Nat} {l : List Sys} (hd : fd ∉ T.files) (hP : P T) (h : InOrder P T l T') :
    InOrder P { T with files := fd :: T.files } (.close fd :: l) T' := by
  obtain ⟨d, f, m⟩ := T
  exact InOrder.closeFile (files := []) (files' := f) (by simp) hd hP h

theorem runs_munmap {T T' : Table} {m n : Nat} {l : List Sys} (hd : ∀ x ∈ T.maps, x.1 ≠ m) (hP : P T) (h : InOrder P T l T') :
    InOrder P { T with maps := (m, n) :: T.maps } (.munmap m :: l) T' := by
  obtain ⟨d, f, ms⟩ := T
  exact InOrder.munmap (maps := []) (maps' := ms) (by simp) hd hP h

theorem runs_magic (m : Nat) (img : Bytes) {T T' : Table} {l : List Sys} (hm : (m, img.length) ∈ T.maps) (h : InOrder P T l T') :
    ∀ locs, InOrder P T (magicLoads m img locs ++ l) T'
  | [] => h
  | loc :: locs => by
    rw [magicLoads]
    split
    · rename_i hl
      refine .load hm (by omega) hl ?_
      split
      · exact h
      · exact runs_magic m img hm h locs
    · exact runs_magic m img hm h locs

/-- how opening can end -/
inductive Opened (P : Table → Prop) (os : Numbers) (T : Table) (calls : List Sys) : R Fs → Table → Option Held → Prop
  | refused {e} : InOrder P T calls T → Opened P os T calls (.error e) T none
  | mounted {k fd} : fd ∉ T.dirs → fd ∉ T.files → InOrder P T calls { T with dirs := fd :: T.dirs } →
      Opened P os T calls (.ok (.mounted k)) { T with dirs := fd :: T.dirs } (some (.dir fd))
  | image {img m} : (∀ x ∈ T.maps, x.1 ≠ m) → InOrder P T calls { T with maps := (m, img.length) :: T.maps } →
      Opened P os T calls (.ok (.unmounted img)) { T with maps := (m, img.length) :: T.maps } (some (.map m))

end

/-- what is asked of a bound on what is open for opening one more filesystem -/
structure Bears (P : Table → Prop) (T : Table) : Prop where
  now : P T
  dir : ∀ fd, P { T with dirs := fd :: T.dirs }
  file : ∀ fd, P { T with files := fd :: T.files }
  map : ∀ x, P { T with maps := x :: T.maps }
  both : ∀ fd x, P ⟨T.dirs, fd :: T.files, x :: T.maps⟩

theorem bears_atMost {T : Table} (hT : AtMost 1 1 T) : Bears (AtMost 2 2) T := by
  have h1 := hT.1
  have h2 := hT.2
  constructor <;> intros <;> constructor <;> (try simp only [List.length_cons]) <;> omega

theorem open_gen {P : Table → Prop} {os : Numbers} (hos : Fresh os) (h : Host) (path : Str) {T : Table} (hT : Bears P T) :
    Opened P os T (openCalls os h path T).1 (Fs.new h path) (openCalls os h path T).2.1 (openCalls os h path T).2.2 := by
  have hP := hT.now
  have hd := hos.dirs T
  have hf := hos.files T
  have hPd := hT.dir (os.fd T)
  have hPf := hT.file (os.fd T)
  unfold openCalls Fs.new
  cases h.openDir path with
  | some d =>
    dsimp only
    unfold mountedCalls
    cases hn : Fs.newMounted path d with
    | ok fs =>
      have : ∃ k, fs = .mounted k := by
        unfold Fs.newMounted at hn
        split at hn
        · cases hn
        · split at hn
          · exact ⟨_, (Except.ok.inj hn).symm⟩
          · cases hn
      obtain ⟨k, rfl⟩ := this
      exact .mounted hd hf (.openDir hd hf hPd (.fstatfs (by simp) .nil))
    | error e =>
      dsimp only
      rw [close_dir T _ hf]
      exact .refused (.openDir hd hf hPd (.fstatfs (by simp) (runs_close_dir hd hP .nil)))
  | none =>
    dsimp only
    cases h.openFile path with
    | none => exact .refused (.noDir (.noFile .nil))
    | some c =>
      dsimp only
      cases c with
      | none =>
        dsimp only [unmountedCalls]
        rw [close_file T _ hd]
        exact .refused (.noDir (.openFile hd hf hPf (.noMap (by simp) (runs_close_file hf hP .nil))))
      | some img =>
        have hm := hos.maps { T with files := os.fd T :: T.files }
        dsimp only at hm
        unfold unmountedCalls Fs.newUnmounted
        dsimp only
        generalize os.map { T with files := os.fd T :: T.files } = m at hm
        have hPm := hT.map (m, img.length)
        have hPfm := hT.both (os.fd T) (m, img.length)
        cases hasSuperblockMagic img with
        | true =>
          simp only [if_true]
          rw [show (⟨T.dirs, os.fd T :: T.files, (m, img.length) :: T.maps⟩ : Table).close (os.fd T) =
            { T with maps := (m, img.length) :: T.maps } from
            close_file { T with maps := (m, img.length) :: T.maps } _ hd]
          refine .image hm (.noDir (.openFile hd hf hPf (.mmap (by simp) hm hPfm ?_)))
          refine runs_magic m img (by simp) ?_ _
          exact runs_close_file (T := { T with maps := (m, img.length) :: T.maps }) hf hPm .nil
        | false =>
          simp only [Bool.false_eq_true, if_false]
          rw [show (⟨T.dirs, os.fd T :: T.files, (m, img.length) :: T.maps⟩ : Table).unmap m =
            { T with files := os.fd T :: T.files } from
            unmap_new { T with files := os.fd T :: T.files } m img.length hm, close_file T _ hd]
          refine .refused (.noDir (.openFile hd hf hPf (.mmap (by simp) hm hPfm ?_)))
          refine runs_magic m img (by simp) ?_ _
          exact runs_munmap (T := { T with files := os.fd T :: T.files }) hm hPf (runs_close_file hf hP .nil)

theorem open_ok {os : Numbers} (hos : Fresh os) (h : Host) (path : Str) {T : Table} (hT : AtMost 1 1 T) :
    Opened (AtMost 2 2) os T (openCalls os h path T).1 (Fs.new h path) (openCalls os h path T).2.1 (openCalls os h path T).2.2 :=
  open_gen hos h path (bears_atMost hT)

theorem OpenFor.atMost {cur : Option Fs} {held : Option Held} {T : Table} (h : OpenFor cur held T) : AtMost 1 1 T := by
  cases h <;> exact ⟨by simp, by simp⟩

/-- what is in use after an attempt to open -/
def nowUsed (cur : Option Fs) : R Fs → Option Fs
  | .ok fs => some fs
  | .error _ => cur

theorem drop_dir {cur : Option Fs} {held : Option Held} {T : Table} (hT : OpenFor cur held T) (k : Kernel) {fd : Nat}
    (hd : fd ∉ T.dirs) :
    InOrder (AtMost 2 2) { T with dirs := fd :: T.dirs } (dropCalls held) (dropTable { T with dirs := fd :: T.dirs } held) ∧
    OpenFor (some (.mounted k)) (some (.dir fd)) (dropTable { T with dirs := fd :: T.dirs } held) := by
  cases hT with
  | none => exact ⟨.nil, .mounted⟩
  | @mounted k' fd' =>
    have hne : fd ≠ fd' := by simpa using hd
    have e : Table.close ⟨[fd, fd'], [], []⟩ fd' = ⟨[fd], [], []⟩ := by
      simp [Table.close, List.erase_cons, hne]
    simp only [dropCalls, dropTable, e]
    refine ⟨?_, .mounted⟩
    exact InOrder.closeDir (dirs := [fd]) (dirs' := []) (by simpa using hne.symm) (by simp) ⟨by simp, by simp⟩ .nil
  | @image img m =>
    simp only [dropCalls, dropTable]
    have e : Table.unmap ⟨[fd], [], [(m, img.length)]⟩ m = ⟨[fd], [], []⟩ := by simp [Table.unmap]
    rw [e]
    refine ⟨?_, .mounted⟩
    exact InOrder.munmap (maps := []) (maps' := []) (by simp) (by simp) ⟨by simp, by simp⟩ .nil

theorem drop_map {cur : Option Fs} {held : Option Held} {T : Table} (hT : OpenFor cur held T) (img : Bytes) {m : Nat}
    (hm : ∀ x ∈ T.maps, x.1 ≠ m) :
    InOrder (AtMost 2 2) { T with maps := (m, img.length) :: T.maps } (dropCalls held)
      (dropTable { T with maps := (m, img.length) :: T.maps } held) ∧
    OpenFor (some (.unmounted img)) (some (.map m)) (dropTable { T with maps := (m, img.length) :: T.maps } held) := by
  cases hT with
  | none => exact ⟨.nil, .image⟩
  | @mounted k' fd' =>
    simp only [dropCalls, dropTable]
    have e : Table.close ⟨[fd'], [], [(m, img.length)]⟩ fd' = ⟨[], [], [(m, img.length)]⟩ := by simp [Table.close]
    rw [e]
    refine ⟨?_, .image⟩
    exact InOrder.closeDir (dirs := []) (dirs' := []) (by simp) (by simp) ⟨by simp, by simp⟩ .nil
  | @image img' m' =>
    have hne : m' ≠ m := by simpa using hm
    simp only [dropCalls, dropTable]
    have e : Table.unmap ⟨[], [], [(m, img.length), (m', img'.length)]⟩ m' = ⟨[], [], [(m, img.length)]⟩ := by
      simp [Table.unmap, hne.symm]
    rw [e]
    refine ⟨?_, .image⟩
    exact InOrder.munmap (maps := [(m, img.length)]) (maps' := []) (by simpa using hne.symm) (by simp)
      ⟨by simp, by simp⟩ .nil

theorem switch_ok {os : Numbers} (hos : Fresh os) (h : Host) (path : Str) {cur : Option Fs} {H : Hands}
    (hT : OpenFor cur H.held H.table) :
    InOrder (AtMost 2 2) H.table (switchCalls os h path H).1 (switchCalls os h path H).2.table ∧
    OpenFor (nowUsed cur (Fs.new h path)) (switchCalls os h path H).2.held (switchCalls os h path H).2.table := by
  have ho := open_ok hos h path (OpenFor.atMost hT)
  obtain ⟨held, T⟩ := H
  unfold switchCalls
  dsimp only at ho hT ⊢
  generalize openCalls os h path T = r at ho
  obtain ⟨calls, T', new⟩ := r
  dsimp only at ho ⊢
  generalize Fs.new h path = f at ho
  cases ho with
  | refused hr => exact ⟨hr, hT⟩
  | mounted hd hf hr => exact ⟨hr.append (drop_dir hT (fun _ _ => .errno) hd).1, (drop_dir hT _ hd).2⟩
  | image hm hr => exact ⟨hr.append (drop_map hT _ hm).1, (drop_map hT _ hm).2⟩

theorem drop_ok {P : Table → Prop} (hP : P .empty) {cur : Option Fs} {H : Hands} (hT : OpenFor cur H.held H.table) :
    InOrder P H.table (dropCalls H.held) .empty ∧ dropTable H.table H.held = .empty := by
  obtain ⟨held, T⟩ := H
  dsimp only at hT ⊢
  cases hT with
  | none => exact ⟨.nil, rfl⟩
  | mounted =>
    exact ⟨InOrder.closeDir (dirs := []) (dirs' := []) (by simp) (by simp) hP .nil, by simp [dropTable, Table.close, Table.empty]⟩
  | image =>
    exact ⟨InOrder.munmap (maps := []) (maps' := []) (by simp) (by simp) hP .nil, by simp [dropTable, Table.unmap, Table.empty]⟩

theorem OpenFor.drift {drift : Fs → Fs} (hd : SameKind drift) {cur : Option Fs} {held : Option Held} {T : Table}
    (h : OpenFor cur held T) : OpenFor (cur.map drift) held T := by
  cases h with
  | none => exact .none
  | @mounted k fd =>
    obtain ⟨k', e⟩ := hd.1 k
    show OpenFor (some (drift (.mounted k))) _ _
    rw [e]; exact .mounted
  | @image img m =>
    obtain ⟨img', e, hl⟩ := hd.2 img
    show OpenFor (some (drift (.unmounted img))) _ _
    rw [e, ← hl]; exact .image

theorem runs_ioctls {P : Table → Prop} {T : Table} {fd : Nat} (h : fd ∈ T.dirs) : ∀ l : List SearchArgs,
    InOrder P T (l.map (.ioctl fd)) T
  | [] => .nil
  | _ :: l => .ioctl h (runs_ioctls h l)

theorem search_ok {P : Table → Prop} (fuel : Nat) {fs : Fs} (a : SearchArgs) {held : Option Held} {T : Table}
    (h : OpenFor (some fs) held T) : InOrder P T (searchSys fuel fs a held) T := by
  cases h with
  | mounted => exact runs_ioctls (by simp) _
  | image => exact .nil

theorem bytes_ok {P : Table → Prop} {fs : Fs} (i j : Nat) {held : Option Held} {T : Table}
    (h : OpenFor (some fs) held T) : InOrder P T (bytesSys fs i j held) T := by
  cases h with
  | mounted => exact .nil
  | @image img m =>
    simp only [bytesSys]
    split
    · rename_i hij; exact .load (by simp) hij.1 hij.2 .nil
    · exact .nil

/-- the calls of a computation that asks the filesystem in use -/
theorem sys_ok {os : Numbers} (hos : Fresh os) {α : Type} {Q : α → Option Fs → Prop} (fuel : Nat) {ω : Live}
    (hω : ∀ t, SameKind (ω.drift t)) {cur : Option Fs} {x : T α} (h : Uses Q cur x) : ∀ (t : Nat) (H : Hands),
    OpenFor cur H.held H.table →
    InOrder (AtMost 2 2) H.table (x.sys os fuel ω t H).1 (x.sys os fuel ω t H).2.table ∧
    ∃ cur', OpenFor cur' (x.sys os fuel ω t H).2.held (x.sys os fuel ω t H).2.table ∧ Q (x.live fuel ω t).result cur' := by
  induction h with
  | ret h => exact fun t H hT => ⟨.nil, _, hT, h⟩
  | warn w _ ih => exact fun t H hT => ih t H hT
  | @search fs a k _ ih =>
    intro t H hT
    obtain ⟨h1, c, h2, h3⟩ := ih ((ω.drift t fs).search fuel a) (t + 1) H hT
    exact ⟨(search_ok fuel a (OpenFor.drift (hω t) hT)).append h1, c, h2, h3⟩
  | @bytes fs i j k _ ih =>
    intro t H hT
    obtain ⟨h1, c, h2, h3⟩ := ih ((ω.drift t fs).getBytes i j) (t + 1) H hT
    exact ⟨(bytes_ok i j (OpenFor.drift (hω t) hT)).append h1, c, h2, h3⟩
  | @opens cur p k _ _ ih ih' =>
    intro t H hT
    have hs := switch_ok hos (ω.host t) p hT
    simp only [T.sys, T.live, after_result]
    generalize switchCalls os (ω.host t) p H = c at hs
    cases hr : Fs.new (ω.host t) p with
    | ok fs =>
      rw [hr] at hs
      obtain ⟨h1, c', h2, h3⟩ := ih fs (t + 1) c.2 hs.2
      exact ⟨hs.1.append h1, c', h2, h3⟩
    | error e =>
      rw [hr] at hs
      obtain ⟨h1, c', h2, h3⟩ := ih' e (t + 1) c.2 hs.2
      exact ⟨hs.1.append h1, c', h2, h3⟩

end Btrd
