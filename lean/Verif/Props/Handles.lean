/-
C96: descriptors and mappings.
-/
import Verif.Lemmas.Handles
import Verif.Props.InUse

namespace Btrd
open Spec

/-! ### one filesystem -/

/-- **C96** Opening a filesystem leaves open what `Fs.new` says: nothing if it fails, a directory if it is mounted, a
mapping of the whole image if it is one. -/
theorem C96_open {os : Numbers} (hos : Fresh os) (h : Host) (path : Str) :
    ∃ cur, OpenFor cur (openCalls os h path .empty).2.2 (openCalls os h path .empty).2.1 ∧
      InOrder (AtMost 2 2) .empty (openCalls os h path .empty).1 (openCalls os h path .empty).2.1 ∧
      ∀ fs, Fs.new h path = .ok fs ↔ cur = some fs := by
  have ho := open_ok hos h path (T := .empty) ⟨by simp [Table.empty], by simp [Table.empty]⟩
  generalize openCalls os h path .empty = r at ho
  obtain ⟨calls, T', new⟩ := r
  dsimp only at ho ⊢
  generalize Fs.new h path = f at ho
  cases ho with
  | refused hr => exact ⟨none, .none, hr, by simp⟩
  | @mounted k fd _ _ hr => exact ⟨some (.mounted k), .mounted, hr, by simp⟩
  | @image img m _ hr => exact ⟨some (.unmounted img), .image, hr, by simp⟩

theorem asked_enough (k k' : Kernel) (retry : Bool) : ∀ (fuel i : Nat) (a : SearchArgs) (ret : List Item) (c : Nat),
    (∀ n x, (askedLoop k retry fuel i a ret c)[n]? = some x → k' (i + n) x = k (i + n) x) →
    searchLoop k' retry fuel i a ret c = searchLoop k retry fuel i a ret c := by
  intro fuel
  induction fuel with
  | zero => intros; rfl
  | succ fuel ih =>
    intro i a ret c h
    rw [askedLoop] at h
    have h0 : k' i a = k i a := by simpa using h 0 a rfl
    rw [searchLoop, searchLoop, h0]
    cases hk : k i a with
    | errno => rfl
    | data nr buf =>
      rw [hk] at h
      dsimp only at h ⊢
      cases he : extractItems buf nr 0 ret c with
      | error e => rfl
      | ok p =>
        obtain ⟨ret', c'⟩ := p
        rw [he] at h
        dsimp only at h ⊢
        split
        · rfl
        · rename_i hr
          rw [if_neg hr] at h
          cases hl : largestKey ret' with
          | error e => rfl
          | ok m =>
            rw [hl] at h
            dsimp only at h ⊢
            split
            · rename_i ht
              rw [if_pos ht] at h
              split
              · rename_i hof
                rw [if_pos hof] at h
                refine ih _ _ _ _ fun n x hx => ?_
                have := h (n + 1) x (by simpa using hx)
                rw [show i + (n + 1) = i + 1 + n by omega] at this
                exact this
              · rfl
            · rfl

/-- **C96** The listed requests are all that a search asks: its result depends on the replies to them alone. -/
theorem C96_asked (k k' : Kernel) (fuel fd : Nat) (a : SearchArgs)
    (h : ∀ n x, (searchSys fuel (.mounted k) a (some (.dir fd)))[n]? = some (.ioctl fd x) → k' n x = k n x) :
    (Fs.mounted k').search fuel a = (Fs.mounted k).search fuel a := by
  have := asked_enough k k' (searchRetry a) fuel 0 a [] 0 fun n x hx => by
    rw [Nat.zero_add]
    refine h n x ?_
    simp only [searchSys, List.getElem?_map, hx, Option.map_some]
  unfold searchRetry at this
  simp only [Fs.search, this]

theorem asked_answered (k : Kernel) (retry : Bool) : ∀ (fuel i : Nat) (a : SearchArgs) (ret : List Item) (c : Nat),
    ∃ rest, askedLoop k retry fuel i a ret c = (searchCalls k retry fuel i a ret c).map (·.1) ++ rest ∧
      (rest = [] ∨ ∃ b, rest = [b] ∧ k (i + (searchCalls k retry fuel i a ret c).length) b = .errno ∧
        searchLoop k retry fuel i a ret c = R.err .ioctl) := by
  intro fuel
  induction fuel with
  | zero => intro i a ret c; exact ⟨[], rfl, .inl rfl⟩
  | succ fuel ih =>
    intro i a ret c
    rw [askedLoop, searchCalls, searchLoop]
    cases hk : k i a with
    | errno => exact ⟨[a], rfl, .inr ⟨a, rfl, by simpa using hk, rfl⟩⟩
    | data nr buf =>
      dsimp only
      cases extractItems buf nr 0 ret c with
      | error e => exact ⟨[], rfl, .inl rfl⟩
      | ok p =>
        obtain ⟨ret', c'⟩ := p
        dsimp only
        split
        · exact ⟨[], rfl, .inl rfl⟩
        · cases largestKey ret' with
          | error e => exact ⟨[], rfl, .inl rfl⟩
          | ok m =>
            dsimp only
            split
            · split
              · obtain ⟨rest, h1, h2⟩ := ih (i + 1)
                  { a with minObjectid := m.objectid, minType := m.ty, minOffset := m.offset + 1 } ret' c'
                refine ⟨rest, by rw [h1]; rfl, h2.imp_right ?_⟩
                rintro ⟨b, h3, h4, h5⟩
                refine ⟨b, h3, ?_, h5⟩
                rw [List.length_cons]
                rw [show ∀ n, i + (n + 1) = i + 1 + n by intro n; omega]
                exact h4
              · exact ⟨[], rfl, .inl rfl⟩
            · exact ⟨[], rfl, .inl rfl⟩

/-- **C96** And the search asks no fewer: the requests are those that were answered, of which C91's trace tells one by one,
and possibly one more, the last, which was refused and made the search fail. -/
theorem C96_answered (k : Kernel) (fuel fd : Nat) (a : SearchArgs) :
    ∃ rest, searchSys fuel (.mounted k) a (some (.dir fd)) =
        (searchCalls k (searchRetry a) fuel 0 a [] 0).map (fun c => .ioctl fd c.1) ++ rest ∧
      (rest = [] ∨ ∃ b, rest = [.ioctl fd b] ∧ k (searchCalls k (searchRetry a) fuel 0 a [] 0).length b = .errno ∧
        (Fs.mounted k).search fuel a = R.err .ioctl) := by
  obtain ⟨rest, h1, h2⟩ := asked_answered k (searchRetry a) fuel 0 a [] 0
  refine ⟨rest.map (.ioctl fd), by simp only [searchSys, h1, List.map_append, List.map_map]; rfl, ?_⟩
  rcases h2 with rfl | ⟨b, rfl, h3, h4⟩
  · exact .inl rfl
  · rw [Nat.zero_add] at h3
    refine .inr ⟨b, rfl, h3, ?_⟩
    unfold searchRetry at h4
    simp only [Fs.search, h4]

theorem asked_same (k : Kernel) (retry : Bool) : ∀ (fuel i : Nat) (a : SearchArgs) (ret : List Item) (c : Nat),
    ∀ b ∈ askedLoop k retry fuel i a ret c, b.treeId = a.treeId ∧ b.maxObjectid = a.maxObjectid ∧ b.maxType = a.maxType ∧
      b.maxOffset = a.maxOffset ∧ b.minTransid = a.minTransid ∧ b.maxTransid = a.maxTransid := by
  intro fuel
  induction fuel with
  | zero => intro i a ret c b hb; simp [askedLoop] at hb
  | succ fuel ih =>
    intro i a ret c b hb
    rw [askedLoop, List.mem_cons] at hb
    rcases hb with rfl | hb
    · simp
    · repeat' split at hb
      all_goals first
        | (simp at hb; done)
        | (have := ih _ _ _ _ b hb; exact this)

/-- **C96** All the requests of a search are about the same tree and up to the same key. -/
theorem C96_same_tree (k : Kernel) (fuel fd : Nat) (a b : SearchArgs) (fd' : Nat)
    (h : Sys.ioctl fd' b ∈ searchSys fuel (.mounted k) a (some (.dir fd))) :
    fd' = fd ∧ b.treeId = a.treeId ∧ b.maxObjectid = a.maxObjectid ∧ b.maxType = a.maxType ∧
      b.maxOffset = a.maxOffset ∧ b.minTransid = a.minTransid ∧ b.maxTransid = a.maxTransid := by
  simp only [searchSys, List.mem_map, Sys.ioctl.injEq] at h
  obtain ⟨x, hx, rfl, rfl⟩ := h
  exact ⟨rfl, asked_same _ _ _ _ _ _ _ _ hx⟩

/-- **C96** Changing to another filesystem: the calls that open the new one come first, all with the old one still open, and
only if it could be opened the old one is released, at the very end. -/
theorem C96_switch {os : Numbers} (hos : Fresh os) (h : Host) (path : Str) {cur : Option Fs} {H : Hands}
    (hT : OpenFor cur H.held H.table) :
    (∃ e, Fs.new h path = .error e ∧ (switchCalls os h path H).2 = H ∧
      InOrder (fun T => AtMost 2 2 T ∧ (∀ fd ∈ H.table.dirs, fd ∈ T.dirs) ∧ ∀ m ∈ H.table.maps, m ∈ T.maps)
        H.table (switchCalls os h path H).1 H.table) ∨
    ∃ fs calls T, Fs.new h path = .ok fs ∧ (switchCalls os h path H).1 = calls ++ dropCalls H.held ∧
      InOrder (fun T => AtMost 2 2 T ∧ (∀ fd ∈ H.table.dirs, fd ∈ T.dirs) ∧ ∀ m ∈ H.table.maps, m ∈ T.maps) H.table calls T ∧
      InOrder (AtMost 2 2) T (dropCalls H.held) (switchCalls os h path H).2.table ∧
      OpenFor (some fs) (switchCalls os h path H).2.held (switchCalls os h path H).2.table := by
  have hb := bears_atMost (OpenFor.atMost hT)
  have ho := open_gen (P := fun T => AtMost 2 2 T ∧ (∀ fd ∈ H.table.dirs, fd ∈ T.dirs) ∧ ∀ m ∈ H.table.maps, m ∈ T.maps)
    hos h path (T := H.table) ⟨⟨hb.now, by simp, by simp⟩, fun _ => ⟨hb.dir _, by simp; exact fun _ => .inr, by simp⟩,
      fun _ => ⟨hb.file _, by simp, by simp⟩, fun _ => ⟨hb.map _, by simp, fun _ => List.mem_cons_of_mem _⟩,
      fun _ _ => ⟨hb.both _ _, by simp, fun _ => List.mem_cons_of_mem _⟩⟩
  obtain ⟨held, T⟩ := H
  unfold switchCalls
  dsimp only at hT ho ⊢
  generalize openCalls os h path T = r at ho
  obtain ⟨calls, T', new⟩ := r
  dsimp only at ho ⊢
  generalize Fs.new h path = f at ho
  cases ho with
  | refused hr => exact .inl ⟨_, rfl, rfl, hr⟩
  | mounted hd hf hr => exact .inr ⟨_, calls, _, rfl, rfl, hr, drop_dir hT _ hd⟩
  | image hm hr => exact .inr ⟨_, calls, _, rfl, rfl, hr, drop_map hT _ hm⟩

/-! ### sessions -/

theorem start_ok {os : Numbers} (hos : Fresh os) (cfg : Cfg) (room : Option Nat) :
    InOrder (AtMost 2 2) .empty (startCalls os cfg.host).1 (startCalls os cfg.host).2.table ∧
    OpenFor (State.new cfg room).fs (startCalls os cfg.host).2.held (startCalls os cfg.host).2.table := by
  unfold startCalls State.new
  cases cfg.host.cwd with
  | none => exact ⟨.nil, .none⟩
  | some cwd =>
    have := switch_ok hos cfg.host cwd (cur := none) (H := ⟨none, .empty⟩) .none
    refine ⟨this.1, ?_⟩
    have h2 := this.2
    dsimp only
    generalize Fs.new cfg.host cwd = r at h2
    cases r <;> exact h2

theorem step_ok {os : Numbers} (hos : Fresh os) (cfg : Cfg) {ω : Live} (hω : ∀ t, SameKind (ω.drift t)) (p : Proc) (H : Hands)
    (hT : OpenFor p.rs.ev.fs H.held H.table) (ev : ReplEvent) :
    InOrder (AtMost 2 2) H.table (stepCalls os cfg ω p H ev).1 (stepCalls os cfg ω p H ev).2.table ∧
    OpenFor (procStepL cfg ω p ev).1.1.rs.ev.fs (stepCalls os cfg ω p H ev).2.held (stepCalls os cfg ω p H ev).2.table := by
  cases ev with
  | line s =>
    obtain ⟨h1, c, h2, h3⟩ := sys_ok hos cfg.fuel hω (uses_runtime cfg p.rs (fixupInput (stripComments s))) 0 H hT
    refine ⟨h1, ?_⟩
    show OpenFor (procLine p.err _).1.1.rs.ev.fs ((runtimeEvalT cfg p.rs (fixupInput (stripComments s))).sys os cfg.fuel ω 0 H).2.held _
    generalize (runtimeEvalT cfg p.rs (fixupInput (stripComments s))).live cfg.fuel ω 0 = l at h3 ⊢
    have e : (procLine p.err l).1.1.rs.ev.fs = l.result.1.ev.fs := by
      obtain ⟨t, log, rs, r⟩ := l
      cases r with
      | fail f => cases f <;> rfl
      | _ => rfl
    rw [e, h3]
    exact h2
  | interrupted => exact ⟨.nil, hT⟩
  | eof =>
    refine ⟨.nil, ?_⟩
    show OpenFor (p.println s!' "quit" .over).1.rs.ev.fs H.held H.table
    rw [proc_println_fs]
    exact hT
  | otherError =>
    refine ⟨.nil, ?_⟩
    show OpenFor (Proc.println ⟨p.rs, p.err ++ [.logged]⟩ s!' "quit" .running).1.rs.ev.fs H.held H.table
    rw [proc_println_fs]
    exact hT

/-- the world may change in any way, but a filesystem that is in use stays what it is and a mapping as long as it is -/
def Spec.LiveTick.SameKind (t : LiveTick) : Prop := Spec.SameKind t.drift ∧ ∀ n, Spec.SameKind (t.world.drift n)

theorem runCalls_ok {os : Numbers} (hos : Fresh os) (cfg : Cfg) : ∀ (ts : List LiveTick) (p : Proc) (H : Hands),
    (∀ t ∈ ts, Spec.LiveTick.SameKind t) → OpenFor p.rs.ev.fs H.held H.table →
    InOrder (AtMost 2 2) H.table (runCalls os cfg p H ts).1 (runCalls os cfg p H ts).2.table ∧
    OpenFor (procRunL cfg p ts).1.1.rs.ev.fs (runCalls os cfg p H ts).2.held (runCalls os cfg p H ts).2.table
  | [], p, H, _, hT => ⟨.nil, hT⟩
  | t :: ts, p, H, ht, hT => by
    have h1 := ht t (by simp)
    have hs := step_ok hos cfg h1.2 (p.meets t.drift) H (OpenFor.drift h1.1 hT) t.event
    rw [runCalls, procRunL]
    generalize procStepL cfg t.world (p.meets t.drift) t.event = r at hs
    generalize stepCalls os cfg t.world (p.meets t.drift) H t.event = c at hs
    obtain ⟨⟨p', x⟩, log⟩ := r
    cases x with
    | running =>
      have := runCalls_ok hos cfg ts p' c.2 (fun t h => ht t (by simp [h])) hs.2
      exact ⟨hs.1.append this.1, this.2⟩
    | _ => exact hs

theorem start_status (cfg : Cfg) (room : Option Nat) :
    (procStart cfg room).2 = .running ∨ (procStart cfg room).2 = .panicked := by
  unfold procStart
  split
  · exact .inl rfl
  · exact .inr rfl

/-- **C96** In every session, whatever is entered and whatever the world does, the system calls are in order: nothing is
used that is not open, nothing is closed twice, no read leaves its mapping, and there are never more than two descriptors
and two mappings. While it runs, exactly what is needed for the filesystem in use is open; when it has ended, nothing. -/
theorem C96_session {os : Numbers} (hos : Fresh os) (cfg : Cfg) (room : Option Nat) (editor saved : Bool)
    (ts : List LiveTick) (ht : ∀ t ∈ ts, Spec.LiveTick.SameKind t) :
    InOrder (AtMost 2 2) .empty (replCalls os cfg room editor ts).1 (replCalls os cfg room editor ts).2.table ∧
    ((replMainL cfg room editor saved ts).1.exit = .running ∨ (replMainL cfg room editor saved ts).1.exit = .busy →
      ∃ first cur, StartsWith cfg.host first ∧ InUseAll cfg.fuel first ts (replMainL cfg room editor saved ts).2 cur ∧
        OpenFor cur (replCalls os cfg room editor ts).2.held (replCalls os cfg room editor ts).2.table) ∧
    ((replMainL cfg room editor saved ts).1.exit ≠ .running → (replMainL cfg room editor saved ts).1.exit ≠ .busy →
      (replCalls os cfg room editor ts).2.table = .empty) := by
  have hstart := C95_start cfg room
  have h0 := start_ok hos cfg room
  unfold replCalls replMainL
  cases editor with
  | false => exact ⟨.nil, by simp, fun _ _ => rfl⟩
  | true =>
    simp only [if_true]
    have hfs := start_fs cfg room
    have hx := start_status cfg room
    generalize procStart cfg room = r at hfs hx
    obtain ⟨p, x⟩ := r
    have hfs : p.rs.ev.fs = (State.new cfg room).fs := hfs
    cases x with
    | running =>
      dsimp only
      generalize startCalls os cfg.host = c at h0
      rw [← hfs] at h0 hstart
      have h1 := runCalls_ok hos { cfg with interactive := true } ts p c.2 ht h0.2
      have h2 := run_inUse { cfg with interactive := true } ts p
      generalize procRunL { cfg with interactive := true } p ts = q at h1 h2
      generalize runCalls os { cfg with interactive := true } p c.2 ts = d at h1
      obtain ⟨⟨p', x⟩, log⟩ := q
      dsimp only at h1 h2 ⊢
      cases x with
      | running =>
        simp only [endCalls, procEnd, List.append_nil, ne_eq, not_true, false_implies, and_true]
        exact ⟨h0.1.append h1.1, fun _ => ⟨_, _, hstart, h2, h1.2⟩⟩
      | hung =>
        simp only [endCalls, procEnd, List.append_nil, ne_eq, not_true, false_implies, implies_true, and_true]
        exact ⟨h0.1.append h1.1, fun _ => ⟨_, _, hstart, h2, h1.2⟩⟩
      | panicked =>
        obtain ⟨h3, h4⟩ := drop_ok (P := AtMost 2 2) ⟨by simp [Table.empty], by simp [Table.empty]⟩ h1.2
        simp only [endCalls, procEnd, h4]
        exact ⟨(h0.1.append h1.1).append h3, by simp, by simp⟩
      | over =>
        obtain ⟨h3, h4⟩ := drop_ok (P := AtMost 2 2) ⟨by simp [Table.empty], by simp [Table.empty]⟩ h1.2
        simp only [endCalls, h4]
        refine ⟨(h0.1.append h1.1).append h3, ?_, by simp⟩
        simp only [procEnd]
        cases saved <;> simp
    | over => simp at hx
    | panicked => exact ⟨.nil, by simp [procEnd], fun _ _ => rfl⟩
    | hung => simp at hx

/-- **C96** So it is for a script. -/
theorem C96_script {os : Numbers} (hos : Fresh os) (cfg : Cfg) (room : Option Nat) {ω : Live}
    (hω : ∀ t, SameKind (ω.drift t)) (file : Option Bytes) :
    InOrder (AtMost 2 2) .empty (scriptCalls os cfg room ω file).1 (scriptCalls os cfg room ω file).2.table ∧
    ((scriptMainL cfg room ω file).1.exit ≠ .busy → (scriptCalls os cfg room ω file).2.table = .empty) := by
  have h0 := start_ok hos { cfg with interactive := false } room
  unfold scriptCalls scriptMainL
  cases file with
  | none => exact ⟨.nil, fun _ => rfl⟩
  | some b =>
    dsimp only
    cases decodeUtf8 b with
    | none => exact ⟨.nil, fun _ => rfl⟩
    | some s =>
      dsimp only at h0 ⊢
      generalize startCalls os cfg.host = c at h0
      obtain ⟨h1, cur, h2, h3⟩ := sys_ok hos cfg.fuel hω
        (uses_runtime { cfg with interactive := false } (RState.new { cfg with interactive := false } room) (stripComments s))
        0 c.2 h0.2
      generalize (runtimeEvalT { cfg with interactive := false } (RState.new { cfg with interactive := false } room)
        (stripComments s)).sys os cfg.fuel ω 0 c.2 = d at h1 h2
      generalize ((runtimeEvalT { cfg with interactive := false } (RState.new { cfg with interactive := false } room)
        (stripComments s)).live cfg.fuel ω 0) = l
      obtain ⟨clock, log, rs, r⟩ := l
      dsimp only
      obtain ⟨h4, h5⟩ := drop_ok (P := AtMost 2 2) ⟨by simp [Table.empty], by simp [Table.empty]⟩ h2
      cases r with
      | ok => simp only [endCalls, h5]; exact ⟨(h0.1.append h1).append h4, by simp⟩
      | quit => simp only [endCalls, h5]; exact ⟨(h0.1.append h1).append h4, by simp⟩
      | fail f =>
        cases f with
        | diverge =>
          simp only [endCalls, List.append_nil, scriptExit, ne_eq, not_true, false_implies, and_true]
          exact h0.1.append h1
        | panic => simp only [endCalls, h5]; exact ⟨(h0.1.append h1).append h4, by simp⟩
        | err e => simp only [endCalls, h5]; exact ⟨(h0.1.append h1).append h4, by simp⟩

/-! ### what being in order means -/

/-- **C96** At every point of such a sequence the calls so far are in order, and the bound holds. -/
theorem C96_prefix {P : Table → Prop} {l l' : List Sys} : ∀ {T T' : Table}, P T → InOrder P T (l ++ l') T' →
    ∃ T₁, P T₁ ∧ InOrder P T l T₁ ∧ InOrder P T₁ l' T' := by
  induction l with
  | nil => exact fun hP h => ⟨_, hP, .nil, h⟩
  | cons s l ih =>
    intro T T' hP h
    cases h with
    | openDir a b c h => obtain ⟨T₁, h0, h1, h2⟩ := ih c h; exact ⟨T₁, h0, .openDir a b c h1, h2⟩
    | noDir h => obtain ⟨T₁, h0, h1, h2⟩ := ih hP h; exact ⟨T₁, h0, .noDir h1, h2⟩
    | openFile a b c h => obtain ⟨T₁, h0, h1, h2⟩ := ih c h; exact ⟨T₁, h0, .openFile a b c h1, h2⟩
    | noFile h => obtain ⟨T₁, h0, h1, h2⟩ := ih hP h; exact ⟨T₁, h0, .noFile h1, h2⟩
    | fstatfs a h => obtain ⟨T₁, h0, h1, h2⟩ := ih hP h; exact ⟨T₁, h0, .fstatfs a h1, h2⟩
    | mmap a b c h => obtain ⟨T₁, h0, h1, h2⟩ := ih c h; exact ⟨T₁, h0, .mmap a b c h1, h2⟩
    | noMap a h => obtain ⟨T₁, h0, h1, h2⟩ := ih hP h; exact ⟨T₁, h0, .noMap a h1, h2⟩
    | ioctl a h => obtain ⟨T₁, h0, h1, h2⟩ := ih hP h; exact ⟨T₁, h0, .ioctl a h1, h2⟩
    | load a b c h => obtain ⟨T₁, h0, h1, h2⟩ := ih hP h; exact ⟨T₁, h0, .load a b c h1, h2⟩
    | closeDir a b c h => obtain ⟨T₁, h0, h1, h2⟩ := ih c h; exact ⟨T₁, h0, .closeDir a b c h1, h2⟩
    | closeFile a b c h => obtain ⟨T₁, h0, h1, h2⟩ := ih c h; exact ⟨T₁, h0, .closeFile a b c h1, h2⟩
    | munmap a b c h => obtain ⟨T₁, h0, h1, h2⟩ := ih c h; exact ⟨T₁, h0, .munmap a b c h1, h2⟩

theorem pinned_from {P : Table → Prop} {T T' : Table} {l : List Sys} {fd : Nat} (h : InOrder P T l T') (hfd : fd ∈ T'.dirs)
    (hf : fd ∈ T.dirs → fd ∉ T.files) : (fd ∈ T.dirs ∧ Sys.close fd ∉ l) ∨
    ∃ path pre post, l = pre ++ .openDir path (some fd) :: post ∧ Sys.close fd ∉ post := by
  have cons : ∀ {s : Sys} {l : List Sys}, (∃ path pre post, l = pre ++ Sys.openDir path (some fd) :: post ∧ Sys.close fd ∉ post) →
      ∃ path pre post, s :: l = pre ++ Sys.openDir path (some fd) :: post ∧ Sys.close fd ∉ post := by
    rintro s l ⟨path, pre, post, rfl, h⟩
    exact ⟨path, s :: pre, post, rfl, h⟩
  induction h with
  | nil => exact .inl ⟨hfd, by simp⟩
  | @openDir T path fd' l T' a b c h ih =>
    rcases ih hfd (fun h => by
      simp only [List.mem_cons] at h
      rcases h with rfl | h
      · exact b
      · exact hf h) with ⟨h1, h2⟩ | h1
    · simp only [List.mem_cons] at h1
      rcases h1 with rfl | h1
      · exact .inr ⟨path, [], l, rfl, h2⟩
      · exact .inl ⟨h1, by simpa using h2⟩
    · exact .inr (cons h1)
  | noDir h ih => exact (ih hfd hf).imp (fun h => ⟨h.1, by simpa using h.2⟩) cons
  | @openFile T path fd' l T' a b c h ih =>
    refine (ih hfd fun hd => ?_).imp (fun h => ⟨h.1, by simpa using h.2⟩) cons
    simp only [List.mem_cons, not_or]
    exact ⟨fun e => a (e ▸ hd), hf hd⟩
  | noFile h ih => exact (ih hfd hf).imp (fun h => ⟨h.1, by simpa using h.2⟩) cons
  | fstatfs a h ih => exact (ih hfd hf).imp (fun h => ⟨h.1, by simpa using h.2⟩) cons
  | mmap a b c h ih => exact (ih hfd hf).imp (fun h => ⟨h.1, by simpa using h.2⟩) cons
  | noMap a h ih => exact (ih hfd hf).imp (fun h => ⟨h.1, by simpa using h.2⟩) cons
  | ioctl a h ih => exact (ih hfd hf).imp (fun h => ⟨h.1, by simpa using h.2⟩) cons
  | load a b c h ih => exact (ih hfd hf).imp (fun h => ⟨h.1, by simpa using h.2⟩) cons
  | @closeDir dirs dirs' files maps fd' l T' a b c h ih =>
    have mem : fd ∈ dirs ++ dirs' → fd ∈ dirs ++ fd' :: dirs' := by
      simp only [List.mem_append, List.mem_cons]; exact fun h => h.imp_right .inr
    rcases ih hfd (fun h => hf (mem h)) with ⟨h1, h2⟩ | h1
    · refine .inl ⟨mem h1, ?_⟩
      simp only [List.mem_cons, Sys.close.injEq, not_or]
      refine ⟨fun e => ?_, h2⟩
      subst e
      exact (List.mem_append.1 h1).elim a b
    · exact .inr (cons h1)
  | @closeFile dirs files files' maps fd' l T' a b c h ih =>
    have mem : fd ∈ files ++ files' → fd ∈ files ++ fd' :: files' := by
      simp only [List.mem_append, List.mem_cons]; exact fun h => h.imp_right .inr
    rcases ih hfd (fun h h' => hf h (mem h')) with ⟨h1, h2⟩ | h1
    · refine .inl ⟨h1, ?_⟩
      simp only [List.mem_cons, Sys.close.injEq, not_or]
      refine ⟨fun e => ?_, h2⟩
      subst e
      exact hf h1 (by simp)
    · exact .inr (cons h1)
  | munmap a b c h ih => exact (ih hfd hf).imp (fun h => ⟨h.1, by simpa using h.2⟩) cons

/-- **C96** While a mounted filesystem is in use it cannot be unmounted: its directory was opened and has not been closed
since. -/
theorem C96_pinned {P : Table → Prop} {l : List Sys} {T : Table} {k : Kernel} {held : Option Held}
    (h : InOrder P .empty l T) (ho : OpenFor (some (.mounted k)) held T) :
    ∃ path fd pre post, l = pre ++ .openDir path (some fd) :: post ∧ Sys.close fd ∉ post := by
  cases ho with
  | @mounted k fd =>
    rcases pinned_from (fd := fd) h (by simp) (by simp [Table.empty]) with ⟨h1, -⟩ | ⟨path, pre, post, h1⟩
    · simp [Table.empty] at h1
    · exact ⟨path, fd, pre, post, h1⟩

/-! ### witnesses -/

/-- numbers above all that are in use -/
def above : Numbers where
  fd T := (T.dirs ++ T.files).sum + 1
  map T := (T.maps.map (·.1)).sum + 1

theorem le_sum_of_mem {n : Nat} : ∀ {l : List Nat}, n ∈ l → n ≤ l.sum
  | m :: l, h => by
    rw [List.sum_cons]
    rcases List.mem_cons.1 h with rfl | h
    · omega
    · have := le_sum_of_mem h; omega

/-- there are such numbers -/
theorem above_fresh : Fresh above where
  dirs T h := by
    have := le_sum_of_mem (l := T.dirs ++ T.files) (List.mem_append_left _ h)
    simp only [above] at this
    omega
  files T h := by
    have := le_sum_of_mem (l := T.dirs ++ T.files) (List.mem_append_right _ h)
    simp only [above] at this
    omega
  maps T x h e := by
    have := le_sum_of_mem (l := T.maps.map (·.1)) (List.mem_map_of_mem h)
    simp only [above] at e
    omega

/-- a system call without its arguments -/
def Sys.deed : Sys → Str × Option Nat
  | .openDir p fd => (s!' "opendir " ++ p, fd)
  | .openFile p fd => (s!' "openfile " ++ p, fd)
  | .fstatfs fd => (s!' "fstatfs", some fd)
  | .mmap fd _ => (s!' "mmap", some fd)
  | .ioctl fd _ => (s!' "search", some fd)
  | .load m _ _ => (s!' "load", some m)
  | .close fd => (s!' "close", some fd)
  | .munmap m => (s!' "munmap", some m)

/-- the calls of the script of C95: the directory of the working directory is closed when `/e` has been opened, and that
one at the end -/
example : ((scriptCalls above moving none (.steady moving.host) (some (encoded movingScript))).1.map Sys.deed) =
    [(s!' "opendir /m", some 1), (s!' "fstatfs", some 1), (s!' "search", some 1),
     (s!' "opendir /e", some 2), (s!' "fstatfs", some 2), (s!' "close", some 1), (s!' "search", some 2),
     (s!' "opendir /x", none), (s!' "openfile /x", none), (s!' "close", some 2)] := by
  decide +kernel

/-- a file that is no image: it is mapped, found wanting, unmapped and closed -/
example : (openCalls above ⟨fun _ => none, fun _ => some (some [1, 2, 3]), none⟩ s!' "f" .empty).1 =
    [.openDir s!' "f" none, .openFile s!' "f" (some 1), .mmap 1 (some (1, 3)), .munmap 1, .close 1] := by
  decide +kernel

/-- worlds that do not change keep everything as it is -/
example : ∀ t, SameKind ((Live.steady moving.host).drift t) := fun _ => ⟨fun k => ⟨k, rfl⟩, fun b => ⟨b, rfl, rfl⟩⟩

end Btrd
