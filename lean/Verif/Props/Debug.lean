/-
C91: `--debug` adds an exact trace of entries and system calls to standard error, and changes nothing else.
-/
import Verif.Spec.Debug
import Verif.Props.Ioctl
import Verif.Lemmas.Complaints

namespace Btrd
open Spec

/-! ### one search -/

theorem searchRetry_eq (a : SearchArgs) : searchRetry a = (decide (a.maxObjectid ≠ u64Max) || decide (a.maxType ≠ u8Max) ||
    decide (a.maxOffset ≠ u64Max) || decide (a.maxTransid ≠ u64Max)) := rfl

theorem searchLoopD_fst (M : Machine) (retry : Bool) : ∀ (fuel i : Nat) (a : SearchArgs) (ret : List Item) (c : Nat),
    (searchLoopD M retry fuel i a ret c).1 = searchLoop (kernelOf M) retry fuel i a ret c := by
  intro fuel
  induction fuel with
  | zero => intros; rfl
  | succ fuel ih =>
    intro i a ret c
    rw [searchLoopD, searchLoop]
    simp only [kernelOf]
    cases M i searchRequest (argsMem a) with
    | errno => rfl
    | done m =>
      simp only
      cases extractItems (fun j => m (bufOffset + j)) (getKey s!' "nr_items" m) 0 ret c with
      | error e => rfl
      | ok r =>
        obtain ⟨ret', c'⟩ := r
        simp only
        split
        · rfl
        · cases largestKey ret' with
          | error e => rfl
          | ok h =>
            simp only
            split
            · split
              · exact ih _ _ _ _
              · rfl
            · rfl

/-- **C91**: with its messages, a search returns what it returns without them. -/
theorem C91_search_same (M : Machine) (fuel : Nat) (a : SearchArgs) :
    (searchD M fuel a).1 = Fs.search fuel (.mounted (kernelOf M)) a := by
  simp only [searchD, Fs.search, searchLoopD_fst, searchRetry]
  cases searchLoop (kernelOf M) _ fuel 0 a [] 0 with
  | error e => rfl
  | ok r => rfl

theorem keyInMemory_after {m m' : Mem} {a : SearchArgs} (h : AtOffsets m a)
    (hk : ∀ j < 104, j < 64 ∨ 68 ≤ j → m' j = m j) : keyInMemory m' = keyAfter a (getKey s!' "nr_items" m') := by
  have hl : ∀ off n, (off + n ≤ 64 ∨ 68 ≤ off ∧ off + n ≤ 104) → leAt m' off n = leAt m off n := by
    intro off n ho
    apply leAt_shift
    intro i hi
    exact hk (off + i) (by omega) (by omega)
  have e1 : fieldPlace s!' "tree_id" = (0, 8) := by decide
  have e2 : fieldPlace s!' "min_objectid" = (8, 8) := by decide
  have e3 : fieldPlace s!' "max_objectid" = (16, 8) := by decide
  have e4 : fieldPlace s!' "min_offset" = (24, 8) := by decide
  have e5 : fieldPlace s!' "max_offset" = (32, 8) := by decide
  have e6 : fieldPlace s!' "min_transid" = (40, 8) := by decide
  have e7 : fieldPlace s!' "max_transid" = (48, 8) := by decide
  have e8 : fieldPlace s!' "min_type" = (56, 4) := by decide
  have e9 : fieldPlace s!' "max_type" = (60, 4) := by decide
  have e11 : fieldPlace s!' "_unused" = (68, 4) := by decide
  have e12 : fieldPlace s!' "_unused1" = (72, 8) := by decide
  have e13 : fieldPlace s!' "_unused2" = (80, 8) := by decide
  have e14 : fieldPlace s!' "_unused3" = (88, 8) := by decide
  have e15 : fieldPlace s!' "_unused4" = (96, 8) := by decide
  have g : ∀ name, getKey name m' = leAt m' (fieldPlace name).1 (fieldPlace name).2 := fun _ => rfl
  simp only [keyInMemory, keyAfter, searchKeyFields, List.map_cons, List.map_nil]
  rw [g s!' "tree_id", e1, hl 0 8 (by omega), h.tree_id, g s!' "min_objectid", e2, hl 8 8 (by omega), h.min_objectid,
    g s!' "max_objectid", e3, hl 16 8 (by omega), h.max_objectid, g s!' "min_offset", e4, hl 24 8 (by omega), h.min_offset,
    g s!' "max_offset", e5, hl 32 8 (by omega), h.max_offset, g s!' "min_transid", e6, hl 40 8 (by omega), h.min_transid,
    g s!' "max_transid", e7, hl 48 8 (by omega), h.max_transid, g s!' "min_type", e8, hl 56 4 (by omega), h.min_type,
    g s!' "max_type", e9, hl 60 4 (by omega), h.max_type, g s!' "_unused", e11, hl 68 4 (by omega), h.unused,
    g s!' "_unused1", e12, hl 72 8 (by omega), h.unused1, g s!' "_unused2", e13, hl 80 8 (by omega), h.unused2,
    g s!' "_unused3", e14, hl 88 8 (by omega), h.unused3, g s!' "_unused4", e15, hl 96 8 (by omega), h.unused4]

/-- the next request of a search is in range -/
theorem next_range {a : SearchArgs} {ret : List Item} {h : Header} (ha : InRange a) (hn : Narrow64 ret)
    (hl : largestKey ret = .ok h) (hty : h.ty < 256) (ho : h.offset + 1 < 2 ^ 64) :
    InRange { a with minObjectid := h.objectid, minType := h.ty, minOffset := h.offset + 1 } := by
  obtain ⟨it, hit, rfl⟩ := largestKey_mem hl
  have := hn it hit
  simp only [InRange, List.mem_cons, List.not_mem_nil, or_false, forall_eq_or_imp, forall_eq] at ha ⊢
  exact ⟨⟨ha.1.1, this, ha.1.2.2.1, ho, ha.1.2.2.2.2⟩, hty, ha.2.2⟩

theorem searchLoopD_snd {M : Machine} (hM : LeavesKey M) (retry : Bool) : ∀ (fuel i : Nat) (a : SearchArgs) (ret : List Item) (c : Nat),
    InRange a → Narrow64 ret →
    (searchLoopD M retry fuel i a ret c).2 = (searchCalls (kernelOf M) retry fuel i a ret c).flatMap callLines := by
  intro fuel
  induction fuel with
  | zero => intros; rfl
  | succ fuel ih =>
    intro i a ret c ha hr
    rw [searchLoopD, searchCalls]
    simp only [kernelOf]
    cases hm : M i searchRequest (argsMem a) with
    | errno => rfl
    | done m =>
      have hk := keyInMemory_after (C90_request_memory a ha) (hM i _ m (by rw [← C90_request_number]; exact hm))
      simp only [List.flatMap_cons, callLines, hk]
      cases hx : extractItems (fun j => m (bufOffset + j)) (getKey s!' "nr_items" m) 0 ret c with
      | error e => rfl
      | ok r =>
        obtain ⟨ret', c'⟩ := r
        have hn := extractItems_narrow _ _ 0 ret c _ hx hr
        simp only at hn ⊢
        split
        · rfl
        · cases hl : largestKey ret' with
          | error e => rfl
          | ok h =>
            simp only
            split
            · rename_i hty
              split
              · rename_i ho
                simp only [List.cons_append, List.nil_append, List.cons.injEq, true_and]
                exact ih _ _ _ _ (next_range ha hn hl hty ho) hn
              · rfl
            · rfl

/-- **C91**: on a machine that leaves the key alone, the messages are those of the requests made and the numbers of items
reported. -/
theorem C91_search_messages (M : Machine) (hM : LeavesKey M) (fuel : Nat) (a : SearchArgs) (ha : InRange a) :
    (searchD M fuel a).2 = Fs.searchLog fuel (.mounted (kernelOf M)) a := by
  simp only [searchD, Fs.searchLog]
  exact searchLoopD_snd hM _ fuel 0 a [] 0 ha (by intro it h; cases h)

/-! ### what the calls add up to -/

theorem extractItems_count (buf : Mem) : ∀ (n off : Nat) (ret : List Item) (c : Nat) (r : List Item × Nat),
    extractItems buf n off ret c = .ok r → r.1.length + r.2 = ret.length + c + n := by
  intro n
  induction n with
  | zero => intro off ret c r h; simp only [extractItems, Except.ok.injEq] at h; subst h; rfl
  | succ n ih =>
    intro off ret c r h
    rw [extractItems] at h
    split at h
    · simp only at h
      split at h
      · split at h
        · have := ih _ _ _ _ h; omega
        · have := ih _ _ _ _ h; simp only [List.length_append, List.length_singleton] at this; omega
      · cases h
    · cases h

/-- a loop that succeeds: the numbers add up, and only the last is 0 (or the only one, without `retry`) -/
theorem searchCalls_ok (k : Kernel) (retry : Bool) : ∀ (fuel i : Nat) (a : SearchArgs) (ret : List Item) (c : Nat)
    (r : List Item × Nat), searchLoop k retry fuel i a ret c = .ok r →
    ∃ init last, searchCalls k retry fuel i a ret c = init ++ [last] ∧
      r.1.length + r.2 = ret.length + c + ((init ++ [last]).map (·.2)).sum ∧
      (retry = true → last.2 = 0) ∧ (retry = false → init = []) ∧ ∀ x ∈ init, 0 < x.2 := by
  intro fuel
  induction fuel with
  | zero => intro i a ret c r h; cases h
  | succ fuel ih =>
    intro i a ret c r h
    rw [searchLoop] at h
    rw [searchCalls]
    cases hk : k i a with
    | errno => rw [hk] at h; cases h
    | data nr buf =>
      rw [hk] at h
      simp only at h ⊢
      cases hx : extractItems buf nr 0 ret c with
      | error e => rw [hx] at h; cases h
      | ok r' =>
        have hc := extractItems_count buf nr 0 ret c r' hx
        obtain ⟨ret', c'⟩ := r'
        rw [hx] at h
        simp only at h hc ⊢
        split at h
        · rename_i hstop
          simp only [Except.ok.injEq] at h
          subst h
          rw [if_pos hstop]
          refine ⟨[], (a, nr), rfl, by simpa using hc, ?_, fun _ => rfl, by simp⟩
          intro hr
          simpa [hr] using hstop
        · rename_i hgo
          rw [if_neg hgo]
          simp only [Bool.or_eq_true, Bool.not_eq_true', beq_iff_eq, not_or, Bool.not_eq_false] at hgo
          cases hl : largestKey ret' with
          | error e => rw [hl] at h; cases h
          | ok hd =>
            rw [hl] at h
            simp only at h ⊢
            split at h
            · rename_i hty
              rw [if_pos hty]
              split at h
              · rename_i ho
                rw [if_pos ho]
                obtain ⟨init, last, h1, h2, h3, h4, h5⟩ := ih _ _ _ _ _ h
                refine ⟨(a, nr) :: init, last, by rw [h1]; rfl, ?_, h3, ?_, ?_⟩
                · simp only [List.cons_append, List.map_cons, List.sum_cons]; omega
                · intro hr; rw [hgo.1] at hr; cases hr
                · intro x hx
                  rcases List.mem_cons.1 hx with rfl | hx
                  · exact Nat.pos_of_ne_zero hgo.2
                  · exact h5 x hx
              · cases h
            · cases h

/-- every request of a search differs from the first at most in where it begins -/
theorem searchCalls_same (k : Kernel) (retry : Bool) : ∀ (fuel i : Nat) (a : SearchArgs) (ret : List Item) (c : Nat),
    ∀ x ∈ searchCalls k retry fuel i a ret c, SameButStart a x.1 := by
  intro fuel
  induction fuel with
  | zero => intro i a ret c x hx; simp [searchCalls] at hx
  | succ fuel ih =>
    intro i a ret c x hx
    rw [searchCalls] at hx
    cases hk : k i a with
    | errno => rw [hk] at hx; simp at hx
    | data nr buf =>
      rw [hk] at hx
      simp only at hx
      rcases List.mem_cons.1 hx with rfl | hx
      · rfl
      · cases hxx : extractItems buf nr 0 ret c with
        | error e => rw [hxx] at hx; simp at hx
        | ok r' =>
          rw [hxx] at hx
          obtain ⟨ret', c'⟩ := r'
          simp only at hx
          split at hx
          · simp at hx
          · cases hl : largestKey ret' with
            | error e => rw [hl] at hx; simp at hx
            | ok hd =>
              rw [hl] at hx
              simp only at hx
              split at hx
              · split at hx
                · have := ih _ _ _ _ x hx
                  unfold SameButStart at this ⊢
                  rw [this]
                · simp at hx
              · simp at hx

/-- **C91**: the messages of a search that succeeds: the first is about the request itself, all are about requests that
differ from it only in where they begin, the numbers of items reported add up to the number of items returned; a request
with an upper bound ends with a call that reports none, and no call before it does; one without an upper bound takes
one call. -/
theorem C91_successful_search (k : Kernel) (fuel : Nat) (a : SearchArgs) (items : List Item)
    (h : Fs.search fuel (.mounted k) a = .ok items) :
    ∃ calls : List (SearchArgs × Nat), Fs.searchLog fuel (.mounted k) a = calls.flatMap callLines ∧
      calls.head?.map (·.1) = some a ∧ (∀ x ∈ calls, SameButStart a x.1) ∧ (calls.map (·.2)).sum = items.length ∧
      (Bounded a → ∃ init last, calls = init ++ [last] ∧ last.2 = 0 ∧ ∀ x ∈ init, 0 < x.2) ∧
      (¬ Bounded a → calls.length = 1) := by
  have hretry : searchRetry a = true ↔ Bounded a := retry_iff a
  refine ⟨searchCalls k (searchRetry a) fuel 0 a [] 0, rfl, ?_, searchCalls_same _ _ _ _ _ _ _, ?_⟩
  · match fuel with
    | 0 => simp [Fs.search, searchLoop] at h
    | fuel + 1 =>
      simp only [Fs.search] at h
      rw [searchCalls]
      rw [searchLoop] at h
      cases hk : k 0 a with
      | errno => rw [hk] at h; cases h
      | data nr buf => rfl
  · simp only [Fs.search, ← searchRetry_eq] at h
    cases hl : searchLoop k (searchRetry a) fuel 0 a [] 0 with
    | error e => rw [hl] at h; cases h
    | ok r =>
      rw [hl] at h
      obtain ⟨ret, c⟩ := r
      simp only at h
      split at h
      · cases h
      · rename_i hc
        simp only [Except.ok.injEq] at h
        subst h
        obtain ⟨init, last, h1, h2, h3, h4, h5⟩ := searchCalls_ok k _ fuel 0 a [] 0 _ hl
        simp only [List.length_nil, Nat.zero_add] at h2
        rw [h1]
        refine ⟨by simp only [Classical.not_not.1 hc] at h2; omega, fun hb => ⟨init, last, rfl, h3 (hretry.2 hb), h5⟩, ?_⟩
        intro hb
        have : searchRetry a = false := by
          cases hs : searchRetry a with
          | false => rfl
          | true => exact absurd (hretry.1 hs) hb
        rw [h4 this]
        rfl

/-- on an honest kernel, each request begins behind the one before -/
theorem searchCalls_honest {k : Kernel} {trees : Trees} (hk : Honours k trees) (hw : WellOrdered trees) (retry : Bool) :
    ∀ (fuel i : Nat) (a : SearchArgs) (p : List Item) (c : Nat),
      (p ++ matching trees a).Pairwise (fun a b => KeyLt (keyOf a) (keyOf b)) →
      (searchCalls k retry fuel i a p c).Pairwise (fun x y => KeyLt (startOf x.1) (startOf y.1)) ∧
      (∀ x ∈ searchCalls k retry fuel i a p c, ¬ KeyLt (startOf x.1) (startOf a)) ∧
      (searchCalls k retry fuel i a p c).length ≤ (matching trees a).length + 1 := by
  intro fuel
  induction fuel with
  | zero => intro i a p c _; simp [searchCalls]
  | succ fuel ih =>
    intro i a p c hs
    obtain ⟨buf, q, rest, hr, hh, hq, he⟩ := hk i a
    have hd : ((p ++ q).map (·.1)).Nodup := by
      apply sorted_headers_nodup
      rw [hq, ← List.append_assoc] at hs
      exact (List.pairwise_append.1 hs).1
    have hx := extractItems_holds buf q 0 p c hh
    rw [merge_distinct q p c hd] at hx
    have hone : ∀ l : List (SearchArgs × Nat), l = [(a, q.length)] →
        l.Pairwise (fun x y => KeyLt (startOf x.1) (startOf y.1)) ∧ (∀ x ∈ l, ¬ KeyLt (startOf x.1) (startOf a)) ∧
        l.length ≤ (matching trees a).length + 1 := by
      rintro l rfl
      refine ⟨by simp, ?_, by simp⟩
      intro x hx
      simp only [List.mem_singleton] at hx
      subst hx
      exact Spec.KeyLt.irrefl _
    rw [searchCalls, hr]
    simp only [hx]
    split
    · exact hone _ rfl
    · rename_i hgo
      rcases List.eq_nil_or_concat q with rfl | ⟨q', x, rfl⟩
      · simp at hgo
      · rw [List.concat_eq_append] at *
        have hlk : largestKey (p ++ (q' ++ [x])) = .ok x.1 := by
          rw [← List.append_assoc]
          apply largestKey_sorted
          rw [hq, ← List.append_assoc, ← List.append_assoc] at hs
          exact (List.pairwise_append.1 hs).1
        rw [hlk]
        simp only
        split
        · split
          · have hnx := matching_next hw a q' rest x hq
            have hask : Asked a x := by
              have : x ∈ matching trees a := by rw [hq]; simp
              simpa [matching] using (List.mem_filter.1 this).2
            obtain ⟨h1, h2, h3⟩ := ih (i + 1) { a with minObjectid := x.1.objectid, minType := x.1.ty, minOffset := x.1.offset + 1 }
              (p ++ (q' ++ [x])) c (by rw [hnx]; rw [hq] at hs; simpa using hs)
            rw [hnx] at h3
            have hlt : KeyLt (startOf a) (startOf { a with minObjectid := x.1.objectid, minType := x.1.ty, minOffset := x.1.offset + 1 }) := by
              have := hask.1
              simp only [startOf, keyOf, KeyLt] at this ⊢
              omega
            have hlt' : ∀ y ∈ searchCalls k retry fuel (i + 1)
                { a with minObjectid := x.1.objectid, minType := x.1.ty, minOffset := x.1.offset + 1 } (p ++ (q' ++ [x])) c,
                KeyLt (startOf a) (startOf y.1) := by
              intro y hy
              have := h2 y hy
              simp only [startOf, KeyLt] at this hlt ⊢
              omega
            refine ⟨List.pairwise_cons.2 ⟨hlt', h1⟩, ?_, ?_⟩
            · intro y hy
              rcases List.mem_cons.1 hy with rfl | hy
              · exact Spec.KeyLt.irrefl _
              · exact (hlt' y hy).asymm
            · have := congrArg List.length hq
              simp only [List.length_append, List.length_singleton] at this
              simp only [List.length_cons]
              omega
          · exact hone _ rfl
        · exact hone _ rfl

/-- **C91**: on a kernel that keeps its promise, the requests shown begin at ever greater keys, and there is at most one
more of them than items asked for, whether or not the search succeeds. -/
theorem C91_honest_search (k : Kernel) (trees : Trees) (hw : WellOrdered trees) (hk : Honours k trees) (fuel : Nat) (a : SearchArgs) :
    ∃ calls : List (SearchArgs × Nat), Fs.searchLog fuel (.mounted k) a = calls.flatMap callLines ∧
      calls.Pairwise (fun x y => KeyLt (startOf x.1) (startOf y.1)) ∧ calls.length ≤ (matching trees a).length + 1 := by
  obtain ⟨h1, -, h2⟩ := searchCalls_honest hk hw (searchRetry a) fuel 0 a [] 0 ((hw a.treeId).1.filter _)
  exact ⟨_, rfl, h1, h2⟩

/-- witness: the messages of a search for two items on a kernel that reports one per call -/
example : Fs.searchLog 3 (.mounted (batchKernel sampleTrees fun _ => 0)) ⟨5, 256, 256, 0, 255, 0, 2 ^ 64 - 1, 0, 2 ^ 64 - 1⟩ =
    callLines (⟨5, 256, 256, 0, 255, 0, 2 ^ 64 - 1, 0, 2 ^ 64 - 1⟩, 1) ++
    callLines (⟨5, 256, 256, 1, 255, 1, 2 ^ 64 - 1, 0, 2 ^ 64 - 1⟩, 1) ++
    callLines (⟨5, 256, 256, 12, 255, 257, 2 ^ 64 - 1, 0, 2 ^ 64 - 1⟩, 0) := by decide +kernel

/-! ### the process -/

/-- the messages among the lines -/
def messages (ls : List Line) : List LogLine := ls.filterMap fun l => match l with
  | .log m => some m
  | .err _ => none

/-- the other lines -/
def others (ls : List Line) : List ErrLine := ls.filterMap fun l => match l with
  | .err e => some e
  | .log _ => none

theorem messages_append (a b : List Line) : messages (a ++ b) = messages a ++ messages b := List.filterMap_append ..
theorem others_append (a b : List Line) : others (a ++ b) = others a ++ others b := List.filterMap_append ..
theorem others_err (l : List ErrLine) : others (l.map .err) = l := by
  induction l with
  | nil => rfl
  | cons x l ih => simpa [others] using ih
theorem others_log (l : List LogLine) : others (l.map .log) = [] := by
  induction l with
  | nil => rfl
  | cons x l ih => simpa [others] using ih
theorem messages_err (l : List ErrLine) : messages (l.map .err) = [] := by
  induction l with
  | nil => rfl
  | cons x l ih => simpa [messages] using ih
theorem messages_log (l : List LogLine) : messages (l.map .log) = l := by
  induction l with
  | nil => rfl
  | cons x l ih => simpa [messages] using ih

theorem others_one (e : ErrLine) : others [.err e] = [e] := rfl
theorem messages_one (e : ErrLine) : messages [.err e] = [] := rfl

theorem others_events (debug : Bool) (fuel : Nat) (log : List Event) :
    others (log.flatMap (eventLines debug fuel)) = warningLines log := by
  induction log with
  | nil => rfl
  | cons e log ih =>
    rw [List.flatMap_cons, others_append, ih]
    cases e with
    | warned w => rfl
    | searched fs a r =>
      have : others (eventLines debug fuel (.searched fs a r)) = [] := by
        simp only [eventLines]
        split
        · exact others_log _
        · rfl
      rw [this]
      rfl
    | read => rfl
    | opened => rfl

theorem messages_events (fuel : Nat) (log : List Event) :
    messages (log.flatMap (eventLines true fuel)) = log.flatMap (fun e => match e with
      | .searched fs a _ => fs.searchLog fuel a
      | _ => []) := by
  induction log with
  | nil => rfl
  | cons e log ih =>
    rw [List.flatMap_cons, messages_append, ih, List.flatMap_cons]
    cases e with
    | warned w => rfl
    | searched fs a r => simp only [eventLines, if_true, messages_log]
    | read => rfl
    | opened => rfl

theorem messages_events_off (fuel : Nat) (log : List Event) : messages (log.flatMap (eventLines false fuel)) = [] := by
  induction log with
  | nil => rfl
  | cons e log ih =>
    rw [List.flatMap_cons, messages_append, ih]
    cases e <;> rfl

/-- the same process without its messages -/
def ProcD.quiet (p : ProcD) : Proc := ⟨p.rs, others p.err⟩

theorem procLineD_quiet (debug : Bool) (fuel : Nat) (err : List Line) (l : Lived (RState × EvalResult)) :
    ((procLineD debug fuel err l).1.quiet, (procLineD debug fuel err l).2) = (procLine (others err) l).1 := by
  obtain ⟨clock, log, rs, res⟩ := l
  cases res with
  | ok => simp [procLineD, procLine, ProcD.quiet, others_append, others_events]
  | quit => simp [procLineD, procLine, ProcD.quiet, others_append, others_events]
  | fail f =>
    cases f with
    | err e => simp [procLineD, procLine, ProcD.quiet, others_append, others_events, others_one]
    | panic => simp [procLineD, procLine, ProcD.quiet, others_append, others_events, others_one]
    | diverge => simp [procLineD, procLine, ProcD.quiet, others_append, others_events]

theorem println_quiet (p : ProcD) (s : Str) (t : ProcStatus) :
    ((p.println s t).1.quiet, (p.println s t).2) = p.quiet.println s t := by
  simp only [ProcD.println, Proc.println, ProcD.quiet]
  cases p.rs.ev.println s with
  | mk ev b =>
    cases b with
    | true => rfl
    | false => simp [others_append, others]

theorem procStepD_quiet (debug : Bool) (cfg : Cfg) (ω : Live) (p : ProcD) (e : ReplEvent) :
    ((procStepD debug cfg ω p e).1.quiet, (procStepD debug cfg ω p e).2) = (procStepL cfg ω p.quiet e).1 := by
  cases e with
  | line s =>
    have he : others (p.err ++ entryLines debug s) = others p.err := by
      rw [others_append]
      cases debug <;> simp [entryLines, others]
    simp only [procStepD, procStepL, procLineD_quiet, he]
    rfl
  | interrupted => simp [procStepD, procStepL, procStep, ProcD.quiet, others_append, others]
  | eof => exact println_quiet _ _ _
  | otherError =>
    refine (println_quiet _ _ _).trans ?_
    simp [procStepL, procStep, ProcD.quiet, others_append, others]

theorem procRunD_quiet (debug : Bool) (cfg : Cfg) : ∀ (ts : List LiveTick) (p : ProcD),
    ((procRunD debug cfg p ts).1.quiet, (procRunD debug cfg p ts).2) = (procRunL cfg p.quiet ts).1 := by
  intro ts
  induction ts with
  | nil => intro p; rfl
  | cons t ts ih =>
    intro p
    have h := procStepD_quiet debug cfg t.world (p.meets t.drift) t.event
    have hm : (p.meets t.drift).quiet = p.quiet.meets t.drift := rfl
    rw [hm] at h
    rw [procRunD, procRunL]
    cases hD : procStepD debug cfg t.world (p.meets t.drift) t.event with
    | mk p' s =>
      cases hL : procStepL cfg t.world (p.quiet.meets t.drift) t.event with
      | mk r log =>
        rw [hD, hL] at h
        simp only at h
        subst h
        cases s with
        | running => exact ih p'
        | over => rfl
        | panicked => rfl
        | hung => rfl

/-- what is left of a process without its messages -/
def EndedD.quiet (e : EndedD) : Ended := ⟨e.out, others e.err, e.exit⟩

theorem procEndD_quiet (saved : Bool) (r : ProcD × ProcStatus) : (procEndD saved r).quiet = procEnd saved (r.1.quiet, r.2) := by
  obtain ⟨p, s⟩ := r
  cases s with
  | over => cases saved <;> simp [procEndD, procEnd, EndedD.quiet, ProcD.quiet, others_append, others]
  | _ => rfl

/-- **C91**: `--debug` changes neither the output of a session, nor its exit status, nor the other lines on standard
error and their order; without it there are no messages. -/
theorem C91_session_same (debug : Bool) (cfg : Cfg) (room : Option Nat) (editor saved : Bool) (events : List LiveTick) :
    (replMainD debug cfg room editor saved events).out = (replMainL cfg room editor saved events).1.out ∧
    (replMainD debug cfg room editor saved events).exit = (replMainL cfg room editor saved events).1.exit ∧
    others (replMainD debug cfg room editor saved events).err = (replMainL cfg room editor saved events).1.err := by
  have h : (replMainD debug cfg room editor saved events).quiet = (replMainL cfg room editor saved events).1 := by
    unfold replMainD replMainL
    split
    · cases hp : procStart cfg room with
      | mk p s =>
        cases s with
        | running =>
          simp only
          rw [procEndD_quiet]
          have := procRunD_quiet debug { cfg with interactive := true } events ⟨p.rs, p.err.map .err⟩
          have hq : (⟨p.rs, p.err.map .err⟩ : ProcD).quiet = p := by simp [ProcD.quiet, others_err]
          rw [hq] at this
          rw [this]
        | _ => simp only; rw [procEndD_quiet]; simp [ProcD.quiet, others_err]
    · rfl
  rw [← h]
  exact ⟨rfl, rfl, rfl⟩

/-- **C91**: the same for scripts. -/
theorem C91_script_same (debug : Bool) (cfg : Cfg) (room : Option Nat) (ω : Live) (file : Option Bytes) :
    (scriptMainD debug cfg room ω file).out = (scriptMainL cfg room ω file).1.out ∧
    (scriptMainD debug cfg room ω file).exit = (scriptMainL cfg room ω file).1.exit ∧
    others (scriptMainD debug cfg room ω file).err = (scriptMainL cfg room ω file).1.err := by
  unfold scriptMainD scriptMainL
  cases file with
  | none => exact ⟨rfl, rfl, rfl⟩
  | some b =>
    dsimp only
    cases hd : decodeUtf8 b with
    | none => exact ⟨rfl, rfl, rfl⟩
    | some s =>
      simp only [others_append, others_events, others_err]
      exact ⟨trivial, trivial, trivial⟩

/-- **C91**: the messages of a script are those of its searches, in the order in which they were made; without `--debug`
there are none. -/
theorem C91_script_messages (cfg : Cfg) (room : Option Nat) (ω : Live) (file : Option Bytes) :
    messages (scriptMainD true cfg room ω file).err = (scriptMainL cfg room ω file).2.flatMap (fun e => match e with
      | .searched fs a _ => fs.searchLog cfg.fuel a
      | _ => []) ∧ messages (scriptMainD false cfg room ω file).err = [] := by
  unfold scriptMainD scriptMainL
  cases file with
  | none => exact ⟨rfl, rfl⟩
  | some b =>
    dsimp only
    cases hd : decodeUtf8 b with
    | none => exact ⟨rfl, rfl⟩
    | some s => simp only [messages_append, messages_events, messages_events_off, messages_err, List.append_nil]; exact ⟨trivial, trivial⟩

/-! ### the messages of a session -/

theorem procLineD_messages (fuel : Nat) (err : List Line) (l : Lived (RState × EvalResult)) :
    messages (procLineD true fuel err l).1.err = messages err ++ l.log.flatMap (fun e => match e with
      | .searched fs a _ => fs.searchLog fuel a
      | _ => []) ∧ messages (procLineD false fuel err l).1.err = messages err := by
  obtain ⟨clock, log, rs, res⟩ := l
  cases res with
  | ok => simp only [procLineD, messages_append, messages_events, messages_events_off, List.append_nil, and_self]
  | quit => simp only [procLineD, messages_append, messages_events, messages_events_off, List.append_nil, and_self]
  | fail f =>
    cases f <;> simp only [procLineD, messages_append, messages_events, messages_events_off, messages_one, List.append_nil, and_self]

theorem println_messages (p : ProcD) (s : Str) (t : ProcStatus) : messages (p.println s t).1.err = messages p.err := by
  simp only [ProcD.println]
  cases p.rs.ev.println s with
  | mk ev b =>
    cases b with
    | true => rfl
    | false => simp only [messages_append, messages_one, List.append_nil]

theorem procLine_log (err : List ErrLine) (l : Lived (RState × EvalResult)) : (procLine err l).2 = l.log := by
  obtain ⟨clock, log, rs, res⟩ := l
  cases res with
  | ok => rfl
  | quit => rfl
  | fail f => cases f <;> rfl

theorem procRunD_messages (cfg : Cfg) : ∀ (ts : List LiveTick) (p : ProcD),
    ∃ read new, read <+: ts ∧ ((procRunD true cfg p ts).2 = .running → read = ts) ∧
      SessionLog cfg.fuel (read.map (·.event)) (procRunL cfg p.quiet ts).2 new ∧
      messages (procRunD true cfg p ts).1.err = messages p.err ++ new ∧
      messages (procRunD false cfg p ts).1.err = messages p.err := by
  intro ts
  induction ts with
  | nil => intro p; exact ⟨[], [], List.prefix_rfl, fun _ => rfl, .nil, by simp [procRunD], rfl⟩
  | cons t ts ih =>
    intro p
    have hq := procStepD_quiet true cfg t.world (p.meets t.drift) t.event
    have hq' := procStepD_quiet false cfg t.world (p.meets t.drift) t.event
    have hm : (p.meets t.drift).quiet = p.quiet.meets t.drift := rfl
    rw [hm] at hq hq'
    have key : ∃ new, (∀ {es log ls}, SessionLog cfg.fuel es log ls →
          SessionLog cfg.fuel (t.event :: es) ((procStepL cfg t.world (p.quiet.meets t.drift) t.event).2 ++ log) (new ++ ls)) ∧
        messages (procStepD true cfg t.world (p.meets t.drift) t.event).1.err = messages p.err ++ new ∧
        messages (procStepD false cfg t.world (p.meets t.drift) t.event).1.err = messages p.err := by
      cases ht : t.event with
      | line s =>
        have hl := procLineD_messages cfg.fuel ((p.meets t.drift).err ++ entryLines true s)
          ((runtimeEvalT cfg (p.meets t.drift).rs (fixupInput (stripComments s))).live cfg.fuel t.world 0)
        have hl' := procLineD_messages cfg.fuel ((p.meets t.drift).err ++ entryLines false s)
          ((runtimeEvalT cfg (p.meets t.drift).rs (fixupInput (stripComments s))).live cfg.fuel t.world 0)
        refine ⟨.read s :: .cleaned (fixupInput (stripComments s)) ::
          ((runtimeEvalT cfg (p.meets t.drift).rs (fixupInput (stripComments s))).live cfg.fuel t.world 0).log.flatMap (fun e => match e with
            | .searched fs a _ => fs.searchLog cfg.fuel a
            | _ => []), ?_, ?_, ?_⟩
        rotate_left
        · simp only [procStepD]
          rw [hl.1, messages_append, List.append_assoc]
          rfl
        · simp only [procStepD]
          rw [hl'.2, messages_append]
          exact List.append_nil _
        · intro es log ls h
          have := SessionLog.line s ((runtimeEvalT cfg (p.meets t.drift).rs (fixupInput (stripComments s))).live cfg.fuel t.world 0).log h
          simp only [procStepL, procLine_log]
          simp only [List.cons_append, List.nil_append] at this ⊢
          exact this
      | interrupted =>
        refine ⟨[], fun h => .other (by intro s h; cases h) h, ?_, ?_⟩ <;>
          simp [procStepD, messages_append, messages_one, ProcD.meets]
      | eof =>
        refine ⟨[], fun h => .other (by intro s h; cases h) h, ?_, ?_⟩ <;>
          simp [procStepD, println_messages, ProcD.meets]
      | otherError =>
        refine ⟨[], fun h => .other (by intro s h; cases h) h, ?_, ?_⟩ <;>
          simp [procStepD, println_messages, messages_append, messages_one, ProcD.meets]
    obtain ⟨new, k1, k2, k3⟩ := key
    rw [procRunD, procRunL, procRunD]
    cases hD : procStepD true cfg t.world (p.meets t.drift) t.event with
    | mk p' s =>
      cases hF : procStepD false cfg t.world (p.meets t.drift) t.event with
      | mk p'' s' =>
        cases hL : procStepL cfg t.world (p.quiet.meets t.drift) t.event with
        | mk r log =>
          rw [hD, hL] at hq
          rw [hF, hL] at hq'
          rw [hL] at k1
          rw [hD] at k2
          rw [hF] at k3
          simp only at hq hq' k1 k2 k3
          subst hq
          simp only [Prod.mk.injEq] at hq'
          obtain ⟨hq1, rfl⟩ := hq'
          have stop : SessionLog cfg.fuel [t.event] log new := by simpa using k1 .nil
          cases s' with
          | running =>
            simp only
            obtain ⟨read, new', i1, i2, i3, i4, -⟩ := ih p'
            obtain ⟨-, -, -, -, -, -, j5⟩ := ih p''
            refine ⟨t :: read, new ++ new', List.cons_prefix_cons.2 ⟨rfl, i1⟩, fun h => by rw [i2 h], k1 i3, ?_, ?_⟩
            · rw [i4, k2, List.append_assoc]
            · rw [j5, k3]
          | over => exact ⟨[t], new, ⟨ts, rfl⟩, (fun h => by cases h), stop, k2, k3⟩
          | panicked => exact ⟨[t], new, ⟨ts, rfl⟩, (fun h => by cases h), stop, k2, k3⟩
          | hung => exact ⟨[t], new, ⟨ts, rfl⟩, (fun h => by cases h), stop, k2, k3⟩

/-- **C91**: the messages of a session are exactly those about the entries that were read and the searches that were
made, in order; while it is running all events were read. Without `--debug` there are no messages. -/
theorem C91_session_messages (cfg : Cfg) (room : Option Nat) (editor saved : Bool) (events : List LiveTick) :
    (∃ read, read <+: events ∧ ((replMainD true cfg room editor saved events).exit = .running → read = events) ∧
      SessionLog cfg.fuel (read.map (·.event)) (replMainL cfg room editor saved events).2
        (messages (replMainD true cfg room editor saved events).err)) ∧
    messages (replMainD false cfg room editor saved events).err = [] := by
  have hend : ∀ r : ProcD × ProcStatus, messages (procEndD saved r).err = messages r.1.err ∧
      ((procEndD saved r).exit = .running → r.2 = .running) := by
    rintro ⟨p, s⟩
    cases s with
    | over => cases saved <;> simp [procEndD, messages_append, messages_one]
    | _ => simp [procEndD]
  unfold replMainD replMainL
  cases editor with
  | false => exact ⟨⟨[], List.nil_prefix, (fun h => by cases h), .nil⟩, rfl⟩
  | true =>
    simp only [if_true]
    cases hp : procStart cfg room with
    | mk p s =>
      have hq : (⟨p.rs, p.err.map .err⟩ : ProcD).quiet = p := by simp [ProcD.quiet, others_err]
      have hrun : s = .running ∨ s ≠ .running := by cases s <;> simp
      rcases hrun with rfl | hs
      · obtain ⟨read, new, h1, h2, h3, h4, h5⟩ := procRunD_messages { cfg with interactive := true } events ⟨p.rs, p.err.map .err⟩
        rw [hq] at h3
        simp only [messages_err, List.nil_append] at h4 h5
        refine ⟨⟨read, h1, fun h => h2 ((hend _).2 h), ?_⟩, by rw [(hend _).1, h5]⟩
        rw [(hend _).1, h4]
        exact h3
      · have e1 : ∀ (A B : EndedD), (match s with | .running => A | _ => B) = B := by
          intro A B; cases s <;> first | rfl | exact absurd rfl hs
        cases s with
        | running => exact absurd rfl hs
        | over => exact ⟨⟨[], List.nil_prefix, (fun h => by have := (hend _).2 h; cases this), by rw [(hend _).1]; simpa [messages_err] using SessionLog.nil⟩, by rw [(hend _).1]; exact messages_err _⟩
        | panicked => exact ⟨⟨[], List.nil_prefix, (fun h => by have := (hend _).2 h; cases this), by rw [(hend _).1]; simpa [messages_err] using SessionLog.nil⟩, by rw [(hend _).1]; exact messages_err _⟩
        | hung => exact ⟨⟨[], List.nil_prefix, (fun h => by have := (hend _).2 h; cases this), by rw [(hend _).1]; simpa [messages_err] using SessionLog.nil⟩, by rw [(hend _).1]; exact messages_err _⟩

/-! ### the texts -/

/-- the value of a hexadecimal digit -/
def hexValue (c : Char) : Nat := if c.toNat < 58 then c.toNat - 48 else c.toNat - 87

theorem hexChar_value (n : Nat) (h : n < 16) : hexValue (hexChar n) = n ∧ hexChar n ≠ '}' ∧ ¬ Control (hexChar n) := by
  have : n = 0 ∨ n = 1 ∨ n = 2 ∨ n = 3 ∨ n = 4 ∨ n = 5 ∨ n = 6 ∨ n = 7 ∨ n = 8 ∨ n = 9 ∨ n = 10 ∨ n = 11 ∨ n = 12 ∨ n = 13 ∨
      n = 14 ∨ n = 15 := by omega
  unfold Control
  rcases this with h | h | h | h | h | h | h | h | h | h | h | h | h | h | h | h <;> subst h <;> decide

theorem hexDigits_value (n : Nat) : (hexDigits n).foldl (fun v c => 16 * v + hexValue c) 0 = n ∧
    '}' ∉ hexDigits n ∧ ∀ c ∈ hexDigits n, ¬ Control c := by
  induction n using Nat.strongRecOn with
  | ind n ih =>
    rw [hexDigits]
    split
    · rename_i h
      obtain ⟨h1, h2, h3⟩ := hexChar_value n h
      refine ⟨by simp [h1], by simpa using fun h => h2 h.symm, ?_⟩
      intro c hc
      simp only [List.mem_singleton] at hc
      subst hc
      exact h3
    · obtain ⟨h1, h2, h3⟩ := ih (n / 16) (by omega)
      obtain ⟨g1, g2, g3⟩ := hexChar_value (n % 16) (by omega)
      refine ⟨?_, ?_, ?_⟩
      · rw [List.foldl_append, h1]
        simp only [List.foldl_cons, List.foldl_nil, g1]
        omega
      · simp only [List.mem_append, List.mem_singleton, not_or]
        exact ⟨h2, fun h => g2 h.symm⟩
      · intro c hc
        rcases List.mem_append.1 hc with hc | hc
        · exact h3 c hc
        · simp only [List.mem_singleton] at hc
          subst hc
          exact g3

theorem split_unique {a b r r' : Str} {c : Char} (ha : c ∉ a) (hb : c ∉ b) (h : a ++ c :: r = b ++ c :: r') : a = b ∧ r = r' := by
  induction a generalizing b with
  | nil =>
    cases b with
    | nil => simpa using h
    | cons y b => simp only [List.nil_append, List.cons_append, List.cons.injEq] at h; exact absurd h.1 (by intro e; exact hb (by simp [e]))
  | cons x a ih =>
    cases b with
    | nil => simp only [List.nil_append, List.cons_append, List.cons.injEq] at h; exact absurd h.1 (by intro e; exact ha (by simp [e]))
    | cons y b =>
      simp only [List.cons_append, List.cons.injEq] at h
      obtain ⟨rfl, h'⟩ := h
      obtain ⟨rfl, h''⟩ := ih (fun h => ha (by simp [h])) (fun h => hb (by simp [h])) h'
      exact ⟨rfl, h''⟩

/-- what one escaped character looks like: its second character tells the kind -/
theorem escape_cases (u : Unicode) (e : Bool) (c : Char) :
    (escapeDebugChar u e c = [c] ∧ c ≠ '\\') ∨ escapeDebugChar u e c = escapeUnicode c ∨
    ∃ d, escapeDebugChar u e c = ['\\', d] ∧ d ≠ 'u' ∧
      (∀ e' c', escapeDebugChar u e' c' = ['\\', d] → c' = c) := by
  have huni : ∀ c d, escapeUnicode c ≠ ['\\', d] := by
    intro c d h
    have : (hexDigits c.toNat).length ≥ 1 := by
      rw [hexDigits]; split <;> simp
    have hl := congrArg List.length h
    simp [escapeUnicode] at hl
  by_cases h : c = '\x00' ∨ c = '\t' ∨ c = '\r' ∨ c = '\n' ∨ c = '\\' ∨ c = '"' ∨ c = '\''
  · right; right
    have inv : ∀ (e' : Bool) (c' d : Char), escapeDebugChar u e' c' = ['\\', d] →
        (c' = '\x00' ∧ d = '0') ∨ (c' = '\t' ∧ d = 't') ∨ (c' = '\r' ∧ d = 'r') ∨ (c' = '\n' ∧ d = 'n') ∨
        ((c' = '\\' ∨ c' = '"' ∨ c' = '\'') ∧ d = c') := by
      intro e' c' d hd
      unfold escapeDebugChar at hd
      split at hd
      · rename_i g; exact .inl ⟨g, (by simpa using hd.symm)⟩
      split at hd
      · rename_i g; exact .inr (.inl ⟨g, (by simpa using hd.symm)⟩)
      split at hd
      · rename_i g; exact .inr (.inr (.inl ⟨g, (by simpa using hd.symm)⟩))
      split at hd
      · rename_i g; exact .inr (.inr (.inr (.inl ⟨g, (by simpa using hd.symm)⟩)))
      split at hd
      · rename_i g; exact .inr (.inr (.inr (.inr ⟨g, (by simpa using hd.symm)⟩)))
      split at hd
      · exact absurd hd (huni _ _)
      split at hd
      · exact absurd (congrArg List.length hd) (by simp)
      · exact absurd hd (huni _ _)
    rcases h with rfl | rfl | rfl | rfl | rfl | rfl | rfl
    · exact ⟨'0', rfl, by decide, fun e' c' h => by have := inv e' c' _ h; simp at this; grind⟩
    · exact ⟨'t', rfl, by decide, fun e' c' h => by have := inv e' c' _ h; simp at this; grind⟩
    · exact ⟨'r', rfl, by decide, fun e' c' h => by have := inv e' c' _ h; simp at this; grind⟩
    · exact ⟨'n', rfl, by decide, fun e' c' h => by have := inv e' c' _ h; simp at this; grind⟩
    · exact ⟨'\\', rfl, by decide, fun e' c' h => by have := inv e' c' _ h; simp at this; grind⟩
    · exact ⟨'"', rfl, by decide, fun e' c' h => by have := inv e' c' _ h; simp at this; grind⟩
    · exact ⟨'\'', rfl, by decide, fun e' c' h => by have := inv e' c' _ h; simp at this; grind⟩
  · simp only [not_or] at h
    obtain ⟨h1, h2, h3, h4, h5, h6, h7⟩ := h
    simp only [escapeDebugChar, h1, h2, h3, h4, h5, h6, h7, if_false, or_self]
    split
    · exact .inr (.inl rfl)
    · split
      · exact .inl ⟨rfl, h5⟩
      · exact .inr (.inl rfl)

/-- reading back one escaped character -/
theorem escape_one (u : Unicode) (e e' : Bool) (c c' : Char) (r r' : Str)
    (h : escapeDebugChar u e c ++ r = escapeDebugChar u e' c' ++ r') : c = c' ∧ r = r' := by
  have uni : ∀ (a : Char) (s : Str), escapeUnicode a ++ s = '\\' :: 'u' :: '{' :: (hexDigits a.toNat ++ '}' :: s) := by
    intro a s; simp [escapeUnicode]
  rcases escape_cases u e c with ⟨h1, hc⟩ | h1 | ⟨d, h1, hd, hu⟩ <;>
    rcases escape_cases u e' c' with ⟨h2, hc'⟩ | h2 | ⟨d', h2, hd', hu'⟩ <;> rw [h1, h2] at h
  · simpa using h
  · rw [uni] at h; simp only [List.cons_append, List.nil_append, List.cons.injEq] at h; exact absurd h.1 hc
  · simp only [List.cons_append, List.nil_append, List.cons.injEq] at h; exact absurd h.1 hc
  · rw [uni] at h; simp only [List.cons_append, List.nil_append, List.cons.injEq] at h; exact absurd h.1.symm hc'
  · rw [uni, uni] at h
    simp only [List.cons.injEq, true_and] at h
    obtain ⟨ha, hr⟩ := split_unique (hexDigits_value _).2.1 (hexDigits_value _).2.1 h
    refine ⟨?_, hr⟩
    have hn : c.toNat = c'.toNat := by rw [← (hexDigits_value c.toNat).1, ← (hexDigits_value c'.toNat).1, ha]
    exact Char.toNat_inj.1 hn
  · rw [uni] at h; simp only [List.cons_append, List.nil_append, List.cons.injEq, true_and] at h; exact absurd h.1.symm hd'
  · simp only [List.cons_append, List.nil_append, List.cons.injEq] at h; exact absurd h.1.symm hc'
  · rw [uni] at h; simp only [List.cons_append, List.nil_append, List.cons.injEq, true_and] at h; exact absurd h.1 hd
  · simp only [List.cons_append, List.nil_append, List.cons.injEq, true_and] at h
    obtain ⟨rfl, hr⟩ := h
    exact ⟨(hu e' c' h2).symm, hr⟩

theorem escape_nonempty (u : Unicode) (e : Bool) (c : Char) : escapeDebugChar u e c ≠ [] := by
  rcases escape_cases u e c with ⟨h, -⟩ | h | ⟨d, h, -⟩ <;> rw [h] <;> simp [escapeUnicode]

theorem escape_rest (u : Unicode) : ∀ s t : Str, s.flatMap (escapeDebugChar u false) = t.flatMap (escapeDebugChar u false) → s = t := by
  intro s
  induction s with
  | nil =>
    intro t h
    cases t with
    | nil => rfl
    | cons d t => simp only [List.flatMap_nil, List.flatMap_cons] at h; exact absurd (List.append_eq_nil_iff.1 h.symm).1 (escape_nonempty u _ _)
  | cons c s ih =>
    intro t h
    cases t with
    | nil => simp only [List.flatMap_nil, List.flatMap_cons] at h; exact absurd (List.append_eq_nil_iff.1 h).1 (escape_nonempty u _ _)
    | cons d t =>
      simp only [List.flatMap_cons] at h
      obtain ⟨rfl, h'⟩ := escape_one u _ _ _ _ _ _ h
      rw [ih t h']

theorem escapeDebug_injective (u : Unicode) {s t : Str} (h : escapeDebug u s = escapeDebug u t) : s = t := by
  cases s with
  | nil =>
    cases t with
    | nil => rfl
    | cons d t => simp only [escapeDebug] at h; exact absurd (List.append_eq_nil_iff.1 h.symm).1 (escape_nonempty u _ _)
  | cons c s =>
    cases t with
    | nil => simp only [escapeDebug] at h; exact absurd (List.append_eq_nil_iff.1 h).1 (escape_nonempty u _ _)
    | cons d t =>
      simp only [escapeDebug] at h
      obtain ⟨rfl, h'⟩ := escape_one u _ _ _ _ _ _ h
      rw [escape_rest u _ _ h']

set_option maxRecDepth 4000 in
/-- **C91**: the texts of the messages about a call give the request, member by member, and the number of items. -/
theorem C91_call_text (u : Unicode) (a : SearchArgs) (n : Nat) :
    (callLines (a, n)).map (·.text u) = [keyText a n, foundText n] := by
  simp only [callLines, List.map_cons, List.map_nil, LogLine.text, keyAfter, prettyFields, List.flatMap_cons, List.flatMap_nil,
    keyText, foundText, memberLine, numeral_nat, List.cons.injEq, and_true]
  simp only [List.append_assoc, List.nil_append, List.append_nil, List.cons_append]

/-- **C91**: whatever the tables of Unicode say, the text of the messages about an entry tells exactly what was read and
exactly what was given to the parser. -/
theorem C91_text_determines (u : Unicode) (s t : Str) :
    ((LogLine.read s).text u = (LogLine.read t).text u → s = t) ∧
    ((LogLine.cleaned s).text u = (LogLine.cleaned t).text u → s = t) := by
  constructor
  · intro h; exact escapeDebug_injective u (List.append_cancel_left h)
  · intro h; exact escapeDebug_injective u (List.append_cancel_left h)

theorem escapeDebugChar_clean (u : Unicode) (hu : ∀ c, u.printable c = true → ¬ Control c) (e : Bool) (c : Char) :
    ∀ d ∈ escapeDebugChar u e c, ¬ Control d := by
  have huni : ∀ d ∈ escapeUnicode c, ¬ Control d := by
    intro d hd
    simp only [escapeUnicode, List.mem_append, List.mem_cons, List.not_mem_nil, or_false] at hd
    rcases hd with ((rfl | rfl | rfl) | hd) | rfl
    · simp only [Control]; decide
    · simp only [Control]; decide
    · simp only [Control]; decide
    · exact (hexDigits_value _).2.2 d hd
    · simp only [Control]; decide
  intro d hd
  unfold escapeDebugChar at hd
  split at hd
  · simp only [List.mem_cons, List.not_mem_nil, or_false] at hd; rcases hd with rfl | rfl <;> simp only [Control] <;> decide
  split at hd
  · simp only [List.mem_cons, List.not_mem_nil, or_false] at hd; rcases hd with rfl | rfl <;> simp only [Control] <;> decide
  split at hd
  · simp only [List.mem_cons, List.not_mem_nil, or_false] at hd; rcases hd with rfl | rfl <;> simp only [Control] <;> decide
  split at hd
  · simp only [List.mem_cons, List.not_mem_nil, or_false] at hd; rcases hd with rfl | rfl <;> simp only [Control] <;> decide
  split at hd
  · rename_i h
    simp only [List.mem_cons, List.not_mem_nil, or_false] at hd
    rcases hd with rfl | rfl
    · simp only [Control]; decide
    · rcases h with rfl | rfl | rfl <;> simp only [Control] <;> decide
  split at hd
  · exact huni d hd
  split at hd
  · rename_i h
    simp only [List.mem_singleton] at hd
    subst hd
    exact hu _ h
  · exact huni d hd

/-- **C91**: if no control character counts as printable, those messages hold none: each is one line. -/
theorem C91_one_line (u : Unicode) (hu : ∀ c, u.printable c = true → ¬ Control c) (s : Str) :
    ∀ c ∈ (LogLine.read s).text u ++ (LogLine.cleaned s).text u, ¬ Control c := by
  have he : ∀ c ∈ escapeDebug u s, ¬ Control c := by
    intro d hd
    cases s with
    | nil => simp [escapeDebug] at hd
    | cons c s =>
      simp only [escapeDebug, List.mem_append, List.mem_flatMap] at hd
      rcases hd with hd | ⟨x, -, hd⟩
      · exact escapeDebugChar_clean u hu _ _ d hd
      · exact escapeDebugChar_clean u hu _ _ d hd
  intro c hc
  simp only [LogLine.text, List.mem_append] at hc
  rcases hc with (hc | hc) | (hc | hc)
  · simp only [List.mem_cons, List.not_mem_nil, or_false] at hc
    rcases hc with rfl | rfl | rfl | rfl | rfl | rfl <;> simp only [Control] <;> decide
  · exact he c hc
  · simp only [List.mem_cons, List.not_mem_nil, or_false] at hc
    rcases hc with rfl | rfl | rfl | rfl | rfl | rfl | rfl | rfl | rfl <;> simp only [Control] <;> decide
  · exact he c hc

/-- witness: an entry of two lines with a tab, a quote and a letter that is not printable -/
example : (LogLine.read s!' "x = \"é\";\\\n\ty").text ⟨fun _ => false, fun c => decide (32 ≤ c.toNat ∧ c.toNat < 127)⟩ =
    s!' "read: x = \\\"\\u{e9}\\\";\\\\\\n\\ty" := by decide +kernel

/-- witness: the text about a call -/
example : ((callLines (⟨5, 256, 256, 0, 255, 0, 7, 0, 9⟩, 1)).map (LogLine.text ⟨fun _ => false, fun _ => true⟩)) =
    [s!' "search() key: BtrfsIoctlSearchKey {\n    tree_id: 5,\n    min_objectid: 256,\n    max_objectid: 256,\n    min_offset: 0,\n    max_offset: 7,\n    min_transid: 0,\n    max_transid: 9,\n    min_type: 0,\n    max_type: 255,\n    nr_items: 1,\n    _unused: 0,\n    _unused1: 0,\n    _unused2: 0,\n    _unused3: 0,\n    _unused4: 0,\n}",
      s!' "search() found 1 items"] := by decide +kernel

end Btrd
