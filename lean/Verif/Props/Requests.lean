/-
C102: the requests of a search.
-/
import Verif.Props.Changing

namespace Btrd
open Spec

theorem askedLoop_once (k : Kernel) (fuel i : Nat) (a : SearchArgs) (p : List Item) (c : Nat) :
    askedLoop k false (fuel + 1) i a p c = [a] := by
  rw [askedLoop]
  cases k i a with
  | errno => rfl
  | data n buf =>
    dsimp only
    cases extractItems buf n 0 p c with
    | error e => rfl
    | ok r => rfl

/-- **C102** A search without an upper bound, such as `key()` asks for, makes exactly one request, the one it was given,
whatever the kernel answers. -/
theorem C102_once (k : Kernel) (a : SearchArgs) (hb : ¬ Bounded a) (fuel : Nat) (hf : 0 < fuel) : Requested fuel k a [a] := by
  match fuel, hf with
  | fuel + 1, _ =>
    refine requested_iff ?_
    have : searchRetry a = false := by
      cases h : searchRetry a with
      | false => rfl
      | true => exact absurd ((searchRetry_iff a).1 h) hb
    rw [this, askedLoop_once]

theorem asked_head {k : Kernel} {retry : Bool} {fuel i : Nat} {a : SearchArgs} {p : List Item} {c : Nat} {as : List SearchArgs}
    (h : askedLoop k retry fuel i a p c = as) : ∀ b, as.head? = some b → b = a := by
  intro b hb
  match fuel with
  | 0 => rw [askedLoop] at h; subst h; cases hb
  | fuel + 1 => rw [askedLoop] at h; subst h; simpa using hb.symm

theorem replied_prefix {k : Kernel} {trees : Trees} (hk : Honours k trees) (hw : WellOrdered trees) {i : Nat} {as : List SearchArgs}
    {qs : List (List Item)} (h : Replied k i as qs) : ∀ a, (∀ b, as.head? = some b → b = a) →
    (∀ n q b, qs[n]? = some q → as[n + 1]? = some b → ∃ x, q.getLast? = some x ∧ b = nextArgs a x) →
    qs.flatten <+: matching trees a := by
  induction h with
  | none i => intro a _ _; exact ⟨_, rfl⟩
  | @next i a' buf q as qs hr hh hrest ih =>
    intro a hhead hnext
    obtain rfl := hhead a' rfl
    obtain ⟨buf', q', rest, hr', hh', hq, -⟩ := hk i a'
    rw [hr] at hr'
    simp only [Reply.data.injEq] at hr'
    obtain ⟨hl, rfl⟩ := hr'
    obtain rfl := hh.unique hh' hl
    rw [List.flatten_cons, hq]
    match as, hrest, hnext, ih with
    | [], hrest, _, _ =>
      cases hrest
      exact ⟨rest, by simp⟩
    | b :: as, hrest, hnext, ih =>
      obtain ⟨x, hx, rfl⟩ := hnext 0 q b rfl rfl
      obtain ⟨q', rfl⟩ : ∃ q', q = q' ++ [x] := List.getLast?_eq_some_iff.1 hx
      have hm := matching_next hw a' q' rest x hq
      have := ih (nextArgs a' x) (fun b hb => by simpa using hb.symm) (fun n q b h1 h2 => by
        obtain ⟨y, hy, rfl⟩ := hnext (n + 1) q b (by simpa using h1) (by simpa using h2)
        exact ⟨y, hy, rfl⟩)
      rw [show matching trees (nextArgs a' x) = rest from hm] at this
      exact (List.prefix_append_right_inj _).2 this

theorem honours_each {k : Kernel} {trees : Trees} (h : Honours k trees) : HonoursEach k (fun _ => trees) := h

/-- **C102** With an upper bound, and nobody writing to the filesystem: every request is replied to, each starts right
behind the last item of the reply before it, so the requests go forward; every reply but the last has items; one after the
other the replies are the first so many of the items asked for - all of them, with an empty last reply, if the search
succeeds. -/
theorem C102_dialogue (k : Kernel) (trees : Trees) (hw : WellOrdered trees) (hk : Honours k trees) (a : SearchArgs)
    (hb : Bounded a) (fuel : Nat) :
    ∃ as qs, Requested fuel k a as ∧ Replied k 0 as qs ∧
      (∀ n q b, qs[n]? = some q → as[n + 1]? = some b → ∃ x, q.getLast? = some x ∧
        b = { a with minObjectid := x.1.objectid, minType := x.1.ty, minOffset := x.1.offset + 1 }) ∧
      as.Pairwise (fun b b' => KeyLt (fromKey b) (fromKey b')) ∧
      (∀ q ∈ qs.dropLast, q ≠ []) ∧ qs.flatten <+: matching trees a ∧
      ∀ its, Fs.search fuel (.mounted k) a = .ok its → its = qs.flatten ∧ its = matching trees a ∧ qs.getLast? = some [] := by
  obtain ⟨as, qs, C⟩ := search_course (honours_each hk) (fun _ => hw) a fuel
  have hpre := replied_prefix hk hw C.replied a (asked_head C.asked) C.onward
  refine ⟨as, qs, requested_iff (by rw [(searchRetry_iff a).2 hb]; exact C.asked), C.replied, C.onward, C.forward, C.full,
    hpre, fun its h => ?_⟩
  have hl := bounded_ok hb h
  obtain ⟨rfl, hlast⟩ := course_ok C hl
  refine ⟨rfl, ?_, hlast⟩
  -- all of them: every key asked for is returned, so the rest is empty
  obtain ⟨rest, hrest⟩ := hpre
  cases rest with
  | nil => simpa using hrest
  | cons y rest =>
    exfalso
    obtain ⟨it, hit, hkey⟩ := C.complete _ hl (keyOf y) fun n _ => ⟨y, by rw [← hrest]; simp, rfl⟩
    have hs : (matching trees a).Pairwise (fun a b => KeyLt (keyOf a) (keyOf b)) := (hw a.treeId).1.filter _
    rw [← hrest, List.pairwise_append] at hs
    have := hs.2.2 it hit y (by simp)
    rw [hkey] at this
    exact Spec.KeyLt.irrefl _ this

theorem replied_length {k : Kernel} {i : Nat} {as : List SearchArgs} {qs : List (List Item)} (h : Replied k i as qs) :
    as.length = qs.length := by
  induction h with
  | none => rfl
  | next _ _ _ ih => simp [ih]

theorem full_length : ∀ (qs : List (List Item)), (∀ q ∈ qs.dropLast, q ≠ []) → qs.length ≤ qs.flatten.length + 1
  | [], _ => by simp
  | [q], _ => by simp
  | q :: q' :: qs, h => by
    have := full_length (q' :: qs) (fun x hx => h x (by rw [List.dropLast_cons₂]; simp [hx]))
    have h0 : 0 < q.length := List.length_pos_iff.2 (h q (by rw [List.dropLast_cons₂]; simp))
    simp only [List.length_cons, List.flatten_cons, List.length_append] at this ⊢
    omega

/-- **C102** So there is at most one request more than there are items asked for. -/
theorem C102_count (k : Kernel) (trees : Trees) (hw : WellOrdered trees) (hk : Honours k trees) (a : SearchArgs)
    (fuel : Nat) (as : List SearchArgs) (h : Requested fuel k a as) : as.length ≤ (matching trees a).length + 1 := by
  by_cases hb : Bounded a
  · obtain ⟨as', qs, h1, h2, -, -, h3, h4, -⟩ := C102_dialogue k trees hw hk a hb fuel
    have e := (h 0).symm.trans (h1 0)
    have hl := congrArg List.length e
    simp only [List.length_map] at hl
    have := replied_length h2
    have := full_length qs h3
    have := h4.length_le
    omega
  · match fuel with
    | 0 =>
      have e := h 0
      simp only [searchSys, askedLoop, List.map_nil] at e
      have hl := congrArg List.length e
      simp only [List.length_map, List.length_nil] at hl
      omega
    | fuel + 1 =>
      have e := (h 0).symm.trans (C102_once k a hb (fuel + 1) (by omega) 0)
      have hl := congrArg List.length e
      simp only [List.length_map, List.length_cons, List.length_nil] at hl
      omega

/-- **C102** If the kernel always replies with all it is asked for, two requests are made, or one if there is nothing to
be found. (Offsets below the largest; see C60.) -/
theorem C102_two (k : Kernel) (trees : Trees) (hw : WellOrdered trees) (a : SearchArgs) (hb : Bounded a)
    (hk : ∀ i b, ∃ buf, k i b = .data (matching trees b).length buf ∧ Holds buf 0 (matching trees b))
    (ho : ∀ it ∈ matching trees a, it.1.offset < 2 ^ 64 - 1) (fuel : Nat) (hf : 1 < fuel) (as : List SearchArgs)
    (h : Requested fuel k a as) : as.length = if matching trees a = [] then 1 else 2 := by
  have hon : Honours k trees := fun i b => by
    obtain ⟨buf, h1, h2⟩ := hk i b
    exact ⟨buf, _, [], h1, h2, by simp, fun _ => rfl⟩
  have hret : searchRetry a = true := (searchRetry_iff a).2 hb
  have e := h 0
  simp only [searchSys, hret] at e
  have hl := congrArg List.length e
  simp only [List.length_map] at hl
  rw [← hl]
  obtain ⟨buf, h1, h2⟩ := hk 0 a
  have hs : (matching trees a).Pairwise (fun a b => KeyLt (keyOf a) (keyOf b)) := (hw a.treeId).1.filter _
  have hx := extractItems_holds buf (matching trees a) 0 [] 0 h2
  rw [merge_distinct _ [] 0 (by simpa using sorted_headers_nodup hs)] at hx
  obtain ⟨fuel, rfl⟩ : ∃ n, fuel = n + 2 := ⟨fuel - 2, by omega⟩
  rw [askedLoop, h1]
  rcases List.eq_nil_or_concat (matching trees a) with hm | ⟨q, x, hm⟩
  · simp only [hx]
    rw [hm]
    simp
  · rw [List.concat_eq_append] at hm
    have hnx := matching_next hw a q [] x (by rw [hm]; simp)
    have hty : x.1.ty < 256 := matching_ty hw a x (by rw [hm]; simp)
    have hox := ho x (by rw [hm]; simp)
    have hlk : largestKey ([] ++ matching trees a) = .ok x.1 := by
      rw [hm] at hs ⊢
      exact largestKey_sorted _ _ (by simpa using hs)
    have hn : ((matching trees a).length == 0) = false := by rw [hm]; simp
    obtain ⟨buf', h3, -⟩ := hk 1 (nextArgs a x)
    rw [show matching trees (nextArgs a x) = [] from hnx] at h3
    simp only [hx, hn, Bool.not_true, Bool.or_self, Bool.false_eq_true, if_false, hlk, if_pos hty,
      if_pos (show x.1.offset + 1 < 2 ^ 64 by omega), List.length_cons]
    rw [askedLoop]
    rw [show k (0 + 1) { a with minObjectid := x.1.objectid, minType := x.1.ty, minOffset := x.1.offset + 1 } = .data 0 buf' from h3]
    have hne : matching trees a ≠ [] := by rw [hm]; simp
    simp [extractItems, hne]

/-! ### a reply that cannot be -/

theorem extract_room (buf : Mem) : ∀ (n off : Nat) (ret : List Item) (c : Nat) (r : List Item × Nat),
    extractItems buf n off ret c = .ok r → off ≤ bufSize → off + 32 * n ≤ bufSize := by
  have hb : maxBufSize = bufSize := by decide
  intro n
  induction n with
  | zero => intro off ret c r _ h; omega
  | succ n ih =>
    intro off ret c r h _
    rw [extractItems] at h
    by_cases e1 : headerSize + off ≤ maxBufSize
    · rw [if_pos e1] at h
      simp only at h
      by_cases e2 : (readHeader buf off).len + (off + headerSize) ≤ maxBufSize
      · rw [if_pos e2] at h
        simp only [headerSize] at *
        split at h
        · have := ih _ _ _ _ h (by omega)
          omega
        · have := ih _ _ _ _ h (by omega)
          omega
      · rw [if_neg e2] at h; cases h
    · rw [if_neg e1] at h; cases h

theorem asked_no_room (k : Kernel) (retry : Bool) {n : Nat} {b : SearchArgs} {nr : Nat} {buf : Mem} (hn : bufSize < 32 * nr) :
    ∀ (fuel i : Nat) (a : SearchArgs) (ret : List Item) (c : Nat), ∀ n, (askedLoop k retry fuel i a ret c)[n]? = some b →
    k (i + n) b = .data nr buf → ∃ p, searchLoop k retry fuel i a ret c = .error (.err (.searchShort p)) := by
  intro fuel
  induction fuel with
  | zero => intro i a ret c n h; rw [askedLoop] at h; cases h
  | succ fuel ih =>
    intro i a ret c n h hk
    rw [askedLoop] at h
    rw [searchLoop]
    match n with
    | 0 =>
      rw [List.getElem?_cons_zero, Option.some.injEq] at h
      subst h
      rw [Nat.add_zero] at hk
      rw [hk]
      dsimp only
      cases hx : extractItems buf nr 0 ret c with
      | ok r =>
        have := extract_room buf nr 0 ret c r hx (Nat.zero_le _)
        omega
      | error e =>
        obtain ⟨p, rfl⟩ := extractItems_err buf nr 0 ret c e hx
        exact ⟨p, rfl⟩
    | n + 1 =>
      rw [List.getElem?_cons_succ] at h
      have step : ∀ j, i + (n + 1) = i + 1 + n := fun _ => by omega
      cases hka : k i a with
      | errno => rw [hka] at h; cases h
      | data nr' buf' =>
        rw [hka] at h
        dsimp only at h ⊢
        cases hx : extractItems buf' nr' 0 ret c with
        | error e => rw [hx] at h; cases h
        | ok r =>
          obtain ⟨ret', c'⟩ := r
          rw [hx] at h
          dsimp only at h ⊢
          split at h
          · cases h
          · rename_i hr
            rw [if_neg hr]
            cases hlk : largestKey ret' with
            | error e => rw [hlk] at h; cases h
            | ok m =>
              rw [hlk] at h
              dsimp only at h ⊢
              split at h
              · rename_i ht
                rw [if_pos ht]
                split at h
                · rename_i ho
                  rw [if_pos ho]
                  exact ih _ _ _ _ n h (by rw [show i + 1 + n = i + (n + 1) by omega]; exact hk)
                · cases h
              · cases h

/-- **C102** A reply with more items than the buffer has room for is never taken for an answer: whichever request it is
the reply to, and whatever is in the buffer, the search fails. -/
theorem C102_no_room (k : Kernel) (fuel : Nat) (a : SearchArgs) (as : List SearchArgs) (h : Requested fuel k a as)
    (i : Nat) (b : SearchArgs) (hb : as[i]? = some b) (nr : Nat) (buf : Mem) (hk : k i b = .data nr buf) (hn : bufSize < 32 * nr) :
    ∃ p, Fs.search fuel (.mounted k) a = .error (.err (.searchShort p)) := by
  have e := h 0
  simp only [searchSys] at e
  have hi : ((askedLoop k (searchRetry a) fuel 0 a [] 0).map (Sys.ioctl 0))[i]? = (as.map (Sys.ioctl 0))[i]? := by rw [e]
  simp only [List.getElem?_map, hb, Option.map_some] at hi
  cases hx : (askedLoop k (searchRetry a) fuel 0 a [] 0)[i]? with
  | none => rw [hx] at hi; cases hi
  | some b' =>
    rw [hx] at hi
    simp only [Option.map_some, Option.some.injEq, Sys.ioctl.injEq, true_and] at hi
    subst hi
    obtain ⟨p, hp⟩ := asked_no_room k (searchRetry a) (n := i) hn fuel 0 a [] 0 i hx (by rw [Nat.zero_add]; exact hk)
    unfold searchRetry at hp
    exact ⟨p, by simp only [Fs.search, hp]⟩

theorem argsMem_items (a : SearchArgs) : leAt (argsMem a) 64 4 = 2 ^ 32 - 1 := by
  have p : ∀ (name : Str) (v : Nat) (m : Mem), setKey name v m = store m (fieldPlace name).1 (fieldPlace name).2 v := fun _ _ _ => rfl
  have e1 : fieldPlace s!' "tree_id" = (0, 8) := by decide
  have e2 : fieldPlace s!' "min_objectid" = (8, 8) := by decide
  have e3 : fieldPlace s!' "max_objectid" = (16, 8) := by decide
  have e4 : fieldPlace s!' "min_offset" = (24, 8) := by decide
  have e5 : fieldPlace s!' "max_offset" = (32, 8) := by decide
  have e6 : fieldPlace s!' "min_transid" = (40, 8) := by decide
  have e7 : fieldPlace s!' "max_transid" = (48, 8) := by decide
  have e8 : fieldPlace s!' "min_type" = (56, 4) := by decide
  have e9 : fieldPlace s!' "max_type" = (60, 4) := by decide
  have e10 : fieldPlace s!' "nr_items" = (64, 4) := by decide
  have e11 : bufSizeOffset = 104 := by decide
  simp (disch := omega) only [argsMem, newArgs, p, e1, e2, e3, e4, e5, e6, e7, e8, e9, e10, e11, leAt_store_other]
  apply leAt_store
  decide

/-- **C102** `EOVERFLOW`, which the tool treats like success: the kernel has no room for an item and does not touch
`nr_items`. Whatever else it leaves in memory, and whichever request it is, the search fails: the item is not passed over
in silence. -/
theorem C102_overflow (M : Machine) (fuel : Nat) (a : SearchArgs) (as : List SearchArgs) (h : Requested fuel (kernelOf M) a as)
    (i : Nat) (b : SearchArgs) (hb : as[i]? = some b) (m : Mem) (hM : M i treeSearchV2 (argsMem b) = .done m)
    (hm : leAt m 64 4 = leAt (argsMem b) 64 4) :
    ∃ p, Fs.search fuel (.mounted (kernelOf M)) a = .error (.err (.searchShort p)) := by
  have hk : kernelOf M i b = .data (2 ^ 32 - 1) fun j => m (bufOffset + j) := by
    have e10 : fieldPlace s!' "nr_items" = (64, 4) := by decide
    simp only [kernelOf, C90_request_number, hM, getKey, e10, hm, argsMem_items]
  exact C102_no_room _ fuel a as h i b hb _ _ hk (by decide)

/-! ### witnesses -/

/-- three items, one at a time: four requests -/
example : ∃ as, Requested 9 (batchKernel sampleTrees (fun _ => 0)) { allOfTree5 with maxTransid := 2 ^ 64 - 2 } as ∧ as.length ≤ 4 := by
  obtain ⟨as, qs, h, -⟩ := C102_dialogue _ sampleTrees sampleTrees_ok.1 (batchKernel_honours _ sampleTrees_ok.2 (fun _ => 0))
    { allOfTree5 with maxTransid := 2 ^ 64 - 2 } (by unfold Bounded; decide) 9
  exact ⟨as, h, C102_count _ _ sampleTrees_ok.1 (batchKernel_honours _ sampleTrees_ok.2 (fun _ => 0)) _ _ as h⟩

theorem asked_one (k : Kernel) (retry : Bool) (a : SearchArgs) : askedLoop k retry 1 0 a [] 0 = [a] := by
  rw [askedLoop]
  refine congrArg (List.cons a) ?_
  split
  · rfl
  · split
    · rfl
    · split
      · rfl
      · split
        · rfl
        · split
          · split
            · rfl
            · rfl
          · rfl

/-- a machine that overflows at once -/
example (a : SearchArgs) : ∃ p, Fs.search 1 (.mounted (kernelOf fun _ _ m => .done m)) a = .error (.err (.searchShort p)) :=
  C102_overflow _ 1 a [a] (requested_iff (asked_one _ _ a)) 0 a (by simp) (argsMem a) (by simp) (by simp)

end Btrd
