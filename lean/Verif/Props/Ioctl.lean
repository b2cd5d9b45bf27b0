/-
C90: the system call of a search reaches the kernel as the kernel defines it.
-/
import Verif.Spec.Ioctl
import Verif.Props.Search
import Verif.Lemmas.SearchKernel

namespace Btrd
open Spec

/-! ### memory -/

theorem store_other (i : Nat) : ∀ (n off v : Nat) (m : Mem), i < off ∨ off + n ≤ i → store m off n v i = m i
  | 0, _, _, _, _ => rfl
  | n + 1, off, v, m, h => by
    rw [store, store_other i n (off + 1) (v / 256) _ (by omega)]
    have : i ≠ off := by omega
    simp [this]

theorem leAt_store_other (k : Nat) : ∀ (l n off v : Nat) (m : Mem), k + l ≤ off ∨ off + n ≤ k →
    leAt (store m off n v) k l = leAt m k l := by
  intro l n off v m h
  apply leAt_shift
  intro i hi
  exact store_other (k + i) n off v m (by omega)

theorem leAt_store : ∀ (n off v : Nat) (m : Mem), v < 256 ^ n → leAt (store m off n v) off n = v
  | 0, _, v, _, h => by simp at h; simp [leAt, h]
  | n + 1, off, v, m, h => by
    rw [store, leAt]
    rw [leAt_store n (off + 1) (v / 256) _ (Nat.div_lt_of_lt_mul (by rw [Nat.pow_succ] at h; omega))]
    rw [store_other off n (off + 1) _ _ (by omega)]
    simp
    omega

theorem leAt_zero : ∀ (n off : Nat), leAt (fun _ => 0) off n = 0
  | 0, _ => rfl
  | n + 1, off => by rw [leAt, leAt_zero n]; rfl

/-! ### the request -/

/-- **C90**: the request number is the kernel's. -/
theorem C90_request_number : searchRequest = treeSearchV2 := by decide +kernel

/-- **C90**: that depends on the size of the buffer, which is part of the struct here and not in the kernel: among the
multiples of 8 it is so exactly for the multiples of 16384. -/
theorem C90_request_number_iff (n : Nat) (hn : n % 8 = 0) :
    ioctlReadWrite 0x94 17 (argsSize n) = treeSearchV2 ↔ n % 16384 = 0 := by
  have e1 : ∀ s, ioctlReadWrite 0x94 17 s = 3 * 2 ^ 30 + (s % 2 ^ 14) * 2 ^ 16 + 0x94 * 2 ^ 8 + 17 := by
    intro s
    have hs : s &&& 0x3fff = s % 2 ^ 14 := Nat.and_two_pow_sub_one_eq_mod s 14
    have hlt : s % 2 ^ 14 < 2 ^ 14 := Nat.mod_lt _ (by decide)
    unfold ioctlReadWrite
    rw [hs]
    generalize s % 2 ^ 14 = k at hlt ⊢
    have h1 : (3 &&& 0x3) <<< 30 ||| (0x94 &&& 0xff) <<< 8 ||| (17 &&& 0xff) <<< 0 = 3 <<< 30 ||| 0x9411 := by decide
    rw [h1, Nat.or_assoc, Nat.or_comm 0x9411, ← Nat.shiftLeft_add_eq_or_of_lt (show 0x9411 < 2 ^ 16 by decide)]
    rw [← Nat.shiftLeft_add_eq_or_of_lt (a := 3) (i := 30)]
    · simp only [Nat.shiftLeft_eq]
      omega
    · simp only [Nat.shiftLeft_eq]
      omega
  rw [e1]
  have e2 : argsSize n = 112 + n := by
    have : bufOffset = 112 := by decide
    simp only [argsSize, alignUp, this]
    omega
  simp only [treeSearchV2, iowr, e2]
  omega

/-- **C90**: the kernel finds every parameter of the search where it looks for it, the room for items as large as the
buffer, and no limit on their number. -/
theorem C90_request_memory (a : SearchArgs) (h : InRange a) : AtOffsets (argsMem a) a := by
  obtain ⟨h1, h2, h3⟩ := h
  simp only [List.mem_cons, List.not_mem_nil, or_false, forall_eq_or_imp, forall_eq] at h1
  obtain ⟨a1, a2, a3, a4, a5, a6, a7⟩ := h1
  have p : ∀ (name : Str) (v : Nat) (m : Mem), setKey name v m = store m (fieldPlace name).1 (fieldPlace name).2 v := fun _ _ _ => rfl
  have e1 : fieldPlace s!' "tree_id" = (0, 8) := by decide
  have e2 : fieldPlace s!' "min_objectid" = (8, 8) := by decide
  have e3 : fieldPlace s!' "max_objectid" = (16, 8) := by decide
  have e4 : fieldPlace s!' "min_offset" = (24, 8) := by decide
  have e5 : fieldPlace s!' "max_offset" = (32, 8) := by decide
  have e6 : fieldPlace s!' "min_transid" = (40, 8) := by decide
  have e7 : fieldPlace s!' "max_transid" = (48, 8) := by decide
  have e8 : fieldPlace s!' "min_type" = (56, 4) := by decide
  have e9 : fieldPlace s!' "max_type" = (60, 4) := by decide
  have e10 : fieldPlace s!' "nr_items" = (64, 4) := by decide
  have e11 : bufSizeOffset = 104 := by decide
  constructor <;>
    simp (disch := omega) only [argsMem, newArgs, p, e1, e2, e3, e4, e5, e6, e7, e8, e9, e10, e11, leAt_store_other, leAt_zero] <;>
    first
      | (apply leAt_store; omega)
      | rfl

/-- **C90**: the buffer is as large as the kernel is told, and ends where the memory that was allocated ends. -/
theorem C90_buffer_fits (a : SearchArgs) (h : InRange a) :
    112 + leAt (argsMem a) 104 8 = argsSize maxBufSize ∧ bufOffset = 112 := by
  rw [(C90_request_memory a h).buf_size]
  exact ⟨by decide, by decide⟩

/-! ### the reply -/

/-- the requests the evaluator makes are in range -/
theorem keyArg_range {k : StructVal} {f : Str} {bits n : Nat} (h : keyArg k f bits = .ok n) : n < 2 ^ bits := by
  simp only [keyArg, bind, Except.bind] at h
  repeat' split at h
  all_goals first | (cases h; done) | skip
  all_goals
    unfold tryUnsigned at h
    split at h
    · split at h
      · simp only [Except.ok.injEq] at h; omega
      · cases h
    · cases h

theorem C90_requests_in_range (tree : Int) (key : StructVal) (a : SearchArgs) (h : searchArgs tree key = .ok a) : InRange a := by
  simp only [searchArgs, bind, Except.bind] at h
  repeat' split at h
  all_goals first | (cases h; done) | skip
  simp only [Except.ok.injEq] at h
  subst h
  rename_i h1 _ _ h2 _ _ h3 _ _ h4 _ _ h5 _ _ h6 _ _ h7 _ _ h8 _ _ h9
  have ht : ∀ {x : Int} {n : Nat}, tryUnsigned 64 x = .ok n → n < 2 ^ 64 := by
    intro x n h
    unfold tryUnsigned at h
    split at h
    · split at h
      · simp only [Except.ok.injEq] at h; omega
      · cases h
    · cases h
  have := keyArg_range h2
  have := keyArg_range h3
  have := keyArg_range h4
  have := keyArg_range h5
  have := keyArg_range h6
  have := keyArg_range h7
  have := keyArg_range h8
  have := keyArg_range h9
  have := ht h1
  simp only [InRange, List.mem_cons, List.not_mem_nil, or_false, forall_eq_or_imp, forall_eq]
  refine ⟨⟨?_, ?_, ?_, ?_, ?_, ?_, ?_⟩, ?_, ?_⟩ <;> assumption

/-- a reply seen through the struct of the tool -/
theorem kernelOf_serves {M : Machine} {trees : Trees} (h : Serves M trees) (i : Nat) (a : SearchArgs) (ha : InRange a) :
    ∃ buf q rest, kernelOf M i a = .data q.length buf ∧ Holds buf 0 q ∧ matching trees a = q ++ rest ∧ (q = [] → rest = []) := by
  obtain ⟨m', q, rest, h1, h2, h3, h4, h5⟩ := h i (argsMem a) a (C90_request_memory a ha)
  have e1 : fieldPlace s!' "nr_items" = (64, 4) := by decide
  have e2 : bufOffset = 112 := by decide
  refine ⟨fun j => m' (112 + j), q, rest, ?_, h3, h4, h5⟩
  simp only [kernelOf, C90_request_number, h1, getKey, e1, h2, e2]

/-- the kernel for requests in range, and some honest kernel for the others, which are never made -/
def servedKernel (M : Machine) (trees : Trees) : Kernel := fun i a =>
  if InRange a then kernelOf M i a else batchKernel trees (fun _ => 1) i a

theorem servedKernel_honours {M : Machine} {trees : Trees} (h : Serves M trees) (hs : ∀ t, ∀ it ∈ trees t, Storable it) :
    Honours (servedKernel M trees) trees := by
  intro i a
  unfold servedKernel
  split
  · rename_i ha
    exact kernelOf_serves h i a ha
  · exact batchKernel_honours trees hs (fun _ => 1) i a

/-- the fields of the headers of items that were read fit their types -/
def Narrow64 (ret : List Item) : Prop := ∀ it ∈ ret, it.1.objectid < 2 ^ 64

theorem extractItems_narrow (buf : Mem) : ∀ (n off : Nat) (ret : List Item) (c : Nat) (r : List Item × Nat),
    extractItems buf n off ret c = .ok r → Narrow64 ret → Narrow64 r.1 := by
  intro n
  induction n with
  | zero => intro off ret c r h hr; simp only [extractItems, Except.ok.injEq] at h; subst h; exact hr
  | succ n ih =>
    intro off ret c r h hr
    rw [extractItems] at h
    split at h
    · simp only at h
      split at h
      · split at h
        · exact ih _ _ _ _ h hr
        · refine ih _ _ _ _ h ?_
          intro it hit
          rcases List.mem_append.1 hit with hit | hit
          · exact hr it hit
          · simp only [List.mem_singleton] at hit
            subst hit
            simp only [readHeader, leNat_bufRead]
            exact leAt_lt _ 8 _
      · cases h
    · cases h

theorem foldl_header_mem : ∀ (its : List Item) (m : Header),
    its.foldl (fun m x => if Header.keyLt x.1 m then m else x.1) m = m ∨
      ∃ it ∈ its, its.foldl (fun m x => if Header.keyLt x.1 m then m else x.1) m = it.1 := by
  intro its
  induction its with
  | nil => intro m; exact .inl rfl
  | cons x its ih =>
    intro m
    rw [List.foldl_cons]
    rcases ih (if Header.keyLt x.1 m then m else x.1) with h | ⟨it, h1, h2⟩
    · rw [h]
      split
      · exact .inl rfl
      · exact .inr ⟨x, by simp, rfl⟩
    · exact .inr ⟨it, by simp [h1], h2⟩

theorem largestKey_mem {ret : List Item} {h : Header} (hl : largestKey ret = .ok h) : ∃ it ∈ ret, h = it.1 := by
  cases ret with
  | nil => cases hl
  | cons it its =>
    simp only [largestKey, Except.ok.injEq] at hl
    rcases foldl_header_mem its it.1 with e | ⟨x, h1, h2⟩
    · exact ⟨it, by simp, by rw [← hl, e]⟩
    · exact ⟨x, by simp [h1], by rw [← hl, h2]⟩

/-- a search makes only requests in range -/
theorem searchLoop_range {k k' : Kernel} (hk : ∀ i a, InRange a → k i a = k' i a) (retry : Bool) :
    ∀ (fuel i : Nat) (a : SearchArgs) (ret : List Item) (c : Nat), InRange a → Narrow64 ret →
      searchLoop k retry fuel i a ret c = searchLoop k' retry fuel i a ret c := by
  intro fuel
  induction fuel with
  | zero => intros; rfl
  | succ fuel ih =>
    intro i a ret c ha hr
    rw [searchLoop, searchLoop, hk i a ha]
    cases hk' : k' i a with
    | errno => rfl
    | data nr buf =>
      simp only
      cases hx : extractItems buf nr 0 ret c with
      | error e => rfl
      | ok r =>
        obtain ⟨ret', c'⟩ := r
        have hn := extractItems_narrow buf nr 0 ret c _ hx hr
        simp only at hn ⊢
        split
        · rfl
        · cases hl : largestKey ret' with
          | error e => rfl
          | ok h =>
            simp only
            obtain ⟨it, hit, rfl⟩ := largestKey_mem hl
            split
            · rename_i hty
              split
              · rename_i ho
                refine ih _ _ _ _ ?_ hn
                have := hn it hit
                simp only [InRange, List.mem_cons, List.not_mem_nil, or_false, forall_eq_or_imp, forall_eq] at ha ⊢
                refine ⟨⟨ha.1.1, this, ha.1.2.2.1, ho, ha.1.2.2.2.2⟩, hty, ha.2.2⟩
              · rfl
            · rfl

theorem search_served (M : Machine) (trees : Trees) (fuel : Nat) (a : SearchArgs) (ha : InRange a) :
    Fs.search fuel (.mounted (kernelOf M)) a = Fs.search fuel (.mounted (servedKernel M trees)) a := by
  simp only [Fs.search]
  rw [searchLoop_range (k := kernelOf M) (k' := servedKernel M trees) (fun i a h => by simp [servedKernel, h]) _ fuel 0 a [] 0 ha
    (by intro it h; cases h)]

/-- **C90**: against an operating system that serves the requests of the header, the answers are understood: a search
with an upper bound returns exactly the items asked for (offsets below the largest; see C60), however they are split
over calls. -/
theorem C90_search_complete (M : Machine) (trees : Trees) (hw : WellOrdered trees) (hs : ∀ t, ∀ it ∈ trees t, Storable it)
    (hM : Serves M trees) (a : SearchArgs) (ha : InRange a) (hb : Bounded a)
    (ho : ∀ it ∈ matching trees a, it.1.offset < 2 ^ 64 - 1) (fuel : Nat) (hf : (matching trees a).length < fuel) :
    Fs.search fuel (.mounted (kernelOf M)) a = .ok (matching trees a) := by
  rw [search_served M trees fuel a ha]
  exact C60_bounded_complete_partial _ trees hw (servedKernel_honours hM hs) a hb ho fuel hf

/-- **C90**: a search without an upper bound returns the items of the first reply. -/
theorem C90_search_first_reply (M : Machine) (trees : Trees) (hw : WellOrdered trees)
    (hs : ∀ t, ∀ it ∈ trees t, Storable it) (hM : Serves M trees) (a : SearchArgs) (ha : InRange a) (hb : ¬ Bounded a)
    (fuel : Nat) (hf : 0 < fuel) :
    ∃ q m', M 0 treeSearchV2 (argsMem a) = .done m' ∧ leAt m' 64 4 = q.length ∧ Holds (fun j => m' (112 + j)) 0 q ∧
      q <+: matching trees a ∧ Fs.search fuel (.mounted (kernelOf M)) a = .ok q := by
  obtain ⟨q, buf, h1, h2, h3, h4, -⟩ := C60_unbounded_partial _ trees hw (servedKernel_honours hM hs) a hb fuel hf
  rw [← search_served M trees fuel a ha] at h4
  simp only [servedKernel, ha, if_true, kernelOf, C90_request_number] at h1
  cases hm : M 0 treeSearchV2 (argsMem a) with
  | errno => rw [hm] at h1; cases h1
  | done m' =>
    rw [hm] at h1
    simp only [Reply.data.injEq] at h1
    have e1 : fieldPlace s!' "nr_items" = (64, 4) := by decide
    have e2 : bufOffset = 112 := by decide
    obtain ⟨h1, rfl⟩ := h1
    simp only [getKey, e1] at h1
    simp only [e2] at h2
    exact ⟨q, m', rfl, h1, h2, h3, h4⟩

/-- **C90**: the machine is asked nothing but this request: how it answers to others makes no difference. -/
theorem C90_only_request (M M' : Machine) (h : ∀ i m, M i treeSearchV2 m = M' i treeSearchV2 m) : kernelOf M = kernelOf M' := by
  funext i a
  simp only [kernelOf, C90_request_number, h]

/-! ### a machine that serves -/

/-- the parameters in memory, at the kernel's offsets -/
def requested (m : Mem) : SearchArgs :=
  ⟨leAt m 0 8, leAt m 8 8, leAt m 16 8, leAt m 56 4, leAt m 60 4, leAt m 24 8, leAt m 32 8, leAt m 40 8, leAt m 48 8⟩

/-- the machine that replies to call `i` with up to `sizes i + 1` of the items asked for, and fails for other numbers -/
def batchMachine (trees : Trees) (sizes : Nat → Nat) : Machine := fun i req m =>
  if req = treeSearchV2 then
    let q := fit (sizes i + 1) bufSize (matching trees (requested m))
    .done (fun j => if j < 112 then store m 64 4 q.length j else mem (encodeItems q) (j - 112))
  else .errno

theorem encodeItems_count : ∀ q : List Item, 32 * q.length ≤ (encodeItems q).length
  | [] => by simp
  | it :: q => by
    have := encodeItems_count q
    simp only [encodeItems, List.length_append, encodeHeader_length, List.length_cons]
    omega

theorem batchMachine_serves (trees : Trees) (hs : ∀ t, ∀ it ∈ trees t, Storable it) (sizes : Nat → Nat) :
    Serves (batchMachine trees sizes) trees := by
  intro i m a ha
  have hr : requested m = a := by
    simp only [requested, ha.tree_id, ha.min_objectid, ha.max_objectid, ha.min_offset, ha.max_offset, ha.min_transid,
      ha.max_transid, ha.min_type, ha.max_type]
  obtain ⟨buf, q, rest, h1, h2, h3, h4⟩ := batchKernel_honours trees hs sizes i a
  simp only [batchKernel, Reply.data.injEq] at h1
  obtain ⟨h1, rfl⟩ := h1
  have hroom := fit_room (matching trees a) (sizes i + 1) bufSize
  have hc := encodeItems_count (fit (sizes i + 1) bufSize (matching trees a))
  have hbs : bufSize = 16777216 := rfl
  have hq : q.length < 256 ^ 4 := by rw [← h1]; omega
  refine ⟨fun j => if j < 112 then store m 64 4 (fit (sizes i + 1) bufSize (matching trees a)).length j
      else mem (encodeItems (fit (sizes i + 1) bufSize (matching trees a))) (j - 112), q, rest,
    by simp only [batchMachine, if_true, hr], ?_, ?_, h3, h4⟩
  · rw [← leAt_store 4 64 q.length m hq]
    apply leAt_shift
    intro j hj
    simp only [h1]
    rw [if_pos (by omega)]
  · have : (fun j => if 112 + j < 112 then store m 64 4 (fit (sizes i + 1) bufSize (matching trees a)).length (112 + j)
        else mem (encodeItems (fit (sizes i + 1) bufSize (matching trees a))) (112 + j - 112)) =
        mem (encodeItems (fit (sizes i + 1) bufSize (matching trees a))) := by
      funext j
      rw [if_neg (by omega), Nat.add_sub_cancel_left]
    rw [this]
    exact h2

/-- witness: a search for two of three items on a machine that reports one item per call -/
example : Serves (batchMachine sampleTrees fun _ => 0) sampleTrees ∧
    Fs.search 3 (.mounted (kernelOf (batchMachine sampleTrees fun _ => 0))) ⟨5, 256, 256, 0, 255, 0, 2 ^ 64 - 1, 0, 2 ^ 64 - 1⟩ =
      .ok (sampleItems.take 2) := by
  have h := batchMachine_serves sampleTrees sampleTrees_ok.2 fun _ => 0
  refine ⟨h, ?_⟩
  have hm : matching sampleTrees ⟨5, 256, 256, 0, 255, 0, 2 ^ 64 - 1, 0, 2 ^ 64 - 1⟩ = sampleItems.take 2 := by decide
  rw [C90_search_complete _ _ sampleTrees_ok.1 sampleTrees_ok.2 h _ (by decide) (by simp [Bounded])
    (by rw [hm]; decide) 3 (by rw [hm]; decide), hm]

end Btrd
