/-
C60-C64, C69, C72: searching a mounted filesystem, accepting a filesystem, selecting one.
-/
import Verif.Lemmas.SearchKernel
import Verif.Lemmas.Display
import Verif.Props.Builtins

namespace Btrd
open Spec

theorem retry_iff (a : SearchArgs) : (decide (a.maxObjectid ≠ u64Max) || decide (a.maxType ≠ u8Max) ||
      decide (a.maxOffset ≠ u64Max) || decide (a.maxTransid ≠ u64Max)) = true ↔ Bounded a := by
  have h1 : u64Max = 2 ^ 64 - 1 := by decide
  have h2 : u8Max = 2 ^ 8 - 1 := by decide
  have e : ∀ m : Nat, ((m : Int) = 2 ^ 64 - 1 ↔ m = 2 ^ 64 - 1) := fun m => by omega
  have e' : ∀ m : Nat, ((m : Int) = 2 ^ 8 - 1 ↔ m = 2 ^ 8 - 1) := fun m => by omega
  simp only [Bounded, Bool.or_eq_true, decide_eq_true_eq]
  simp only [h1, h2, e, e', ne_eq]
  by_cases a.maxObjectid = 2 ^ 64 - 1 <;> by_cases a.maxType = 2 ^ 8 - 1 <;>
    by_cases a.maxOffset = 2 ^ 64 - 1 <;> by_cases a.maxTransid = 2 ^ 64 - 1 <;> simp [*]

theorem search_bounded (fuel : Nat) (k : Kernel) (a : SearchArgs) (h : Bounded a) :
    Fs.search fuel (.mounted k) a =
      match searchLoop k true fuel 0 a [] 0 with
      | .error e => .error e
      | .ok (ret, collisions) => if collisions ≠ 0 then R.err (.collisions collisions) else .ok ret := by
  simp only [Fs.search, (retry_iff a).2 h]
  rfl

theorem search_unbounded (fuel : Nat) (k : Kernel) (a : SearchArgs) (h : ¬ Bounded a) :
    Fs.search fuel (.mounted k) a =
      match searchLoop k false fuel 0 a [] 0 with
      | .error e => .error e
      | .ok (ret, collisions) => if collisions ≠ 0 then R.err (.collisions collisions) else .ok ret := by
  have : ¬ (decide (a.maxObjectid ≠ u64Max) || decide (a.maxType ≠ u8Max) ||
      decide (a.maxOffset ≠ u64Max) || decide (a.maxTransid ≠ u64Max)) = true := fun h' => h ((retry_iff a).1 h')
  simp only [Bool.not_eq_true] at this
  simp only [Fs.search, this]
  rfl

/-! ### C60: completeness -/

/-- **C60**, the requests with an upper bound: against any kernel that keeps its promise, however it splits
the items over calls, the search ends and returns exactly the items asked for, in key order. Missing:
items with the largest offset there is (`C60_negation_largest_offset`), and requests without any upper
bound (`C60_negation_unbounded`). -/
theorem C60_bounded_complete_partial (k : Kernel) (trees : Trees) (hw : WellOrdered trees) (hk : Honours k trees)
    (a : SearchArgs) (hb : Bounded a) (ho : ∀ it ∈ matching trees a, it.1.offset < 2 ^ 64 - 1)
    (fuel : Nat) (hf : (matching trees a).length < fuel) :
    Fs.search fuel (.mounted k) a = .ok (matching trees a) := by
  rw [search_bounded fuel k a hb]
  have hs : ([] ++ matching trees a).Pairwise (fun a b => KeyLt (keyOf a) (keyOf b)) := (hw a.treeId).1.filter _
  rw [searchLoop_complete hk hw fuel 0 a [] (matching trees a) 0 rfl hs
    (fun it h => by have := ho it h; omega) hf]
  simp

/-- **C60**, the requests without an upper bound, which is what `key()` makes: the search makes one call
and returns what that call reported; so it is complete exactly when the kernel did not split. -/
theorem C60_unbounded_partial (k : Kernel) (trees : Trees) (hw : WellOrdered trees) (hk : Honours k trees)
    (a : SearchArgs) (hb : ¬ Bounded a) (fuel : Nat) (hf : 0 < fuel) :
    ∃ q buf, k 0 a = .data q.length buf ∧ Holds buf 0 q ∧ q <+: matching trees a ∧
      Fs.search fuel (.mounted k) a = .ok q ∧
      (Fs.search fuel (.mounted k) a = .ok (matching trees a) ↔ q.length = (matching trees a).length) := by
  obtain ⟨buf, q, rest, hr, hh, hq, -⟩ := hk 0 a
  have hs : (matching trees a).Pairwise (fun a b => KeyLt (keyOf a) (keyOf b)) := (hw a.treeId).1.filter _
  have hd : ((([] : List Item) ++ q).map (·.1)).Nodup := by
    apply sorted_headers_nodup
    rw [hq] at hs
    exact (List.pairwise_append.1 hs).1
  have hx := extractItems_holds buf q 0 [] 0 hh
  rw [merge_distinct q [] 0 hd] at hx
  have hres : Fs.search fuel (.mounted k) a = .ok q := by
    rw [search_unbounded fuel k a hb]
    match fuel, hf with
    | fuel + 1, _ =>
      rw [searchLoop, hr]
      simp only [hx]
      simp
  refine ⟨q, buf, hr, hh, ⟨rest, hq.symm⟩, hres, ?_⟩
  rw [hres, Except.ok.injEq]
  constructor
  · intro e; rw [← e]
  · intro e
    exact List.IsPrefix.eq_of_length ⟨rest, hq.symm⟩ e

/-- **C60**, as seen by a program: `search(tree, key)` with a bounded key yields the decoded values of exactly
the items asked for, in key order (or fails to decode one of them). -/
theorem C60_search_expression_partial (cfg : Cfg) (st : State) (f e₀ e₁ : Expr) (k : Kernel) (trees : Trees)
    (hw : WellOrdered trees) (hk : Honours k trees) (tree a A t T o O g G : Nat) (key : StructVal)
    (hf : evalExpr cfg st f = .ok (.func .search)) (hfs : st.fs = some (.mounted k))
    (h₀ : evalExpr cfg st e₀ = .ok (.int tree))
    (h₁ : evalExpr cfg st e₁ = .ok (.struct s!' "_btrfs_ioctl_search_key" key.key key.fields))
    (hkey : KeyValues key a A t T o O g G)
    (hr : (∀ x ∈ [tree, a, A, o, O, g, G], x < 2 ^ 64) ∧ ∀ x ∈ [t, T], x < 2 ^ 8)
    (hb : Bounded ⟨tree, a, A, t, T, o, O, g, G⟩)
    (ho : ∀ it ∈ matching trees ⟨tree, a, A, t, T, o, O, g, G⟩, it.1.offset < 2 ^ 64 - 1)
    (hfuel : (matching trees ⟨tree, a, A, t, T, o, O, g, G⟩).length < cfg.fuel) :
    (∀ vs, decodeItems cfg.build (matching trees ⟨tree, a, A, t, T, o, O, g, G⟩) = .ok vs →
      evalExpr cfg st (.call f [e₀, e₁]) = .ok (.array vs false)) ∧
    ∀ e, decodeItems cfg.build (matching trees ⟨tree, a, A, t, T, o, O, g, G⟩) = .error e →
      evalExpr cfg st (.call f [e₀, e₁]) = .error e :=
  (C49_in_range cfg st f e₀ e₁ (.mounted k) tree a A t T o O g G key hf hfs h₀ h₁ hkey hr).2 _
    (C60_bounded_complete_partial k trees hw hk _ hb ho cfg.fuel hfuel)

/-- **C60 is false of the code** for items with the largest offset: if the last item asked for has it, a
search with an upper bound fails on every kernel that keeps its promise (or, in the model, is cut short by
its bound on calls); it never returns anything. -/
theorem C60_negation_largest_offset (k : Kernel) (trees : Trees) (hw : WellOrdered trees) (hk : Honours k trees)
    (a : SearchArgs) (hb : Bounded a) (before : List Item) (last : Item)
    (hm : matching trees a = before ++ [last]) (ho : last.1.offset = 2 ^ 64 - 1) (fuel : Nat) :
    Fs.search fuel (.mounted k) a = .error (.err .bumpOffset) ∨ Fs.search fuel (.mounted k) a = R.diverge := by
  rw [search_bounded fuel k a hb]
  have hs : ([] ++ matching trees a).Pairwise (fun a b => KeyLt (keyOf a) (keyOf b)) := (hw a.treeId).1.filter _
  rw [hm] at hs
  rcases searchLoop_last_offset hk hw fuel 0 a [] before last 0 hm hs (by omega) with h | h
  · right; rw [h]
  · left; rw [h]

/-- three small items, in key order -/
def sampleItems : List Item :=
  [(⟨7, 256, 0, 1, 2⟩, [1, 2]), (⟨7, 256, 256, 12, 3⟩, [3, 4, 5]), (⟨8, 257, 0, 1, 1⟩, [6])]

/-- ... in tree 5 -/
def sampleTrees : Trees := fun t => if t = 5 then sampleItems else []

theorem sampleTrees_ok : WellOrdered sampleTrees ∧ ∀ t, ∀ it ∈ sampleTrees t, Storable it := by
  refine ⟨?_, ?_⟩
  · intro t
    by_cases h : t = 5
    · simp only [sampleTrees, if_pos h]; decide
    · simp only [sampleTrees, if_neg h]; simp
  · intro t
    by_cases h : t = 5
    · simp only [sampleTrees, if_pos h]; decide
    · simp only [sampleTrees, if_neg h]; simp

/-- everything in tree 5 -/
def allOfTree5 : SearchArgs := ⟨5, 0, 2 ^ 64 - 1, 0, 255, 0, 2 ^ 64 - 1, 0, 2 ^ 64 - 1⟩

/-- **C60 is false of the code** for requests without an upper bound: a kernel that keeps its promise and
reports one item per call; the search succeeds with one item of three. -/
theorem C60_negation_unbounded :
    ∃ k, Honours k sampleTrees ∧ (matching sampleTrees allOfTree5).length = 3 ∧
      ∀ fuel, 0 < fuel → ∃ it, Fs.search fuel (.mounted k) allOfTree5 = .ok [it] := by
  refine ⟨batchKernel sampleTrees (fun _ => 0), batchKernel_honours _ sampleTrees_ok.2 _, by decide, ?_⟩
  intro fuel hf
  obtain ⟨q, buf, h1, -, -, h4, -⟩ := C60_unbounded_partial (batchKernel sampleTrees (fun _ => 0)) sampleTrees
    sampleTrees_ok.1 (batchKernel_honours _ sampleTrees_ok.2 _) allOfTree5 (by unfold Bounded; decide) fuel hf
  have hl : q.length = 1 := by
    simp only [batchKernel, Reply.data.injEq] at h1
    rw [← h1.1]
    decide
  match q, hl with
  | [it], _ => exact ⟨it, h4⟩

/-- witness: the same items with the upper bound 2^64-2 for the transaction are found by any schedule -/
example (sizes : Nat → Nat) : Fs.search 4 (.mounted (batchKernel sampleTrees sizes))
    { allOfTree5 with maxTransid := 2 ^ 64 - 2 } = .ok sampleItems :=
  C60_bounded_complete_partial _ sampleTrees sampleTrees_ok.1 (batchKernel_honours _ sampleTrees_ok.2 sizes) _
    (by unfold Bounded; decide) (by decide) 4 (by decide)

/-- witness: a filesystem with an item of the largest offset -/
example : ∃ trees : Trees, WellOrdered trees ∧ (∀ t, ∀ it ∈ trees t, Storable it) ∧
    matching trees { allOfTree5 with maxTransid := 2 ^ 64 - 2 } = [] ++ [(⟨7, 256, 2 ^ 64 - 1, 1, 1⟩, [9])] := by
  refine ⟨fun t => if t = 5 then [(⟨7, 256, 2 ^ 64 - 1, 1, 1⟩, [9])] else [], ?_, ?_, by decide⟩
  · intro t
    by_cases h : t = 5
    · simp only [if_pos h]; decide
    · simp only [if_neg h]; simp
  · intro t
    by_cases h : t = 5
    · simp only [if_pos h]; decide
    · simp only [if_neg h]; simp

/-- a state with a mounted filesystem that has a block group item in tree 5 -/
def mountedState : State :=
  { State.new demo none with
    fs := some (.mounted (batchKernel (fun t => if t = 5 then [(⟨7, 4096, 8192, 192, 24⟩, List.replicate 24 1)] else [])
      (fun _ => 0))) }

/-- `search(5, key(0, 0, 0, 0))` -/
def searchAll : Expr :=
  .call (.ident s!' "search") [.int 5, .call (.ident s!' "key") [.int 0, .int 0, .int 0, .int 0]]

set_option maxRecDepth 100000 in
/-- witness (C48, C49, C60): it is found, decoded, and has its key; and it cannot be found in tree `2^64` -/
example : (match evalExpr demo mountedState searchAll with
    | .ok (.array [.struct n (some (4096, 192, 8192)) _] false) => n == s!' "btrfs_block_group_item"
    | _ => false) = true ∧
    (match evalExpr demo mountedState (.call (.ident s!' "keyof") [.index searchAll (.int 0)]) with
    | .ok (.struct _ none [(_, .int 4096), (_, .int 192), (_, .int 8192)]) => true
    | _ => false) = true := by
  constructor <;> decide +kernel

/-! ### C61, C62: arbitrary replies -/

/-- **C62** Whatever the replies of the kernel are, a search that succeeds returns, in order, exactly the
items that the replies hold: each header and each payload within the buffer, each payload as long as its
header says. `qs` are the items call by call. -/
theorem C62_search_reads_the_buffers (k : Kernel) (fuel : Nat) (a : SearchArgs) (ret : List Item)
    (h : Fs.search fuel (.mounted k) a = .ok ret) :
    ∃ qs : List (List Item), ret = qs.flatten ∧
      ∀ i (hi : i < qs.length), ∃ a' buf, k i a' = .data qs[i].length buf ∧ Holds buf 0 qs[i] := by
  simp only [Fs.search] at h
  split at h
  · simp at h
  · rename_i ret' c heq
    obtain ⟨qs, h1, h2⟩ := searchLoop_inv k _ fuel 0 a [] 0 _ heq
    split at h
    · simp at h
    · rename_i hc
      simp only [Except.ok.injEq] at h
      subst h
      have hz : (merge [] 0 qs.flatten).2 = 0 := by
        rw [← h2]; simpa using hc
      refine ⟨qs, ?_, ?_⟩
      · have := merge_all qs.flatten [] 0 hz
        rw [← h2] at this
        simpa using this
      · have key : ∀ (qs : List (List Item)) (j : Nat), Batches k j qs → ∀ i (hi : i < qs.length),
            ∃ a' buf, k (j + i) a' = .data qs[i].length buf ∧ Holds buf 0 qs[i] := by
          intro qs
          induction qs with
          | nil => intro j _ i hi; simp at hi
          | cons q qs ih =>
            intro j hb i hi
            simp only [Batches] at hb
            cases i with
            | zero => exact hb.1
            | succ i =>
              have := ih (j + 1) hb.2 i (by simpa using hi)
              simpa [Nat.add_assoc, Nat.add_comm 1] using this
        intro i hi
        have := key qs 0 h1 i hi
        simpa using this

/-- **C62** A first reply that claims more items than its buffer holds makes the search fail. -/
theorem C62_short_buffer (k : Kernel) (fuel : Nat) (a : SearchArgs) (nr : Nat) (buf : Nat → UInt8)
    (hk : k 0 a = .data nr buf) (hn : ¬ ∃ q : List Item, q.length = nr ∧ Holds buf 0 q) (hf : 0 < fuel) :
    ∃ payload, Fs.search fuel (.mounted k) a = .error (.err (.searchShort payload)) := by
  match fuel, hf with
  | fuel + 1, _ =>
    simp only [Fs.search]
    rw [searchLoop, hk]
    cases hx : extractItems buf nr 0 [] 0 with
    | ok r =>
      obtain ⟨q, h1, h2, -⟩ := extractItems_inv buf nr 0 [] 0 r hx
      exact absurd ⟨q, h1, h2⟩ hn
    | error e =>
      obtain ⟨p, rfl⟩ := extractItems_err buf nr 0 [] 0 e hx
      exact ⟨p, by simp only [hx]⟩

/-- **C62** Which items a buffer holds is determined by the buffer and their number. -/
theorem C62_determined (buf : Mem) (q q' : List Item) (h : Holds buf 0 q) (h' : Holds buf 0 q')
    (hl : q.length = q'.length) : q = q' := h.unique h' hl

/-- **C62** Every returned payload has the length its header states. -/
theorem C62_payload_length (k : Kernel) (fuel : Nat) (a : SearchArgs) (ret : List Item)
    (h : Fs.search fuel (.mounted k) a = .ok ret) : ∀ it ∈ ret, it.2.length = it.1.len := by
  obtain ⟨qs, rfl, hq⟩ := C62_search_reads_the_buffers k fuel a ret h
  have key : ∀ (q : List Item) (buf : Mem) (off : Nat), Holds buf off q → ∀ it ∈ q, it.2.length = it.1.len := by
    intro q
    induction q with
    | nil => intro buf off _ it hit; simp at hit
    | cons x q ih =>
      intro buf off hh it hit
      obtain ⟨hd, p⟩ := x
      simp only [Holds] at hh
      rcases List.mem_cons.1 hit with rfl | hit
      · exact hh.2.2.2.2.2.2.1.symm
      · exact ih buf _ hh.2.2.2.2.2.2.2.2 it hit
  intro it hit
  obtain ⟨q, hmem, hin⟩ := List.mem_flatten.1 hit
  obtain ⟨i, hi, rfl⟩ := List.getElem_of_mem hmem
  obtain ⟨a', buf, -, hh⟩ := hq i hi
  exact key _ buf 0 hh it hin

/-- witness: a reply that claims one item more than fits: a payload of 2^32-1 bytes -/
example : ¬ ∃ q : List Item, q.length = 1 ∧ Holds (fun _ => 255) 0 q := by
  rintro ⟨q, h1, h2⟩
  match q, h1 with
  | [(hd, p)], _ =>
    simp only [Holds] at h2
    have h3 := h2.1
    have h4 := h2.2.2.2.2.2.1
    rw [h2.2.2.2.2.2.2.1] at h4
    have : leAt (fun _ => 255) (0 + 28) 4 = 4294967295 := by decide
    simp only [bufSize] at h3
    omega

/-- **C61** Whatever the replies of the kernel are, all headers a search returns are different. -/
theorem C61_no_duplicates (k : Kernel) (fuel : Nat) (a : SearchArgs) (ret : List Item)
    (h : Fs.search fuel (.mounted k) a = .ok ret) : (ret.map (·.1)).Nodup := by
  simp only [Fs.search] at h
  split at h
  · simp at h
  · rename_i ret' c heq
    obtain ⟨qs, h1, h2⟩ := searchLoop_inv k _ fuel 0 a [] 0 _ heq
    split at h
    · simp at h
    · simp only [Except.ok.injEq] at h
      subst h
      have := merge_nodup qs.flatten [] 0 (by simp)
      rw [← h2] at this
      exact this

/-- **C61** A first reply that reports a header twice makes a search fail (it is not dropped silently). -/
theorem C61_duplicates_are_an_error (k : Kernel) (fuel : Nat) (a : SearchArgs) (q : List Item) (buf : Nat → UInt8)
    (hk : k 0 a = .data q.length buf) (hh : Holds buf 0 q) (hd : ¬ (q.map (·.1)).Nodup) (ret : List Item) :
    Fs.search fuel (.mounted k) a ≠ .ok ret := by
  intro h
  have hn := C61_no_duplicates k fuel a ret h
  simp only [Fs.search] at h
  split at h
  · simp at h
  · rename_i ret' c heq
    split at h
    · simp at h
    · rename_i hc
      match fuel with
      | 0 => simp [searchLoop] at heq
      | fuel + 1 =>
        rw [searchLoop, hk] at heq
        simp only [extractItems_holds buf q 0 [] 0 hh] at heq
        have hpos : (merge [] 0 q).2 ≠ 0 := by
          intro hz
          apply hd
          have h1 := merge_all q [] 0 hz
          have h2 := merge_nodup q [] 0 (by simp)
          rw [h1] at h2
          simpa using h2
        have mono : ∀ fuel i args ret c r, searchLoop k (decide (a.maxObjectid ≠ u64Max) || decide (a.maxType ≠ u8Max) ||
            decide (a.maxOffset ≠ u64Max) || decide (a.maxTransid ≠ u64Max)) fuel i args ret c = .ok r → c ≤ r.2 := by
          intro fuel i args ret c r hr
          obtain ⟨qs, -, h2⟩ := searchLoop_inv k _ fuel i args ret c r hr
          rw [h2]
          exact merge_count _ _ _
        split at heq
        · simp only [Except.ok.injEq] at heq
          simp only [Prod.mk.injEq] at heq
          rw [heq.2] at hpos
          exact hc hpos
        · cases hl : largestKey (merge [] 0 q).1 with
          | error e => rw [hl] at heq; simp at heq
          | ok hd =>
            rw [hl] at heq
            simp only at heq
            split at heq
            · split at heq
              · have := mono _ _ _ _ _ _ heq
                simp only at this
                omega
              · simp at heq
            · simp at heq

/-- **C61**, unmounted images cannot be searched at all -/
theorem C61_unmounted (fuel : Nat) (img : Bytes) (a : SearchArgs) :
    Fs.search fuel (.unmounted img) a = .error (.err .searchUnmounted) := rfl

/-! ### C72: where headers are read -/

/-- the positions of the headers of the items in a buffer -/
def Spec.headerPositions : Nat → List Item → List Nat
  | _, [] => []
  | off, it :: its => off :: headerPositions (off + 32 + it.2.length) its

/-- **C72**, partial: if all payloads are multiples of eight bytes long, every header is at a multiple of
eight, where a pointer to it may be dereferenced. Missing: payloads of other lengths. -/
theorem C72_aligned_partial (q : List Item) (off : Nat) (ho : off % 8 = 0) (hq : ∀ it ∈ q, it.2.length % 8 = 0) :
    ∀ p ∈ headerPositions off q, p % 8 = 0 := by
  induction q generalizing off with
  | nil => intro p hp; simp [headerPositions] at hp
  | cons it q ih =>
    intro p hp
    simp only [headerPositions, List.mem_cons] at hp
    rcases hp with rfl | hp
    · exact ho
    · refine ih _ ?_ (fun x hx => hq x (List.mem_cons_of_mem _ hx)) p hp
      have := hq it (by simp)
      omega

/-- **C72 is false of the code**: an honest kernel's reply to a plain request puts the second header at
position 34, where the code forms a reference to a struct of alignment 8. -/
theorem C72_negation :
    ∃ k q buf, Honours k sampleTrees ∧ k 0 allOfTree5 = .data q.length buf ∧ Holds buf 0 q ∧
      34 ∈ headerPositions 0 q ∧ 34 % 8 ≠ 0 := by
  have hh := batchKernel_honours _ sampleTrees_ok.2 (fun _ => 2)
  obtain ⟨buf, q, rest, h1, h2, h3, -⟩ := hh 0 allOfTree5
  have hq : q = sampleItems := by
    have hl : q.length = 3 := by
      simp only [batchKernel, Reply.data.injEq] at h1
      rw [← h1.1]
      decide
    have hm : matching sampleTrees allOfTree5 = sampleItems := by decide
    rw [hm] at h3
    have : q <+: sampleItems := ⟨rest, h3.symm⟩
    exact this.eq_of_length (by rw [hl]; rfl)
  refine ⟨_, q, buf, hh, h1, h2, ?_, by decide⟩
  rw [hq]
  decide

/-! ### C63: which filesystems are accepted -/

/-- **C63** A directory is accepted exactly when its filesystem type is that of btrfs. -/
theorem C63_directory_iff (host : Host) (path : Str) (d : DirInfo) (hd : host.openDir path = some d) (fs : Fs) :
    Fs.new host path = .ok fs ↔ d.fsType = some 0x9123683e ∧ fs = .mounted d.kernel := by
  simp only [Fs.new, hd, Fs.newMounted]
  cases ht : d.fsType with
  | none => simp
  | some t =>
    simp only [Option.some.injEq]
    by_cases h : t = btrfsFsType
    · rw [if_pos h]
      have : t = 0x9123683e := h
      simp [this, eq_comm]
    · rw [if_neg h]
      have : ¬ t = 0x9123683e := h
      simp [this]

set_option maxRecDepth 100000 in
theorem byte_char (b : UInt8) : (Char.ofNat b.toNat).toNat = b.toNat :=
  forall_byte (P := fun b => (Char.ofNat b.toNat).toNat = b.toNat) (by decide) b

theorem magic_iff (img : Bytes) (loc : Nat) :
    (if loc + 8 ≤ img.length then (img.drop loc).take 8 == superblockMagic else false) = true ↔ magicAt img loc := by
  have hm : superblockMagic.map (fun b => Char.ofNat b.toNat) = s!' "_BHRfS_M" := by decide
  have hinj : ∀ (l : Bytes), l.map (fun b => Char.ofNat b.toNat) = s!' "_BHRfS_M" → l = superblockMagic := by
    intro l h
    rw [← hm] at h
    exact (List.map_inj_right (fun (a b : UInt8) (h : Char.ofNat a.toNat = Char.ofNat b.toNat) => by
      have h1 : (Char.ofNat a.toNat).toNat = a.toNat := byte_char _
      have h2 : (Char.ofNat b.toNat).toNat = b.toNat := byte_char _
      apply UInt8.toNat_inj.1
      rw [← h1, ← h2, h])).1 h
  constructor
  · intro h
    split at h
    · rw [beq_iff_eq] at h
      intro j c hc
      rw [← hm, List.getElem?_map] at hc
      rw [← hc, ← h, List.getElem?_take]
      have hj : j < 8 := by
        by_cases hj : j < 8
        · exact hj
        · rw [List.getElem?_eq_none (by simp [superblockMagic]; omega)] at hc
          simp at hc
      rw [if_pos hj, List.getElem?_drop]
    · simp at h
  · intro h
    have h7 := h 7 'M' rfl
    have hl : loc + 8 ≤ img.length := by
      cases hx : img[loc + 7]? with
      | none => rw [hx] at h7; simp at h7
      | some b => have := (List.getElem?_eq_some_iff.1 hx).1; omega
    rw [if_pos hl, beq_iff_eq]
    apply hinj
    apply List.ext_getElem?
    intro j
    by_cases hj : j < 8
    · have hc : s!' "_BHRfS_M"[j]? = some (s!' "_BHRfS_M"[j]'(by simpa using hj)) := List.getElem?_eq_getElem _
      rw [List.getElem?_map, List.getElem?_take, if_pos hj, List.getElem?_drop, h j _ hc, hc]
    · rw [List.getElem?_eq_none (by simp; omega), List.getElem?_eq_none (by simp; omega)]

/-- **C63** An image file is accepted exactly when the magic is at the primary superblock (64 KiB) or one of
the two mirrors (64 MiB, 256 GiB), 64 bytes into it. -/
theorem C63_image_iff (host : Host) (path : Str) (img : Bytes) (hd : host.openDir path = none)
    (hf : host.openFile path = some (some img)) (fs : Fs) :
    Fs.new host path = .ok fs ↔
      (magicAt img (65536 + 64) ∨ magicAt img (67108864 + 64) ∨ magicAt img (274877906944 + 64)) ∧
      fs = .unmounted img := by
  have hmag : hasSuperblockMagic img = true ↔
      (magicAt img (65536 + 64) ∨ magicAt img (67108864 + 64) ∨ magicAt img (274877906944 + 64)) := by
    unfold hasSuperblockMagic superblockLocs
    simp only [List.any_cons, List.any_nil, Bool.or_false, Bool.or_eq_true, magic_iff]
  simp only [Fs.new, hd, hf, Fs.newUnmounted]
  rw [← hmag]
  by_cases h : hasSuperblockMagic img = true
  · rw [if_pos h]; simp [h, eq_comm]
  · rw [if_neg h]; simp [h]

/-- **C63** Everything else is refused: what opens neither as a directory nor as a file, and what cannot be
mapped. -/
theorem C63_others (host : Host) (path : Str) (hd : host.openDir path = none)
    (hf : host.openFile path = none ∨ host.openFile path = some none) : ∃ e, Fs.new host path = .error (.err e) := by
  simp only [Fs.new, hd]
  rcases hf with hf | hf <;> rw [hf]
  · exact ⟨_, rfl⟩
  · exact ⟨_, rfl⟩

/-- **C63** A session starts with the filesystem of the working directory open exactly if the directory can be
opened and is on btrfs; searches then go to its kernel. -/
theorem C63_start (cfg : Cfg) (room : Option Nat) (cwd : Str) (hc : cfg.host.cwd = some cwd) (d : DirInfo)
    (hd : cfg.host.openDir cwd = some d) (fs : Fs) :
    (State.new cfg room).fs = some fs ↔ d.fsType = some 0x9123683e ∧ fs = .mounted d.kernel := by
  rw [← C63_directory_iff cfg.host cwd d hd fs]
  simp only [State.new, hc]
  cases Fs.new cfg.host cwd with
  | ok f => simp
  | error e => simp

/-- **C63** Without a working directory, or with one that cannot be opened, no filesystem is open. -/
theorem C63_start_none (cfg : Cfg) (room : Option Nat)
    (hc : ∀ cwd, cfg.host.cwd = some cwd → cfg.host.openDir cwd = none ∧ cfg.host.openFile cwd = none) :
    (State.new cfg room).fs = none := by
  simp only [State.new]
  cases h : cfg.host.cwd with
  | none => rfl
  | some cwd =>
    obtain ⟨h1, h2⟩ := hc cwd h
    simp only [Fs.new, h1, h2]

/-- witness: a host whose working directory is on btrfs -/
example (k : Kernel) : (State.new ⟨⟨false⟩, ⟨fun _ => some ⟨some 0x9123683e, k⟩, fun _ => none, some s!' "/mnt"⟩, true, 1⟩ none).fs =
    some (.mounted k) :=
  (C63_start _ none s!' "/mnt" rfl ⟨some 0x9123683e, k⟩ rfl _).2 ⟨rfl, rfl⟩

/-- witness: an image with the magic at 64 KiB + 64, and no other bytes -/
example : magicAt (List.replicate 65600 0 ++ superblockMagic) (65536 + 64) := by
  intro j c hc
  rw [List.getElem?_append_right (by rw [List.length_replicate]; omega), List.length_replicate,
    show 65536 + 64 + j - 65600 = j by omega]
  have hm : superblockMagic.map (fun b => Char.ofNat b.toNat) = s!' "_BHRfS_M" := by decide
  rw [← hm, List.getElem?_map] at hc
  exact hc

/-! ### C64: selecting a filesystem -/

/-- **C64** A `filesystem` statement that does not succeed changes nothing: the selected filesystem, the
variables and the output stay as they were. -/
theorem C64_failed_filesystem (cfg : Cfg) (st : State) (e : Expr) (h : (evalStmt cfg (.filesystem e) st).2 ≠ .ok) :
    (evalStmt cfg (.filesystem e) st).1 = st := by
  simp only [evalStmt, evalFilesystem] at h ⊢
  cases he : evalExpr cfg st e with
  | error f => rfl
  | ok v =>
    rw [he] at h
    simp only at h ⊢
    cases hs : v.asString true with
    | error f => rfl
    | ok path =>
      rw [hs] at h
      simp only at h ⊢
      cases hf : Fs.new cfg.host path with
      | error f => rfl
      | ok fs => rw [hf] at h; exact absurd rfl h

/-- **C64** One that succeeds changes the selected filesystem and nothing else. -/
theorem C64_successful_filesystem (cfg : Cfg) (st : State) (e : Expr)
    (h : (evalStmt cfg (.filesystem e) st).2 = .ok) :
    ∃ fs path, Fs.new cfg.host path = .ok fs ∧
      (evalStmt cfg (.filesystem e) st).1 = { st with fs := some fs } := by
  simp only [evalStmt, evalFilesystem] at h ⊢
  cases he : evalExpr cfg st e with
  | error f => rw [he] at h; simp at h
  | ok v =>
    rw [he] at h
    simp only at h ⊢
    cases hs : v.asString true with
    | error f => rw [hs] at h; simp at h
    | ok path =>
      rw [hs] at h
      simp only at h ⊢
      cases hf : Fs.new cfg.host path with
      | error f => rw [hf] at h; simp at h
      | ok fs => exact ⟨fs, path, hf, rfl⟩

/-- witness: on a host without any filesystem the statement fails -/
example : (evalStmt demo (.filesystem (.str s!' "/")) (State.new demo none)).2 ≠ .ok := by decide

/-! ### C69: the path that is opened -/

/-- what the `filesystem` statement does, given the path -/
theorem filesystem_path (cfg : Cfg) (st : State) (e : Expr) (s : Bytes) (he : evalExpr cfg st e = .ok (.str s)) :
    evalStmt cfg (.filesystem e) st =
      match Fs.new cfg.host (s.flatMap byteText) with
      | .error f => (st, .fail f)
      | .ok fs => ({ st with fs := some fs }, .ok) := by
  simp only [evalStmt, evalFilesystem, he, Value.asString, fromAscii_escape, escapeBytes_byteText]
  cases Fs.new cfg.host (s.flatMap byteText) <;> rfl

set_option maxRecDepth 100000 in
theorem byteText_plain (b : UInt8) (h : 32 ≤ b ∧ b ≤ 126 ∧ b ≠ 34 ∧ b ≠ 39 ∧ b ≠ 92) :
    byteText b = [Char.ofNat b.toNat] :=
  forall_byte (P := fun b => 32 ≤ b ∧ b ≤ 126 ∧ b ≠ 34 ∧ b ≠ 39 ∧ b ≠ 92 → byteText b = [Char.ofNat b.toNat])
    (by decide) b h

set_option maxRecDepth 100000 in
theorem byteText_special (b : UInt8) (h : ¬ (32 ≤ b ∧ b ≤ 126 ∧ b ≠ 34 ∧ b ≠ 39 ∧ b ≠ 92)) :
    2 ≤ (byteText b).length :=
  forall_byte (P := fun b => ¬ (32 ≤ b ∧ b ≤ 126 ∧ b ≠ 34 ∧ b ≠ 39 ∧ b ≠ 92) → 2 ≤ (byteText b).length)
    (by decide) b h

set_option maxRecDepth 100000 in
theorem byteText_pos (b : UInt8) : 1 ≤ (byteText b).length :=
  forall_byte (P := fun b => 1 ≤ (byteText b).length) (by decide) b

/-- **C69**, partial: a path of printable ASCII characters other than quotes and backslashes is the path
that is opened. Missing: all other paths, for which it is false (`C69_negation`). -/
theorem C69_plain_path_partial (cfg : Cfg) (st : State) (e : Expr) (s : Bytes)
    (he : evalExpr cfg st e = .ok (.str s))
    (hs : ∀ b ∈ s, 32 ≤ b ∧ b ≤ 126 ∧ b ≠ 34 ∧ b ≠ 39 ∧ b ≠ 92) :
    (evalStmt cfg (.filesystem e) st).2 = .ok ↔
      ∃ fs, Fs.new cfg.host (s.map fun b => Char.ofNat b.toNat) = .ok fs := by
  have : s.flatMap byteText = s.map fun b => Char.ofNat b.toNat := by
    clear he
    induction s with
    | nil => rfl
    | cons b s ih =>
      simp only [List.mem_cons, forall_eq_or_imp] at hs
      rw [List.flatMap_cons, List.map_cons, byteText_plain b hs.1, ih hs.2]
      rfl
  rw [filesystem_path cfg st e s he, this]
  cases Fs.new cfg.host (s.map fun b => Char.ofNat b.toNat) <;> simp

/-- **C69 is false of the code**: with any other byte in it, the path that is opened is a longer text than
the string. -/
theorem C69_negation (cfg : Cfg) (st : State) (e : Expr) (s : Bytes) (he : evalExpr cfg st e = .ok (.str s))
    (hs : ∃ b ∈ s, ¬ (32 ≤ b ∧ b ≤ 126 ∧ b ≠ 34 ∧ b ≠ 39 ∧ b ≠ 92)) :
    ∃ path : Str, s.length < path.length ∧
      ((evalStmt cfg (.filesystem e) st).2 = .ok ↔ ∃ fs, Fs.new cfg.host path = .ok fs) := by
  have hle : ∀ s : Bytes, s.length ≤ (s.flatMap byteText).length := by
    intro s
    induction s with
    | nil => simp
    | cons b s ih =>
      have := byteText_pos b
      simp only [List.flatMap_cons, List.length_append, List.length_cons]
      omega
  refine ⟨s.flatMap byteText, ?_, ?_⟩
  · clear he
    obtain ⟨b, hb, hbad⟩ := hs
    obtain ⟨l, r, rfl⟩ := List.append_of_mem hb
    have h1 := hle l
    have h2 := hle r
    have h3 := byteText_special b hbad
    simp only [List.flatMap_append, List.flatMap_cons, List.length_append, List.length_cons]
    omega
  · rw [filesystem_path cfg st e s he]
    cases Fs.new cfg.host (s.flatMap byteText) <;> simp

/-- **C69**, witness: a btrfs filesystem mounted at `/é` cannot be selected -/
theorem C69_negation_witness :
    ∃ host : Host, (∃ fs, Fs.new host s!' "/é" = .ok fs) ∧ ∀ st : State,
      (evalStmt { demo with host := host } (.filesystem (.str s!' "/é")) st).2 = .fail (.err (.neitherFs s!' "/\\xc3\\xa9")) := by
  refine ⟨⟨fun p => if p = s!' "/é" then some ⟨some 0x9123683e, fun _ _ => .errno⟩ else none, fun _ => none, none⟩,
    ⟨_, rfl⟩, ?_⟩
  intro st
  rw [filesystem_path _ st _ (utf8 s!' "/é") (by rw [evalExpr])]
  rfl

end Btrd
