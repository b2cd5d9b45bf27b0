/-
C102, C103: the requests of a search, and searching a filesystem that is written to.
-/
import Verif.Lemmas.Changing
import Verif.Spec.Changing
import Verif.Props.Forever
import Mathlib.Data.List.Nodup

namespace Btrd
open Spec

theorem searchRetry_iff (a : SearchArgs) : searchRetry a = true ↔ Bounded a := retry_iff a

theorem requested_iff {fuel : Nat} {k : Kernel} {a : SearchArgs} {as : List SearchArgs} (h : askedLoop k (searchRetry a) fuel 0 a [] 0 = as) :
    Requested fuel k a as := fun fd => by simp only [searchSys, h]

theorem search_course {k : Kernel} {trees : Nat → Trees} (hk : HonoursEach k trees) (hw : OrderedEach trees) (a : SearchArgs)
    (fuel : Nat) : ∃ as qs, SearchCourse k trees fuel 0 a [] 0 as qs := course hk hw fuel 0 a [] 0 .nil (by intro x hx; cases hx)

theorem bounded_ok {fuel : Nat} {k : Kernel} {a : SearchArgs} (hb : Bounded a) {its : List Item}
    (h : Fs.search fuel (.mounted k) a = .ok its) : searchLoop k true fuel 0 a [] 0 = .ok (its, 0) := by
  rw [search_bounded fuel k a hb] at h
  cases hl : searchLoop k true fuel 0 a [] 0 with
  | error e => rw [hl] at h; cases h
  | ok r =>
    obtain ⟨r, c⟩ := r
    rw [hl] at h
    simp only at h
    split at h
    · cases h
    · rename_i hc
      cases h
      have : c = 0 := by simpa using hc
      rw [this]

theorem course_ok {fuel : Nat} {k : Kernel} {trees : Nat → Trees} {a : SearchArgs} {as : List SearchArgs} {qs : List (List Item)}
    (C : SearchCourse k trees fuel 0 a [] 0 as qs) {its : List Item} (h : searchLoop k true fuel 0 a [] 0 = .ok (its, 0)) :
    its = qs.flatten ∧ qs.getLast? = some [] := by
  have ho := C.outcome
  rw [h] at ho
  generalize hr : (Except.ok (its, 0) : R (List Item × Nat)) = r at ho
  cases ho with
  | done hd => cases hr; exact ⟨by simp, hd⟩
  | bump => cases hr
  | cut => cases hr

/-! ### searching while the filesystem is written to -/

/-- **C103** Whatever is written to the filesystem during a search: what it returns comes from the replies, each item was
in the tree and asked for at the moment of its reply; the keys come in order, none twice; and a key of which there was an
item asked for at every request, in this version or that, is returned. -/
theorem C103_search (k : Kernel) (trees : Nat → Trees) (hw : OrderedEach trees) (hk : HonoursEach k trees) (a : SearchArgs)
    (hb : Bounded a) (fuel : Nat) (its : List Item) (h : Fs.search fuel (.mounted k) a = .ok its) :
    ∃ as qs, Requested fuel k a as ∧ Replied k 0 as qs ∧ its = qs.flatten ∧
      (∀ i q, qs[i]? = some q → ∀ it ∈ q, it ∈ matching (trees i) a) ∧
      its.Pairwise (fun x y => KeyLt (keyOf x) (keyOf y)) ∧
      ∀ key, (∀ i < as.length, ∃ it ∈ matching (trees i) a, keyOf it = key) → ∃ it ∈ its, keyOf it = key := by
  obtain ⟨as, qs, C⟩ := search_course hk hw a fuel
  have hl := bounded_ok hb h
  obtain ⟨rfl, -⟩ := course_ok C hl
  refine ⟨as, qs, requested_iff (by rw [(searchRetry_iff a).2 hb]; exact C.asked), C.replied, rfl, fun i q hq it hit => ?_,
    by simpa using C.sorted, fun key hkey => C.complete _ hl key fun n hn => ?_⟩
  · have := C.held i q hq it hit
    rw [Nat.zero_add] at this
    exact mem_matching.2 this
  · rw [Nat.zero_add]
    exact hkey n hn

/-- **C103** An item that is there all the time is returned, exactly once, and so an item that is never there, or never
asked for, is not. -/
theorem C103_steady (k : Kernel) (trees : Nat → Trees) (hw : OrderedEach trees) (hk : HonoursEach k trees) (a : SearchArgs)
    (hb : Bounded a) (fuel : Nat) (its : List Item) (h : Fs.search fuel (.mounted k) a = .ok its) (it : Item) :
    ((∀ i, it ∈ matching (trees i) a) → (∀ i, ∀ x ∈ matching (trees i) a, keyOf x = keyOf it → x = it) →
      its.count it = 1) ∧ ((∀ i, it ∉ matching (trees i) a) → it ∉ its) := by
  obtain ⟨as, qs, -, -, he, h1, h2, h3⟩ := C103_search k trees hw hk a hb fuel its h
  have hmem : ∀ x ∈ its, ∃ i, x ∈ matching (trees i) a := by
    intro x hx
    rw [he, List.mem_flatten] at hx
    obtain ⟨q, hq, hxq⟩ := hx
    obtain ⟨i, hi⟩ := List.getElem?_of_mem hq
    exact ⟨i, h1 i q hi x hxq⟩
  refine ⟨fun hin huniq => ?_, fun hn hin => ?_⟩
  · obtain ⟨x, hx, hkx⟩ := h3 (keyOf it) fun i _ => ⟨it, hin i, rfl⟩
    obtain ⟨i, hi⟩ := hmem x hx
    rw [huniq i x hi hkx] at hx
    refine List.count_eq_one_of_mem ?_ hx
    exact h2.imp fun {a b} hab e => by subst e; exact Spec.KeyLt.irrefl _ hab
  · obtain ⟨i, hi⟩ := hmem it hin
    exact hn i hi

/-- **C103** A search that fails nevertheless fails for one reason: the last item it saw has the largest offset there is
(C60). Writing to the filesystem never makes it fail otherwise, never gives "identical payloads", and never makes it go
on for ever. -/
theorem C103_fails (k : Kernel) (trees : Nat → Trees) (hw : OrderedEach trees) (hk : HonoursEach k trees) (a : SearchArgs)
    (ha : InRange a) (fuel : Nat) (hf : 2 ^ 136 < fuel) (e : Fail) (h : Fs.search fuel (.mounted k) a = .error e) :
    e = .err .bumpOffset ∧ ∃ i, ∃ it ∈ matching (trees i) a, it.1.offset = 2 ^ 64 - 1 := by
  by_cases hb : Bounded a
  · obtain ⟨as, qs, C⟩ := search_course hk hw a fuel
    simp only [InRange, List.mem_cons, List.not_mem_nil, or_false, forall_eq_or_imp, forall_eq] at ha
    have hne := searchLoop_each hk hw a ha.1.2.1 ha.2.1 ha.1.2.2.2.1 fuel hf
    rw [search_bounded fuel k a hb] at h
    have ho := C.outcome
    generalize searchLoop k true fuel 0 a [] 0 = r at ho hne h
    cases ho with
    | done => simp at h
    | cut => exact absurd rfl hne
    | @bump x hx hox =>
      cases h
      refine ⟨rfl, ?_⟩
      have hm : x ∈ qs.flatten := List.mem_of_getLast? hx
      rw [List.mem_flatten] at hm
      obtain ⟨q, hq, hxq⟩ := hm
      obtain ⟨i, hi⟩ := List.getElem?_of_mem hq
      have h1 := C.held i q hi x hxq
      rw [Nat.zero_add] at h1
      refine ⟨i, x, mem_matching.2 h1, ?_⟩
      have := C.replied
      -- the offset was read from eight bytes
      have hlt : x.1.offset < 2 ^ 64 := replied_offset this x (List.mem_of_getLast? hx)
      omega
  · match fuel, hf with
    | fuel + 1, _ =>
      exfalso
      rw [search_unbounded _ k a hb] at h
      obtain ⟨buf, q, rest, hr, hh, hq, he⟩ := hk 0 a
      have hms : (matching (trees 0) a).Pairwise (fun a b => KeyLt (keyOf a) (keyOf b)) := (hw 0 a.treeId).1.filter _
      rw [hq, List.pairwise_append] at hms
      have hx := extractItems_holds buf q 0 [] 0 hh
      rw [merge_distinct q [] 0 (by simpa using sorted_headers_nodup hms.1)] at hx
      rw [searchLoop, hr] at h
      simp only [hx] at h
      simp at h

/-- **C103** A search without an upper bound sees one moment: it returns the first so many of the items asked for at
that moment. -/
theorem C103_one_moment (k : Kernel) (trees : Nat → Trees) (hw : OrderedEach trees) (hk : HonoursEach k trees) (a : SearchArgs)
    (hb : ¬ Bounded a) (fuel : Nat) (hf : 0 < fuel) :
    ∃ q, Fs.search fuel (.mounted k) a = .ok q ∧ q <+: matching (trees 0) a ∧ (q = [] → matching (trees 0) a = []) := by
  match fuel, hf with
  | fuel + 1, _ =>
    rw [search_unbounded _ k a hb]
    obtain ⟨buf, q, rest, hr, hh, hq, he⟩ := hk 0 a
    have hms : (matching (trees 0) a).Pairwise (fun a b => KeyLt (keyOf a) (keyOf b)) := (hw 0 a.treeId).1.filter _
    rw [hq, List.pairwise_append] at hms
    have hx := extractItems_holds buf q 0 [] 0 hh
    rw [merge_distinct q [] 0 (by simpa using sorted_headers_nodup hms.1)] at hx
    refine ⟨q, ?_, ⟨rest, hq.symm⟩, fun e => by rw [hq, he e, e]; rfl⟩
    rw [searchLoop, hr]
    simp only [hx]
    simp

/-- the item with this offset -/
def itemAt (n : Nat) : Item := (⟨7, 256, n, 1, 1⟩, [9])

/-- tree 5 holds these items -/
def holding (q : List Item) : Trees := fun t => if t = 5 then q else []

/-- the kernel that keeps its promise, one item at a time, while the filesystem holds `q 0`, `q 1`, … -/
def writtenTo (q : Nat → List Item) : Kernel := fun i a => batchKernel (holding (q i)) (fun _ => 0) i a

theorem writtenTo_honours (q : Nat → List Item) (h : ∀ i, ∀ it ∈ q i, Storable it) :
    HonoursEach (writtenTo q) (fun i => holding (q i)) := fun i a =>
  batchKernel_honours _ (fun t it hit => by
    unfold holding at hit
    split at hit
    · exact h i it hit
    · cases hit) _ i a

theorem holding_ordered (q : Nat → List Item) (h : ∀ i, (q i).Pairwise (fun a b => KeyLt (keyOf a) (keyOf b)) ∧ ∀ it ∈ q i, it.1.ty < 256) :
    OrderedEach (fun i => holding (q i)) := fun i t => by
  by_cases ht : t = 5
  · simp only [holding, if_pos ht]; exact h i
  · simp only [holding, if_neg ht]; simp

/-- everything in tree 5 up to this transaction -/
def boundedAll : SearchArgs := { allOfTree5 with maxTransid := 2 ^ 64 - 2 }

/-- the filesystem holds an item at offset 0 at first; then it is removed and one at offset 5 is added -/
def swapped : Nat → List Item := fun i => if i = 0 then [itemAt 0] else [itemAt 5]

/-- the reply to this request is this one item -/
def oneMore (k : Kernel) (i : Nat) (a : SearchArgs) (p : List Item) (x : Item) : Bool :=
  match k i a with
  | .errno => false
  | .data n buf =>
    match extractItems buf n 0 p 0 with
    | .ok r => decide (r = (p ++ [x], 0)) && n != 0
    | .error _ => false

theorem oneMore_step {k : Kernel} {i : Nat} {a : SearchArgs} {p : List Item} {x : Item} (h : oneMore k i a p x = true)
    (hl : (p ++ [x]).Pairwise (fun a b => KeyLt (keyOf a) (keyOf b))) (ht : x.1.ty < 256) (ho : x.1.offset + 1 < 2 ^ 64)
    (fuel : Nat) : searchLoop k true (fuel + 1) i a p 0 = searchLoop k true fuel (i + 1) (nextArgs a x) (p ++ [x]) 0 := by
  unfold oneMore at h
  cases hk : k i a with
  | errno => rw [hk] at h; cases h
  | data n buf =>
    rw [hk] at h
    dsimp only at h
    cases hx : extractItems buf n 0 p 0 with
    | error e => rw [hx] at h; cases h
    | ok r =>
      rw [hx] at h
      simp only [Bool.and_eq_true, decide_eq_true_eq, bne_iff_ne, ne_eq] at h
      obtain ⟨rfl, hn⟩ := h
      rw [searchLoop, hk]
      have hn : (n == 0) = false := by simpa using hn
      simp only [hx, hn, Bool.not_true, Bool.or_self, Bool.false_eq_true, if_false, largestKey_sorted p x hl, if_pos ht, if_pos ho]
      rfl

theorem swapped_first : oneMore (writtenTo swapped) 0 boundedAll [] (itemAt 0) = true := by decide +kernel

theorem swapped_second : oneMore (writtenTo swapped) 1 (nextArgs boundedAll (itemAt 0)) [itemAt 0] (itemAt 5) = true := by
  decide +kernel

theorem swapped_last : writtenTo swapped 2 (nextArgs (nextArgs boundedAll (itemAt 0)) (itemAt 5)) = .data 0 (mem (encodeItems [])) := by
  have hm : matching (holding (swapped 2)) (nextArgs (nextArgs boundedAll (itemAt 0)) (itemAt 5)) = [] := by decide +kernel
  simp only [writtenTo, batchKernel, hm, fit, List.length_nil]

theorem swapped_loop : searchLoop (writtenTo swapped) true 4 0 boundedAll [] 0 = .ok ([itemAt 0, itemAt 5], 0) := by
  have h1 := oneMore_step swapped_first (by simp) (by decide) (by decide) 3
  have h2 := oneMore_step swapped_second (by decide) (by decide) (by decide) 2
  have h3 : searchLoop (writtenTo swapped) true 2 2 (nextArgs (nextArgs boundedAll (itemAt 0)) (itemAt 5)) [itemAt 0, itemAt 5] 0 =
      .ok ([itemAt 0, itemAt 5], 0) := by
    have h := swapped_last
    generalize nextArgs (nextArgs boundedAll (itemAt 0)) (itemAt 5) = a at h ⊢
    generalize writtenTo swapped = k at h ⊢
    rw [searchLoop, h]
    simp [extractItems]
  exact h1.trans (h2.trans h3)

theorem swapped_found : Fs.search 4 (.mounted (writtenTo swapped)) boundedAll = .ok [itemAt 0, itemAt 5] := by
  rw [search_bounded _ _ _ (by unfold Bounded; decide), swapped_loop]
  simp

/-- **C103** What is returned need not be what the filesystem held at any one moment: an item that is removed and another
that is added meanwhile are returned together. -/
theorem C103_no_snapshot : ∃ k trees its, OrderedEach trees ∧ HonoursEach k trees ∧ Bounded boundedAll ∧
    Fs.search 4 (.mounted k) boundedAll = .ok its ∧ ∀ i, its ≠ matching (trees i) boundedAll := by
  refine ⟨writtenTo swapped, fun i => holding (swapped i), _, holding_ordered _ ?_, writtenTo_honours _ ?_, ?_, swapped_found, ?_⟩
  · intro i
    unfold swapped
    split
    · exact ⟨by simp, by decide⟩
    · exact ⟨by simp, by decide⟩
  · intro i it hit
    unfold swapped at hit
    split at hit
    · rw [List.mem_singleton] at hit; subst hit; decide
    · rw [List.mem_singleton] at hit; subst hit; decide
  · unfold Bounded; decide
  · intro i h
    have h := congrArg List.length h
    by_cases hi : i = 0
    · simp only [swapped, if_pos hi] at h
      revert h
      decide +kernel
    · simp only [swapped, if_neg hi] at h
      revert h
      decide +kernel

/-- **C103** As a program sees it: if `search(tree, key)` with an upper bound gives a value, it is the array of the decoded
items, in order, of which each was in the tree at the moment of its reply, with all that were there at every request. -/
theorem C103_expression (cfg : Cfg) (st : State) (f e₀ e₁ : Expr) (k : Kernel) (trees : Nat → Trees)
    (hw : OrderedEach trees) (hk : HonoursEach k trees) (tree a A t T o O g G : Nat) (key : StructVal)
    (hf : evalExpr cfg st f = .ok (.func .search)) (hfs : st.fs = some (.mounted k))
    (h₀ : evalExpr cfg st e₀ = .ok (.int tree))
    (h₁ : evalExpr cfg st e₁ = .ok (.struct s!' "_btrfs_ioctl_search_key" key.key key.fields))
    (hkey : KeyValues key a A t T o O g G)
    (hr : (∀ x ∈ [tree, a, A, o, O, g, G], x < 2 ^ 64) ∧ ∀ x ∈ [t, T], x < 2 ^ 8)
    (hb : Bounded ⟨tree, a, A, t, T, o, O, g, G⟩) (v : Value) (h : evalExpr cfg st (.call f [e₀, e₁]) = .ok v) :
    ∃ its vs, v = .array vs false ∧ decodeItems cfg.build its = .ok vs ∧
      (∀ it ∈ its, ∃ i, it ∈ matching (trees i) ⟨tree, a, A, t, T, o, O, g, G⟩) ∧
      its.Pairwise (fun x y => KeyLt (keyOf x) (keyOf y)) ∧
      ∀ key, (∀ i, ∃ it ∈ matching (trees i) ⟨tree, a, A, t, T, o, O, g, G⟩, keyOf it = key) → ∃ it ∈ its, keyOf it = key := by
  obtain ⟨h1, h2⟩ := C49_in_range cfg st f e₀ e₁ (.mounted k) tree a A t T o O g G key hf hfs h₀ h₁ hkey hr
  cases hs : Fs.search cfg.fuel (.mounted k) ⟨tree, a, A, t, T, o, O, g, G⟩ with
  | error e => rw [h1 e hs] at h; cases h
  | ok its =>
    obtain ⟨h3, h4⟩ := h2 its hs
    cases hd : decodeItems cfg.build its with
    | error e => rw [h4 e hd] at h; cases h
    | ok vs =>
      rw [h3 vs hd] at h
      cases h
      obtain ⟨as, qs, -, -, he, h5, h6, h7⟩ := C103_search k trees hw hk _ hb _ its hs
      refine ⟨its, vs, rfl, hd, fun it hit => ?_, h6, fun key hkey => h7 key fun i _ => hkey i⟩
      rw [he, List.mem_flatten] at hit
      obtain ⟨q, hq, hxq⟩ := hit
      obtain ⟨i, hi⟩ := List.getElem?_of_mem hq
      exact ⟨i, h5 i q hi it hxq⟩

/-! ### witnesses -/

/-- an item stays while another is replaced: the search meets the hypotheses of `C103_steady` for it -/
example : ∃ trees : Nat → Trees, OrderedEach trees ∧ HonoursEach (writtenTo fun i => [itemAt (i % 2), itemAt 7]) trees ∧
    (∀ i, itemAt 7 ∈ matching (trees i) boundedAll) ∧
    (∀ i, ∀ x ∈ matching (trees i) boundedAll, keyOf x = keyOf (itemAt 7) → x = itemAt 7) ∧
    trees 0 ≠ trees 1 := by
  have h2 : ∀ i, i % 2 = 0 ∨ i % 2 = 1 := fun i => by omega
  refine ⟨fun i => holding [itemAt (i % 2), itemAt 7], holding_ordered _ ?_, writtenTo_honours _ ?_, ?_, ?_, ?_⟩
  · intro i
    rcases h2 i with h | h <;> rw [h] <;> exact ⟨by decide, by decide⟩
  · intro i
    rcases h2 i with h | h <;> rw [h] <;> decide
  · intro i
    rcases h2 i with h | h <;> simp only [h] <;> decide +kernel
  · intro i
    rcases h2 i with h | h <;> simp only [h] <;> decide +kernel
  · intro h
    have := congrFun h 5
    revert this
    decide

end Btrd
