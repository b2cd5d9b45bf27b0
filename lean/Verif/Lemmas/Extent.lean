/-
Inline references of extent items.
-/
import Verif.Lemmas.Encode

namespace Btrd
open Spec

theorem le_eq (bs : Bytes) : le bs = (leNat bs : Int) := by
  induction bs with
  | nil => rfl
  | cons b bs ih =>
    have : le (b :: bs) = (b.toNat : Int) + 256 * le bs := rfl
    rw [this, ih, leNat]
    omega

theorem leAt_mid (pre x post : Bytes) (p n : Nat) (hp : pre.length = p) (h : x.length = n) :
    (leAt (mem (pre ++ (x ++ post))) p n : Int) = le x := by
  rw [le_eq, ← leNat_take_drop _ _ _ (by simp; omega)]
  simp [← h, ← hp]

theorem leAt_head (a : UInt8) (x : Bytes) : leAt (mem (a :: x)) 0 1 = a.toNat := by
  simp [leAt, mem]

theorem fieldsAt_skip (pre rest : Bytes) (p : Nat) (hp : pre.length = p) (fs : List (Option Str × Ty)) :
    fieldsAt (mem (pre ++ rest)) p fs = fieldsAt (mem rest) 0 fs := by
  apply fieldsAt_congr
  intro i _
  simp only [mem, List.getD_eq_getElem?_getD, ← hp]
  rw [List.getElem?_append_right (by omega)]
  congr 2
  omega

def dataRefFields : List (Option Str × Ty) := [(some s!' "data_ref", BTRFS_EXTENT_DATA_REF.ty)]
def sharedRefFields : List (Option Str × Ty) :=
  [(some s!' "offset", .u64), (some s!' "shared_data_ref", BTRFS_SHARED_DATA_REF.ty)]
def blockRefFields : List (Option Str × Ty) := [(some s!' "offset", .u64)]

theorem inlineRefs_cons (fuel : Nat) (ty : UInt8) (rest : Bytes) :
    inlineRefs (fuel + 1) (ty :: rest) =
      if ty = 178 then inlineRefs.next fuel rest 28 dataRefFields
      else if ty = 184 then inlineRefs.next fuel rest 12 sharedRefFields
      else if ty = 182 ∨ ty = 176 then inlineRefs.next fuel rest 8 blockRefFields
      else R.err (.unknownInlineRef ty.toNat) := by
  have e : ∀ n : Nat, n < 256 → ((ty.toNat : Int) = n ↔ ty = UInt8.ofNat n) := by
    intro n hn
    rw [← UInt8.toNat_inj, Int.natCast_inj, UInt8.toNat_ofNat_of_lt' (by simpa using hn)]
  rw [inlineRefs.eq_def]
  simp only
  have hs : BTRFS_EXTENT_INLINE_REF.size = 1 := rfl
  have h2 : BTRFS_EXTENT_DATA_REF.size = 28 := rfl
  have h3 : BTRFS_SHARED_DATA_REF.size = 4 := rfl
  rw [if_pos (by rw [hs]; simp), hs, h2, h3]
  have e1 : ((ty.toNat : Int) = BTRFS_EXTENT_DATA_REF_KEY) ↔ ty = 178 := e 178 (by omega)
  have e2 : ((ty.toNat : Int) = BTRFS_SHARED_DATA_REF_KEY) ↔ ty = 184 := e 184 (by omega)
  have e3 : ((ty.toNat : Int) = BTRFS_SHARED_BLOCK_REF_KEY) ↔ ty = 182 := e 182 (by omega)
  have e4 : ((ty.toNat : Int) = BTRFS_TREE_BLOCK_REF_KEY) ↔ ty = 176 := e 176 (by omega)
  simp only [e1, e2, e3, e4, List.drop_succ_cons, List.drop_zero]
  rfl

theorem next_append (fuel : Nat) (x rest : Bytes) (n : Nat) (extra : List (Option Str × Ty)) (h : x.length = n) :
    inlineRefs.next fuel (x ++ rest) n extra =
      match inlineRefs fuel rest with
      | .ok fs => .ok (inlineRef extra :: fs)
      | .error e => .error e := by
  simp only [inlineRefs.next]
  rw [if_pos (by simp; omega), ← h, List.drop_left]
  rfl

theorem dataRef_fields (root oid off count rest : Bytes) (fs : List (Option Str × Ty)) (h1 : root.length = 8)
    (h2 : oid.length = 8) (h3 : off.length = 8) (h4 : count.length = 4) :
    fieldsAt (mem (178 :: (root ++ oid ++ off ++ count ++ rest))) 0 (inlineRef dataRefFields :: fs) =
      (s!' "inline_ref", .struct s!' "btrfs_extent_inline_ref" none
          [(s!' "type", .int 178),
           (s!' "data_ref", .struct s!' "btrfs_extent_data_ref" none
             [(s!' "root", .int (le root)), (s!' "objectid", .int (le oid)), (s!' "offset", .int (le off)),
              (s!' "count", .int (le count))])]) :: fieldsAt (mem rest) 0 fs := by
  simp only [fieldsAt, inlineRef, asFields, valueAt, BTRFS_EXTENT_INLINE_REF, dataRefFields, List.cons_append,
    List.nil_append, width, widths, BTRFS_EXTENT_DATA_REF, StructDef.ty]
  have k1 := leAt_mid [178] root (oid ++ off ++ count ++ rest) 1 8 rfl h1
  have k2 := leAt_mid (178 :: root) oid (off ++ count ++ rest) 9 8 (by simp [h1]) h2
  have k3 := leAt_mid (178 :: (root ++ oid)) off (count ++ rest) 17 8 (by simp [h1, h2]) h3
  have k4 := leAt_mid (178 :: (root ++ oid ++ off)) count rest 25 4 (by simp [h1, h2, h3]) h4
  have k5 := fieldsAt_skip (178 :: (root ++ oid ++ off ++ count)) rest 29 (by simp [h1, h2, h3, h4]) fs
  simp only [List.cons_append, List.append_assoc, List.nil_append] at k1 k2 k3 k4 k5 ⊢
  simp only [Nat.zero_add, Nat.reduceAdd, k1, k2, k3, k4, k5, leAt_head, Nat.add_zero]
  try rfl

theorem sharedRef_fields (off count rest : Bytes) (fs : List (Option Str × Ty)) (h1 : off.length = 8)
    (h2 : count.length = 4) :
    fieldsAt (mem (184 :: (off ++ count ++ rest))) 0 (inlineRef sharedRefFields :: fs) =
      (s!' "inline_ref", .struct s!' "btrfs_extent_inline_ref" none
          [(s!' "type", .int 184), (s!' "offset", .int (le off)),
           (s!' "shared_data_ref", .struct s!' "btrfs_shared_data_ref" none
             [(s!' "count", .int (le count))])]) :: fieldsAt (mem rest) 0 fs := by
  simp only [fieldsAt, inlineRef, asFields, valueAt, BTRFS_EXTENT_INLINE_REF, sharedRefFields, List.cons_append,
    List.nil_append, width, widths, BTRFS_SHARED_DATA_REF, StructDef.ty]
  have k1 := leAt_mid [184] off (count ++ rest) 1 8 rfl h1
  have k2 := leAt_mid (184 :: off) count rest 9 4 (by simp [h1]) h2
  have k5 := fieldsAt_skip (184 :: (off ++ count)) rest 13 (by simp [h1, h2]) fs
  simp only [List.cons_append, List.append_assoc, List.nil_append] at k1 k2 k5 ⊢
  simp only [Nat.zero_add, Nat.reduceAdd, k1, k2, k5, leAt_head, Nat.add_zero]
  try rfl

theorem blockRef_fields (ty : UInt8) (off rest : Bytes) (fs : List (Option Str × Ty)) (h1 : off.length = 8) :
    fieldsAt (mem (ty :: (off ++ rest))) 0 (inlineRef blockRefFields :: fs) =
      (s!' "inline_ref", .struct s!' "btrfs_extent_inline_ref" none
          [(s!' "type", .int ty.toNat), (s!' "offset", .int (le off))]) :: fieldsAt (mem rest) 0 fs := by
  simp only [fieldsAt, inlineRef, asFields, valueAt, BTRFS_EXTENT_INLINE_REF, blockRefFields, List.cons_append,
    List.nil_append, width, widths]
  have k1 := leAt_mid [ty] off rest 1 8 rfl h1
  have k5 := fieldsAt_skip (ty :: off) rest 9 (by simp [h1]) fs
  simp only [List.cons_append, List.append_assoc, List.nil_append] at k1 k5 ⊢
  simp only [Nat.zero_add, Nat.reduceAdd, k1, k5, leAt_head, Nat.add_zero]
  try rfl

theorem inlineRefs_of_spec {bytes : Bytes} {vs : List (Str × Value)} (h : InlineRefs bytes vs) :
    ∀ fuel, bytes.length < fuel →
      ∃ fs, inlineRefs fuel bytes = .ok fs ∧ fieldsAt (mem bytes) 0 fs = vs ∧ widths fs = bytes.length := by
  induction h with
  | nil =>
    intro fuel hf
    obtain ⟨fuel, rfl⟩ : ∃ k, fuel = k + 1 := ⟨fuel - 1, by simp at hf; omega⟩
    exact ⟨[], by rw [inlineRefs.eq_def], by simp [fieldsAt], by simp [widths]⟩
  | @dataRef root oid off count rest vs h1 h2 h3 h4 hr ih =>
    intro fuel hf
    obtain ⟨fuel, rfl⟩ : ∃ k, fuel = k + 1 := ⟨fuel - 1, by simp at hf; omega⟩
    obtain ⟨fs, e1, e2, e3⟩ := ih fuel (by simp at hf; omega)
    refine ⟨inlineRef dataRefFields :: fs, ?_, ?_, ?_⟩
    · rw [inlineRefs_cons, if_pos rfl,
        next_append fuel (root ++ oid ++ off ++ count) rest 28 _ (by simp [h1, h2, h3, h4]), e1]
    · rw [dataRef_fields _ _ _ _ _ _ h1 h2 h3 h4, e2]
    · simp [widths, width, inlineRef, BTRFS_EXTENT_INLINE_REF, dataRefFields, BTRFS_EXTENT_DATA_REF, StructDef.ty, e3,
        h1, h2, h3, h4]
      omega
  | @sharedDataRef off count rest vs h1 h2 hr ih =>
    intro fuel hf
    obtain ⟨fuel, rfl⟩ : ∃ k, fuel = k + 1 := ⟨fuel - 1, by simp at hf; omega⟩
    obtain ⟨fs, e1, e2, e3⟩ := ih fuel (by simp at hf; omega)
    refine ⟨inlineRef sharedRefFields :: fs, ?_, ?_, ?_⟩
    · rw [inlineRefs_cons, if_neg (by decide), if_pos rfl,
        next_append fuel (off ++ count) rest 12 _ (by simp [h1, h2]), e1]
    · rw [sharedRef_fields _ _ _ _ h1 h2, e2]
    · simp [widths, width, inlineRef, BTRFS_EXTENT_INLINE_REF, sharedRefFields, BTRFS_SHARED_DATA_REF, StructDef.ty,
        e3, h1, h2]
      omega
  | @blockRef ty off rest vs ht h1 hr ih =>
    intro fuel hf
    obtain ⟨fuel, rfl⟩ : ∃ k, fuel = k + 1 := ⟨fuel - 1, by simp at hf; omega⟩
    obtain ⟨fs, e1, e2, e3⟩ := ih fuel (by simp at hf; omega)
    refine ⟨inlineRef blockRefFields :: fs, ?_, ?_, ?_⟩
    · rw [inlineRefs_cons, if_neg (by rcases ht with rfl | rfl <;> decide),
        if_neg (by rcases ht with rfl | rfl <;> decide), if_pos ht.symm, next_append fuel off rest 8 _ h1, e1]
    · rw [blockRef_fields _ _ _ _ h1, e2]
    · simp [widths, width, inlineRef, BTRFS_EXTENT_INLINE_REF, blockRefFields, e3, h1]
      omega

theorem spec_of_inlineRefs : ∀ (fuel : Nat) (bytes : Bytes) (fs : List (Option Str × Ty)),
    inlineRefs fuel bytes = .ok fs → InlineRefs bytes (fieldsAt (mem bytes) 0 fs) ∧ widths fs = bytes.length := by
  intro fuel
  induction fuel with
  | zero => intro bytes fs h; rw [inlineRefs.eq_def] at h; simp at h
  | succ fuel ih =>
    intro bytes fs h
    cases bytes with
    | nil =>
      rw [inlineRefs.eq_def] at h
      simp only [Except.ok.injEq] at h
      subst h
      exact ⟨by simp only [fieldsAt]; exact .nil, by simp [widths]⟩
    | cons ty tail =>
      rw [inlineRefs_cons] at h
      split at h
      · rename_i ht
        subst ht
        obtain ⟨hl, gs, hg, rfl⟩ := inlineRefs_next _ _ _ _ _ h
        obtain ⟨i1, i2⟩ := ih _ _ hg
        have hd : tail = tail.take 8 ++ (tail.drop 8).take 8 ++ (tail.drop 16).take 8 ++ (tail.drop 24).take 4 ++
            tail.drop 28 := by
          have q1 := List.take_append_drop 8 tail
          have q2 := List.take_append_drop 8 (tail.drop 8)
          have q3 := List.take_append_drop 8 (tail.drop 16)
          have q4 := List.take_append_drop 4 (tail.drop 24)
          simp only [List.drop_drop] at q2 q3 q4
          simp only [List.append_assoc, q1, q2, q3, q4]
        constructor
        · rw [hd, dataRef_fields _ _ _ _ _ _ (by simp; omega) (by simp; omega) (by simp; omega) (by simp; omega)]
          exact .dataRef (by simp; omega) (by simp; omega) (by simp; omega) (by simp; omega) i1
        · simp [widths, width, inlineRef, BTRFS_EXTENT_INLINE_REF, dataRefFields, BTRFS_EXTENT_DATA_REF, StructDef.ty,
            i2]
          omega
      · split at h
        · rename_i ht
          subst ht
          obtain ⟨hl, gs, hg, rfl⟩ := inlineRefs_next _ _ _ _ _ h
          obtain ⟨i1, i2⟩ := ih _ _ hg
          have hd : tail = tail.take 8 ++ (tail.drop 8).take 4 ++ tail.drop 12 := by
            have q1 := List.take_append_drop 8 tail
            have q2 := List.take_append_drop 4 (tail.drop 8)
            simp only [List.drop_drop] at q2
            simp only [List.append_assoc, q1, q2]
          constructor
          · rw [hd, sharedRef_fields _ _ _ _ (by simp; omega) (by simp; omega)]
            exact .sharedDataRef (by simp; omega) (by simp; omega) i1
          · simp [widths, width, inlineRef, BTRFS_EXTENT_INLINE_REF, sharedRefFields, BTRFS_SHARED_DATA_REF,
              StructDef.ty, i2]
            omega
        · split at h
          · rename_i ht
            obtain ⟨hl, gs, hg, rfl⟩ := inlineRefs_next _ _ _ _ _ h
            obtain ⟨i1, i2⟩ := ih _ _ hg
            have hd : tail = tail.take 8 ++ tail.drop 8 := (List.take_append_drop 8 tail).symm
            constructor
            · rw [hd, blockRef_fields _ _ _ _ (by simp; omega)]
              exact .blockRef ht.symm (by simp; omega) i1
            · simp [widths, width, inlineRef, BTRFS_EXTENT_INLINE_REF, blockRefFields, i2]
              omega
          · simp at h

/-- equal numbers of the same width come from equal bytes -/
theorem le_inj : ∀ {x y : Bytes}, x.length = y.length → le x = le y → x = y := by
  intro x
  induction x with
  | nil => intro y h _; cases y with
    | nil => rfl
    | cons => simp at h
  | cons a x ih =>
    intro y h he
    cases y with
    | nil => simp at h
    | cons c y =>
      have e1 : le (a :: x) = (a.toNat : Int) + 256 * le x := rfl
      have e2 : le (c :: y) = (c.toNat : Int) + 256 * le y := rfl
      rw [e1, e2] at he
      have := a.toNat_lt
      have := c.toNat_lt
      have hac : a.toNat = c.toNat := by omega
      have hxy : le x = le y := by omega
      rw [UInt8.toNat_inj.1 hac, ih (by simpa using h) hxy]

theorem inlineRefs_inj {bytes : Bytes} {vs : List (Str × Value)} (h : InlineRefs bytes vs) :
    ∀ {bytes' : Bytes}, InlineRefs bytes' vs → bytes = bytes' := by
  induction h with
  | nil => intro bytes' h'; cases h'; rfl
  | @dataRef root oid off count rest vs h1 h2 h3 h4 hr ih =>
    intro bytes' h'
    generalize hv : (_ :: vs : List (Str × Value)) = ws at h'
    cases h' with
    | nil => simp at hv
    | @dataRef root' oid' off' count' rest' vs' g1 g2 g3 g4 gr =>
      simp only [List.cons.injEq, Prod.mk.injEq, Value.struct.injEq, Value.int.injEq, true_and, and_true] at hv
      obtain ⟨⟨e1, e2, e3, e4⟩, rfl⟩ := hv
      rw [le_inj (by omega) e1, le_inj (by omega) e2, le_inj (by omega) e3, le_inj (by omega) e4, ih gr]
    | sharedDataRef => simp at hv
    | blockRef => simp at hv
  | @sharedDataRef off count rest vs h1 h2 hr ih =>
    intro bytes' h'
    generalize hv : (_ :: vs : List (Str × Value)) = ws at h'
    cases h' with
    | nil => simp at hv
    | dataRef => simp at hv
    | @sharedDataRef off' count' rest' vs' g1 g2 gr =>
      simp only [List.cons.injEq, Prod.mk.injEq, Value.struct.injEq, Value.int.injEq, true_and, and_true] at hv
      obtain ⟨⟨e1, e2⟩, rfl⟩ := hv
      rw [le_inj (by omega) e1, le_inj (by omega) e2, ih gr]
    | blockRef => simp at hv
  | @blockRef ty off rest vs ht h1 hr ih =>
    intro bytes' h'
    generalize hv : (_ :: vs : List (Str × Value)) = ws at h'
    cases h' with
    | nil => simp at hv
    | dataRef => simp at hv
    | sharedDataRef => simp at hv
    | @blockRef ty' off' rest' vs' gt g1 gr =>
      simp only [List.cons.injEq, Prod.mk.injEq, Value.struct.injEq, Value.int.injEq, true_and, and_true] at hv
      obtain ⟨⟨e1, e2⟩, rfl⟩ := hv
      have : ty = ty' := UInt8.toNat_inj.1 (Int.natCast_inj.1 e1)
      rw [this, le_inj (by omega) e2, ih gr]

end Btrd
