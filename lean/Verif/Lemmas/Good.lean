/-
Values whose integers fit 128 bits and whose names are printable: everything the evaluator computes is
of this kind.
-/
import Verif.Lemmas.DecodeMore
import Verif.Lemmas.Arith
import Verif.Lemmas.EvalInd
import Verif.Lemmas.Vars
import Verif.Lemmas.Display
import Verif.Spec.Ints

namespace Btrd
open Spec

/-! ### names in descriptions -/

def plainStr (s : Str) : Bool := s.all fun c => decide (32 ≤ c.toNat) && decide (c.toNat ≤ 126)

theorem plainStr_iff (s : Str) : plainStr s = true ↔ ∀ c ∈ s, Printable c := by
  simp [plainStr, Printable]

mutual
def plainTy : Ty → Bool
  | .array t _ => plainTy t
  | .struct n fs => plainStr n && plainTys fs
  | .union n fs => plainStr n && plainTys fs
  | .trailingTypes t _ => plainTy t
  | _ => true
def plainTys : List (Option Str × Ty) → Bool
  | [] => true
  | (some n, t) :: fs => plainStr n && plainTy t && plainTys fs
  | (none, t) :: fs => plainTy t && plainTys fs
end

theorem plainFields_append (fs gs : List (Str × Value)) :
    plainFields (fs ++ gs) ↔ plainFields fs ∧ plainFields gs := by
  induction fs with
  | nil => simp [plainFields]
  | cons f fs ih =>
    obtain ⟨n, v⟩ := f
    simp only [List.cons_append, plainFields, ih, and_assoc]

theorem plainItems_iff (vs : List Value) : plainItems vs ↔ ∀ v ∈ vs, PlainNames v := by
  induction vs with
  | nil => simp [plainItems]
  | cons v vs ih => simp [plainItems, ih]

theorem plainFields_iff (fs : List (Str × Value)) :
    plainFields fs ↔ ∀ f ∈ fs, (∀ c ∈ f.1, Printable c) ∧ PlainNames f.2 := by
  induction fs with
  | nil => simp [plainFields]
  | cons f fs ih =>
    obtain ⟨n, v⟩ := f
    simp only [plainFields, ih, List.mem_cons, forall_eq_or_imp, and_assoc]

theorem asFields_plain (name : Option Str) (v : Value) (hn : ∀ n, name = some n → plainStr n = true)
    (h : PlainNames v) : plainFields (asFields name v) := by
  cases name with
  | some n => simp only [asFields, plainFields]; exact ⟨(plainStr_iff n).1 (hn n rfl), h, trivial⟩
  | none =>
    cases v <;> simp only [asFields, components, plainFields]
    simp only [PlainNames] at h
    exact h.2

mutual
theorem valueAt_plain (m : Mem) : ∀ (t : Ty) (pos : Nat), plainTy t = true → PlainNames (valueAt m pos t)
  | .u8, pos, _ => by simp only [valueAt, PlainNames]
  | .u16, pos, _ => by simp only [valueAt, PlainNames]
  | .u32, pos, _ => by simp only [valueAt, PlainNames]
  | .u64, pos, _ => by simp only [valueAt, PlainNames]
  | .array t n, pos, h => by
    simp only [valueAt, PlainNames, plainItems_iff, List.mem_map]
    rintro v ⟨i, -, rfl⟩
    exact valueAt_plain m t _ (by simpa only [plainTy] using h)
  | .struct n fs, pos, h => by
    simp only [plainTy, Bool.and_eq_true] at h
    simp only [valueAt, PlainNames]; exact ⟨(plainStr_iff n).1 h.1, fieldsAt_plain m fs pos h.2⟩
  | .union n fs, pos, h => by
    simp only [plainTy, Bool.and_eq_true] at h
    simp only [valueAt, PlainNames]; exact ⟨(plainStr_iff n).1 h.1, membersAt_plain m fs pos h.2⟩
  | .trailingString _, pos, _ => by simp [valueAt, PlainNames]
  | .trailingTypes _ _, pos, _ => by simp [valueAt, PlainNames]
  | .dynamic _, pos, _ => by simp [valueAt, PlainNames]
theorem fieldsAt_plain (m : Mem) : ∀ (fs : List (Option Str × Ty)) (pos : Nat), plainTys fs = true →
    plainFields (fieldsAt m pos fs)
  | [], _, _ => by simp only [fieldsAt, plainFields]
  | (some n, t) :: fs, pos, h => by
    simp only [plainTys, Bool.and_eq_true] at h
    simp only [fieldsAt, plainFields_append]
    exact ⟨asFields_plain _ _ (by rintro _ ⟨⟩; exact h.1.1) (valueAt_plain m t pos h.1.2), fieldsAt_plain m fs _ h.2⟩
  | (none, t) :: fs, pos, h => by
    simp only [plainTys, Bool.and_eq_true] at h
    simp only [fieldsAt, plainFields_append]
    exact ⟨asFields_plain _ _ (by simp) (valueAt_plain m t pos h.1), fieldsAt_plain m fs _ h.2⟩
theorem membersAt_plain (m : Mem) : ∀ (fs : List (Option Str × Ty)) (pos : Nat), plainTys fs = true →
    plainFields (membersAt m pos fs)
  | [], _, _ => by simp only [membersAt, plainFields]
  | (some n, t) :: fs, pos, h => by
    simp only [plainTys, Bool.and_eq_true] at h
    simp only [membersAt, plainFields_append]
    exact ⟨asFields_plain _ _ (by rintro _ ⟨⟩; exact h.1.1) (valueAt_plain m t pos h.1.2), membersAt_plain m fs _ h.2⟩
  | (none, t) :: fs, pos, h => by
    simp only [plainTys, Bool.and_eq_true] at h
    simp only [membersAt, plainFields_append]
    exact ⟨asFields_plain _ _ (by simp) (valueAt_plain m t pos h.1), membersAt_plain m fs _ h.2⟩
end

/-- the dynamic parts, too, have printable names -/
def PlainDyn (fs : List (Option Str × Ty)) : Prop :=
  ∀ name cb, (name, Ty.dynamic cb) ∈ fs → ∀ s gs, cb s = .ok gs → plainTys gs = true

theorem plainTys_cons {name : Option Str} {t : Ty} {fs : List (Option Str × Ty)}
    (h : plainTys ((name, t) :: fs) = true) :
    (∀ n, name = some n → plainStr n = true) ∧ plainTy t = true ∧ plainTys fs = true := by
  cases name with
  | none => simp only [plainTys, Bool.and_eq_true] at h; exact ⟨by simp, h⟩
  | some n =>
    simp only [plainTys, Bool.and_eq_true] at h
    exact ⟨by rintro _ ⟨⟩; exact h.1.1, h.1.2, h.2⟩

theorem laid_good {bytes : Bytes} {fs : List (Option Str × Ty)} {pos : Nat} {seen out : List (Str × Value)}
    {stop : Nat} (h : Laid bytes fs pos seen out stop) (hp : plainTys fs = true) (hd : PlainDyn fs)
    (hs : AllIntsF IsU64 seen ∧ plainFields seen) : AllIntsF IsU64 out ∧ plainFields out := by
  induction h with
  | done => exact hs
  | fixed _ _ _ ih =>
    obtain ⟨h1, h2, h3⟩ := plainTys_cons hp
    refine ih h3 (fun name cb hm => hd name cb (List.mem_cons_of_mem _ hm)) ?_
    rw [allIntsF_append, plainFields_append]
    exact ⟨⟨hs.1, asFields_u64 _ _ (valueAt_u64 _ _ _)⟩, hs.2, asFields_plain _ _ h1 (valueAt_plain _ _ _ h2)⟩
  | string _ _ _ ih =>
    obtain ⟨h1, h2, h3⟩ := plainTys_cons hp
    refine ih h3 (fun name cb hm => hd name cb (List.mem_cons_of_mem _ hm)) ?_
    rw [allIntsF_append, plainFields_append]
    simp only [AllIntsF, plainFields, PlainNames, AllInts]
    exact ⟨⟨hs.1, trivial, trivial⟩, hs.2, (plainStr_iff _).1 (h1 _ rfl), trivial, trivial⟩
  | types _ _ _ ih =>
    obtain ⟨h1, h2, h3⟩ := plainTys_cons hp
    refine ih h3 (fun name cb hm => hd name cb (List.mem_cons_of_mem _ hm)) ?_
    rw [allIntsF_append, plainFields_append]
    simp only [AllIntsF, plainFields, PlainNames, AllInts, allIntsL_iff, plainItems_iff, List.mem_map]
    refine ⟨⟨hs.1, ?_, trivial⟩, hs.2, (plainStr_iff _).1 (h1 _ rfl), ?_, trivial⟩
    · rintro v ⟨i, -, rfl⟩; exact valueAt_u64 _ _ _
    · rintro v ⟨i, -, rfl⟩; exact valueAt_plain _ _ _ (by simpa only [plainTy] using h2)
  | dynamic hcb _ _ _ ih =>
    obtain ⟨h1, h2, h3⟩ := plainTys_cons hp
    refine ih h3 (fun name cb hm => hd name cb (List.mem_cons_of_mem _ hm)) ?_
    rw [allIntsF_append, plainFields_append]
    exact ⟨⟨hs.1, fieldsAt_u64 _ _ _⟩, hs.2, fieldsAt_plain _ _ _ (hd _ _ (List.mem_cons_self ..) _ _ hcb)⟩

theorem plainTys_append (fs gs : List (Option Str × Ty)) :
    plainTys (fs ++ gs) = (plainTys fs && plainTys gs) := by
  induction fs with
  | nil => simp [plainTys]
  | cons f fs ih =>
    obtain ⟨name, t⟩ := f
    cases name <;> simp only [List.cons_append, plainTys, ih, Bool.and_assoc]

theorem inlineRefs_plain : ∀ (fuel : Nat) (bytes : Bytes) (fs : List (Option Str × Ty)),
    inlineRefs fuel bytes = .ok fs → plainTys fs = true := by
  intro fuel
  induction fuel with
  | zero => intro bytes fs h; simp [inlineRefs] at h
  | succ fuel ih =>
    have key : ∀ (rest : Bytes) (n : Nat) (extra fs : List (Option Str × Ty)), plainTys [inlineRef extra] = true →
        inlineRefs.next fuel rest n extra = .ok fs → plainTys fs = true := by
      intro rest n extra fs hf h
      obtain ⟨-, gs, hg, rfl⟩ := inlineRefs_next fuel rest n extra fs h
      have := plainTys_append [inlineRef extra] gs
      rw [List.singleton_append] at this
      rw [this, hf, ih _ _ hg]; rfl
    intro bytes fs h
    rw [inlineRefs.eq_def] at h
    simp only at h
    split at h
    · simp only [Except.ok.injEq] at h; subst h; rfl
    · split at h
      · split at h
        · exact key _ _ _ _ (by decide) h
        · split at h
          · exact key _ _ _ _ (by decide) h
          · split at h
            · exact key _ _ _ _ (by decide) h
            · simp at h
      · simp at h

theorem extentItem_plain (s : Bytes) (gs : List (Option Str × Ty)) (h : extentItemFields s = .ok gs) :
    plainTys gs = true := by
  simp only [extentItemFields] at h
  split at h
  · split at h
    · rename_i fs heq
      simp only [Except.ok.injEq] at h
      subst h
      rw [plainTys_append, inlineRefs_plain _ _ _ heq]
      decide
    · simp at h
  · simp at h

theorem fileExtentItem_plain (s : Bytes) (gs : List (Option Str × Ty)) (h : fileExtentItemFields s = .ok gs) :
    plainTys gs = true := by
  rcases fileExtentItemFields_cases s with ⟨-, h'⟩ | ⟨ty, -, -, ⟨-, h'⟩ | ⟨-, h'⟩⟩ <;> rw [h'] at h
  · simp at h
  · simp only [Except.ok.injEq] at h; subst h; decide
  · simp only [Except.ok.injEq] at h; subst h; decide

/-- no dynamic field -/
def noDyn : List (Option Str × Ty) → Bool
  | [] => true
  | (_, .dynamic _) :: _ => false
  | _ :: fs => noDyn fs

theorem noDyn_plainDyn {fs : List (Option Str × Ty)} (h : noDyn fs = true) : PlainDyn fs := by
  intro name cb hm
  exfalso
  induction fs with
  | nil => simp at hm
  | cons f fs ih =>
    obtain ⟨n, t⟩ := f
    simp only [List.mem_cons] at hm
    rcases hm with hm | hm
    · cases hm; simp [noDyn] at h
    · apply ih _ hm
      cases t <;> first | (simpa only [noDyn] using h) | (simp [noDyn] at h)

set_option maxRecDepth 100000 in
theorem structs_plain : ∀ s ∈ structs, plainStr s.name = true ∧ plainTys s.fields = true ∧ PlainDyn s.fields := by
  intro s hs
  simp only [structs, List.mem_cons, List.not_mem_nil, or_false] at hs
  rcases hs with h | h | h | h | h | h | h | h | h | h | h | h | h | h | h | h | h | h | h | h | h | h | h |
    h | h | h | h | h | h | h | h | h | h | h <;> subst h
  all_goals first
    | exact ⟨by decide, by decide, noDyn_plainDyn (by decide)⟩
    | (refine ⟨by decide, by decide, ?_⟩
       intro name cb hm s gs hcb
       simp only [struct_btrfs_extent_item, struct_btrfs_file_extent_item, List.mem_singleton, Prod.mk.injEq,
         Ty.dynamic.injEq] at hm
       rw [hm.2] at hcb
       first | exact extentItem_plain s gs hcb | exact fileExtentItem_plain s gs hcb)

/-! ### good values -/

/-- a value whose integers fit 128 bits and whose names are printable -/
def Good (v : Value) : Prop := AllInts Fits v ∧ PlainNames v

def GoodFields (fs : List (Str × Value)) : Prop := AllIntsF Fits fs ∧ plainFields fs

theorem goodFields_iff (fs : List (Str × Value)) :
    GoodFields fs ↔ ∀ f ∈ fs, (∀ c ∈ f.1, Printable c) ∧ Good f.2 := by
  simp only [GoodFields, Good, allIntsF_iff, plainFields_iff]
  constructor
  · intro h f hf; exact ⟨(h.2 f hf).1, h.1 f hf, (h.2 f hf).2⟩
  · intro h; exact ⟨fun f hf => (h f hf).2.1, fun f hf => ⟨(h f hf).1, (h f hf).2.2⟩⟩

theorem good_int {i : Int} : Good (.int i) ↔ Fits i := by simp [Good, AllInts, PlainNames]
theorem good_str (s : Bytes) : Good (.str s) := by simp [Good, AllInts, PlainNames]
theorem good_bool (b : Bool) : Good (.bool b) := by simp [Good, AllInts, PlainNames]
theorem good_func (f : Function) : Good (.func f) := by simp [Good, AllInts, PlainNames]
theorem good_array {vs : List Value} {k : Bool} : Good (.array vs k) ↔ ∀ v ∈ vs, Good v := by
  simp only [Good, AllInts, PlainNames, allIntsL_iff, plainItems_iff]
  exact ⟨fun h v hv => ⟨h.1 v hv, h.2 v hv⟩, fun h => ⟨fun v hv => (h v hv).1, fun v hv => (h v hv).2⟩⟩

/-- a good disk key -/
def GoodKey (k : Option (Int × Int × Int)) : Prop := ∀ a b c, k = some (a, b, c) → Fits a ∧ Fits b ∧ Fits c

theorem good_struct {n : Str} {k : Option (Int × Int × Int)} {fs : List (Str × Value)} :
    Good (.struct n k fs) ↔ (∀ c ∈ n, Printable c) ∧ GoodKey k ∧ ∀ f ∈ fs, (∀ c ∈ f.1, Printable c) ∧ Good f.2 := by
  rw [← goodFields_iff]
  simp only [Good, AllInts, PlainNames, GoodKey, GoodFields]
  constructor
  · rintro ⟨⟨h1, h2⟩, h3, h4⟩; exact ⟨h3, h1, h2, h4⟩
  · rintro ⟨h3, h1, h2, h4⟩; exact ⟨⟨h1, h2⟩, h3, h4⟩

theorem fits_u64 {i : Int} (h : IsU64 i) : Fits i := by
  simp only [IsU64, Fits] at *; omega

theorem fits_nat {n : Nat} (h : n < 2 ^ 64) : Fits (n : Int) := by
  simp only [Fits]; omega

/-- what decoding gives is good -/
theorem decoded_good {b : Build} {s : StructDef} {key : Option (Int × Int × Int)} {bytes : Bytes} {sv : StructVal}
    (hs : s ∈ structs) (hb : bytes.length < 2 ^ 64) (hk : GoodKey key)
    (h : structFromBytes b s key bytes = .ok sv) : Good (.struct sv.name sv.key sv.fields) := by
  obtain ⟨h1, h2, stop, h3⟩ := (structFromBytes_iff b s key bytes hb (structs_wellFormed s hs) sv).1 h
  obtain ⟨p1, p2, p3⟩ := structs_plain s hs
  obtain ⟨g1, g2⟩ := laid_good h3 p2 p3 ⟨by simp [AllIntsF], by simp [plainFields]⟩
  rw [good_struct, h1, h2, ← goodFields_iff]
  exact ⟨(plainStr_iff _).1 p1, hk, AllIntsF.mono (fun _ => fits_u64) _ g1, g2⟩

theorem findStruct_mem' {name : Str} {s : StructDef} (h : findStruct name = some s) : s ∈ structs :=
  List.mem_of_find?_eq_some h

theorem structForKey_mem {a b c : Int} {s : StructDef} (h : structForKey a b c = some s) : s ∈ structs :=
  List.mem_of_find?_eq_some h

/-! ### search results -/

/-- the header numbers have the widths of their fields, the payload the stated length -/
def GoodItem (it : Item) : Prop :=
  it.1.objectid < 2 ^ 64 ∧ it.1.ty < 2 ^ 32 ∧ it.1.offset < 2 ^ 64 ∧ it.2.length < 2 ^ 32

theorem leNat_lt (bs : Bytes) : leNat bs < 256 ^ bs.length := by
  induction bs with
  | nil => simp [leNat]
  | cons b bs ih =>
    have := b.toNat_lt
    simp only [leNat, List.length_cons, Nat.pow_succ]
    omega

theorem bufRead_length (buf : Nat → UInt8) (off n : Nat) : (bufRead buf off n).length = n := by simp [bufRead]

theorem readHeader_good (buf : Nat → UInt8) (off : Nat) :
    (readHeader buf off).objectid < 2 ^ 64 ∧ (readHeader buf off).ty < 2 ^ 32 ∧ (readHeader buf off).offset < 2 ^ 64 ∧
      (readHeader buf off).len < 2 ^ 32 := by
  have h (o n : Nat) := leNat_lt (bufRead buf o n)
  simp only [bufRead_length] at h
  have e8 : (256 : Nat) ^ 8 = 2 ^ 64 := by decide
  have e4 : (256 : Nat) ^ 4 = 2 ^ 32 := by decide
  simp only [readHeader]
  rw [← e8, ← e4]
  exact ⟨h _ _, h _ _, h _ _, h _ _⟩

theorem extractItems_good (buf : Nat → UInt8) : ∀ (n offset : Nat) (ret ret' : List Item) (c c' : Nat),
    (∀ it ∈ ret, GoodItem it) → extractItems buf n offset ret c = .ok (ret', c') → ∀ it ∈ ret', GoodItem it := by
  intro n
  induction n with
  | zero =>
    intro offset ret ret' c c' h he
    simp only [extractItems, Except.ok.injEq, Prod.mk.injEq] at he
    rw [← he.1]; exact h
  | succ n ih =>
    intro offset ret ret' c c' h he
    simp only [extractItems] at he
    split at he
    · split at he
      · split at he
        · exact ih _ _ _ _ _ h he
        · refine ih _ _ _ _ _ ?_ he
          intro it hit
          simp only [List.mem_append, List.mem_singleton] at hit
          rcases hit with hit | rfl
          · exact h _ hit
          · obtain ⟨h1, h2, h3, h4⟩ := readHeader_good buf offset
            exact ⟨h1, h2, h3, by simp only [bufRead_length]; exact h4⟩
      · simp at he
    · simp at he

theorem searchLoop_good (k : Kernel) (retry : Bool) : ∀ (fuel i : Nat) (args : SearchArgs) (ret ret' : List Item)
    (c c' : Nat), (∀ it ∈ ret, GoodItem it) → searchLoop k retry fuel i args ret c = .ok (ret', c') →
    ∀ it ∈ ret', GoodItem it := by
  intro fuel
  induction fuel with
  | zero => intro i args ret ret' c c' _ h; simp [searchLoop] at h
  | succ fuel ih =>
    intro i args ret ret' c c' hr h
    rw [searchLoop] at h
    split at h
    · simp at h
    · rename_i nr buf _
      split at h
      · simp at h
      · rename_i ret2 c2 heq
        have h2 := extractItems_good buf _ _ _ _ _ _ hr heq
        split at h
        · simp only [Except.ok.injEq, Prod.mk.injEq] at h
          rw [← h.1]; exact h2
        · split at h
          · simp at h
          · split at h
            · split at h
              · exact ih _ _ _ _ _ _ h2 h
              · simp at h
            · simp at h

theorem search_good {fuel : Nat} {fs : Fs} {args : SearchArgs} {items : List Item}
    (h : Fs.search fuel fs args = .ok items) : ∀ it ∈ items, GoodItem it := by
  simp only [Fs.search] at h
  split at h
  · simp at h
  · split at h
    · simp at h
    · rename_i heq
      split at h
      · simp at h
      · simp only [Except.ok.injEq] at h
        rw [← h]
        exact searchLoop_good _ _ _ _ _ _ _ _ _ (by simp) heq

theorem decodeItems_good {b : Build} : ∀ {items : List Item} {vs : List Value}, (∀ it ∈ items, GoodItem it) →
    decodeItems b items = .ok vs → ∀ v ∈ vs, Good v := by
  intro items
  induction items with
  | nil => intro vs _ h; simp only [decodeItems, Except.ok.injEq] at h; subst h; simp
  | cons it its ih =>
    intro vs hg h
    obtain ⟨hd, bytes⟩ := it
    have hgi := hg (hd, bytes) (List.mem_cons_self ..)
    have hgs := fun it hit => hg it (List.mem_cons_of_mem _ hit)
    rw [decodeItems] at h
    split at h
    · rename_i s hs
      simp only [bind, Except.bind] at h
      split at h
      · simp at h
      · rename_i sv hsv
        split at h
        · simp at h
        · rename_i ws hws
          simp only [Except.ok.injEq] at h
          subst h
          intro v hv
          simp only [List.mem_cons] at hv
          rcases hv with rfl | hv
          · refine decoded_good (structForKey_mem hs) ?_ ?_ hsv
            · have := hgi.2.2.2; simp only at this; omega
            · rintro a b c ⟨⟩
              obtain ⟨h1, h2, h3, -⟩ := hgi
              simp only at h2
              exact ⟨fits_nat h1, fits_nat (by omega), fits_nat h3⟩
          · exact ih hgs hws v hv
    · exact ih hgs h

/-! ### operators -/

theorem bind_ok {α β : Type} {x : R α} {f : α → R β} {b : β} (h : (x >>= f) = .ok b) :
    ∃ a, x = .ok a ∧ f a = .ok b := by
  cases x with
  | error e => simp [bind, Except.bind] at h
  | ok a => exact ⟨a, rfl, h⟩

theorem intOp_inv {f : Int → Int → R Value} {l r : R Value} {v : Value} (h : intOp f l r = .ok v) :
    ∃ i j, l = .ok (.int i) ∧ r = .ok (.int j) ∧ f i j = .ok v := by
  simp only [intOp] at h
  obtain ⟨lv, h1, h⟩ := bind_ok h
  obtain ⟨li, h2, h⟩ := bind_ok h
  obtain ⟨rv, h3, h⟩ := bind_ok h
  obtain ⟨ri, h4, h⟩ := bind_ok h
  cases lv <;> simp only [Value.asInteger, Except.ok.injEq, reduceCtorEq] at h2
  cases rv <;> simp only [Value.asInteger, Except.ok.injEq, reduceCtorEq] at h4
  subst h2 h4
  exact ⟨_, _, h1, h3, h⟩

theorem checked_good {e : Err} {x : Int} {v : Value} (h : checkedI128 e x = .ok v) : Good v := by
  rw [checkedI128_eq] at h
  split at h
  · simp only [Except.ok.injEq] at h; subst h; rwa [good_int]
  · simp at h

/-- every value a result can be is good -/
def GoodR (r : R Value) : Prop := ∀ v, r = .ok v → Good v

theorem binop_good (op : BinOp) {l r : R Value} (hl : GoodR l) (hr : GoodR r) : GoodR (binop op l r) := by
  intro v h
  cases op <;> simp only [binop] at h
  case plus =>
    obtain ⟨lv, h1, h⟩ := bind_ok h
    obtain ⟨rv, h2, h⟩ := bind_ok h
    have g1 := hl _ h1
    have g2 := hr _ h2
    unfold plusOp at h
    split at h
    · exact checked_good h
    · simp only [Except.ok.injEq] at h; subst h
      rw [good_array] at g1 ⊢
      intro w hw
      simp only [List.mem_append, List.mem_singleton] at hw
      rcases hw with hw | rfl
      · exact g1 w hw
      · exact g2
    · simp only [Except.ok.injEq] at h; subst h; exact good_str _
    · simp at h
  case minus => obtain ⟨i, j, -, -, h⟩ := intOp_inv h; exact checked_good h
  case mul => obtain ⟨i, j, -, -, h⟩ := intOp_inv h; exact checked_good h
  case div =>
    obtain ⟨i, j, -, -, h⟩ := intOp_inv h
    unfold divI128 at h
    split at h
    · simp at h
    · exact checked_good h
  case mod =>
    obtain ⟨i, j, h1, h2, h⟩ := intOp_inv h
    have g2 := good_int.1 (hr _ h2)
    unfold remI128 at h
    split at h
    · simp at h
    · rename_i hj
      split at h
      · simp only [Except.ok.injEq] at h; subst h
        rw [good_int]
        have := Int.natAbs_tmod i j
        have h3 : (i.tmod j).natAbs < j.natAbs := by rw [this]; exact Nat.mod_lt _ (by omega)
        simp only [Fits] at *; omega
      · simp at h
  case bor => obtain ⟨i, j, -, -, h⟩ := intOp_inv h; simp only [bitI128, Except.ok.injEq] at h; subst h; exact good_int.2 (fits_toInt _)
  case band => obtain ⟨i, j, -, -, h⟩ := intOp_inv h; simp only [bitI128, Except.ok.injEq] at h; subst h; exact good_int.2 (fits_toInt _)
  case bxor => obtain ⟨i, j, -, -, h⟩ := intOp_inv h; simp only [bitI128, Except.ok.injEq] at h; subst h; exact good_int.2 (fits_toInt _)
  case shl =>
    obtain ⟨i, j, -, -, h⟩ := intOp_inv h
    simp only [shlI128] at h
    obtain ⟨n, -, h⟩ := bind_ok h
    split at h
    · simp only [Except.ok.injEq] at h; subst h; exact good_int.2 (wrapI128_fits _)
    · simp at h
  case shr =>
    obtain ⟨i, j, h1, -, h⟩ := intOp_inv h
    have g1 := good_int.1 (hl _ h1)
    simp only [shrI128] at h
    obtain ⟨n, -, h⟩ := bind_ok h
    split at h
    · simp only [Except.ok.injEq] at h; subst h
      rw [good_int]
      have hp : (0:Int) < 2 ^ n := Int.pow_pos (by decide)
      have hlo : -(2 ^ 127) ≤ i / 2 ^ n := by
        apply Int.le_ediv_of_mul_le hp
        have : (2:Int) ^ 127 * 1 ≤ 2 ^ 127 * 2 ^ n := Int.mul_le_mul_of_nonneg_left hp (by decide)
        simp only [Fits] at g1
        rw [Int.neg_mul]
        omega
      have hhi : i / 2 ^ n < 2 ^ 127 := by
        apply Int.ediv_lt_of_lt_mul hp
        have : (2:Int) ^ 127 * 1 ≤ 2 ^ 127 * 2 ^ n := Int.mul_le_mul_of_nonneg_left hp (by decide)
        simp only [Fits] at g1
        omega
      exact ⟨hlo, hhi⟩
    · simp at h
  case lt => obtain ⟨i, j, -, -, h⟩ := intOp_inv h; simp only [Except.ok.injEq] at h; subst h; exact good_bool _
  case le => obtain ⟨i, j, -, -, h⟩ := intOp_inv h; simp only [Except.ok.injEq] at h; subst h; exact good_bool _
  case gt => obtain ⟨i, j, -, -, h⟩ := intOp_inv h; simp only [Except.ok.injEq] at h; subst h; exact good_bool _
  case ge => obtain ⟨i, j, -, -, h⟩ := intOp_inv h; simp only [Except.ok.injEq] at h; subst h; exact good_bool _
  case eq =>
    obtain ⟨lv, -, h⟩ := bind_ok h
    obtain ⟨rv, -, h⟩ := bind_ok h
    simp only [Except.ok.injEq] at h; subst h; exact good_bool _
  case ne =>
    obtain ⟨lv, -, h⟩ := bind_ok h
    obtain ⟨rv, -, h⟩ := bind_ok h
    simp only [Except.ok.injEq] at h; subst h; exact good_bool _
  case land =>
    obtain ⟨lv, -, h⟩ := bind_ok h
    obtain ⟨lb, -, h⟩ := bind_ok h
    split at h
    · simp only [Except.ok.injEq] at h; subst h; exact good_bool _
    · obtain ⟨rv, -, h⟩ := bind_ok h
      obtain ⟨rb, -, h⟩ := bind_ok h
      simp only [Except.ok.injEq] at h; subst h; exact good_bool _
  case lor =>
    obtain ⟨lv, -, h⟩ := bind_ok h
    obtain ⟨lb, -, h⟩ := bind_ok h
    split at h
    · simp only [Except.ok.injEq] at h; subst h; exact good_bool _
    · obtain ⟨rv, -, h⟩ := bind_ok h
      obtain ⟨rb, -, h⟩ := bind_ok h
      simp only [Except.ok.injEq] at h; subst h; exact good_bool _

theorem asInteger_inv {v : Value} {i : Int} (h : v.asInteger = .ok i) : v = .int i := by
  cases v <;> simp only [Value.asInteger, Except.ok.injEq, reduceCtorEq] at h
  rw [h]

theorem unop_good (b : Build) (op : UnOp) {r : R Value} (hr : GoodR r) : GoodR (unop b op r) := by
  intro v h
  cases op <;> simp only [unop] at h
  case bitNot =>
    obtain ⟨x, -, h⟩ := bind_ok h
    obtain ⟨i, -, h⟩ := bind_ok h
    simp only [Except.ok.injEq] at h; subst h; exact good_int.2 (fits_toInt _)
  case not =>
    obtain ⟨x, -, h⟩ := bind_ok h
    split at h
    · simp only [Except.ok.injEq] at h; subst h; exact good_bool _
    · simp only [Except.ok.injEq] at h; subst h; exact good_bool _
    · simp at h
  case minus =>
    obtain ⟨x, h1, h⟩ := bind_ok h
    obtain ⟨i, h2, h⟩ := bind_ok h
    obtain ⟨n, h3, h⟩ := bind_ok h
    simp only [Except.ok.injEq] at h; subst h
    rw [asInteger_inv h2] at h1
    have g := good_int.1 (hr _ h1)
    rw [good_int]
    unfold negI128 at h3
    split at h3
    · split at h3
      · simp at h3
      · simp only [Except.ok.injEq] at h3; subst h3; exact g
    · simp only [Except.ok.injEq] at h3; subst h3
      simp only [Fits, i128Min] at *; omega

set_option maxRecDepth 100000 in
theorem structs_small : ∀ s ∈ structs, s.size < 2 ^ 20 := by decide

theorem usizeAdd_lt {b : Build} {x y z : Nat} (h : usizeAdd b x y = .ok z) : z < 2 ^ 64 := by
  unfold usizeAdd at h
  split at h
  · rename_i h'; simp only [Except.ok.injEq] at h; omega
  · split at h
    · simp at h
    · simp only [Except.ok.injEq] at h; rw [← h]; exact Nat.mod_lt _ (by decide)

theorem castOp_good (b : Build) (fs : Option Fs) (ty : Expr) {r : R Value} : GoodR (castOp b fs ty r) := by
  intro v h
  simp only [castOp] at h
  obtain ⟨x, -, h⟩ := bind_ok h
  obtain ⟨i, -, h⟩ := bind_ok h
  split at h
  · simp at h
  · split at h
    · split at h
      · simp at h
      · rename_i s hs
        split at h
        · simp at h
        · rename_i f
          obtain ⟨stop, h1, h⟩ := bind_ok h
          obtain ⟨bytes, h2, h⟩ := bind_ok h
          obtain ⟨sv, h3, h⟩ := bind_ok h
          simp only [Except.ok.injEq] at h
          subst h
          refine decoded_good (findStruct_mem' hs) ?_ (by rintro a b c ⟨⟩) h3
          have := usizeAdd_lt h1
          unfold Fs.getBytes at h2
          split at h2
          · split at h2
            · simp only [Except.ok.injEq] at h2
              rw [← h2]
              simp only [List.length_take, List.length_drop]
              omega
            · simp at h2
          · simp at h2
    · simp at h

theorem setField_good {what : Str} {new : Value} (hn : Good new) (name : Str) : ∀ {fs fs' : List (Str × Value)},
    (∀ f ∈ fs, (∀ c ∈ f.1, Printable c) ∧ Good f.2) → setField what fs name new = .ok fs' →
    ∀ f ∈ fs', (∀ c ∈ f.1, Printable c) ∧ Good f.2 := by
  intro fs
  induction fs with
  | nil => intro fs' _ h; simp [setField] at h
  | cons f fs ih =>
    intro fs' hg h
    obtain ⟨n, v⟩ := f
    simp only [List.mem_cons, forall_eq_or_imp] at hg
    simp only [setField] at h
    split at h
    · simp only [Except.ok.injEq] at h; subst h
      simp only [List.mem_cons, forall_eq_or_imp]
      exact ⟨⟨hg.1.1, hn⟩, hg.2⟩
    · split at h
      · rename_i fs2 heq
        simp only [Except.ok.injEq] at h; subst h
        simp only [List.mem_cons, forall_eq_or_imp]
        exact ⟨hg.1, ih hg.2 heq⟩
      · simp at h

theorem setFields_good {what : Str} : ∀ {ups : List (Str × Value)} {fs fs' : List (Str × Value)}, (∀ u ∈ ups, Good u.2) →
    (∀ f ∈ fs, (∀ c ∈ f.1, Printable c) ∧ Good f.2) → setFields what fs ups = .ok fs' →
    ∀ f ∈ fs', (∀ c ∈ f.1, Printable c) ∧ Good f.2 := by
  intro ups
  induction ups with
  | nil => intro fs fs' _ hg h; simp only [setFields, Except.ok.injEq] at h; subst h; exact hg
  | cons u ups ih =>
    intro fs fs' hu hg h
    obtain ⟨n, v⟩ := u
    simp only [List.mem_cons, forall_eq_or_imp] at hu
    simp only [setFields] at h
    obtain ⟨fs2, h1, h⟩ := bind_ok h
    exact ih hu.2 (setField_good hu.1 _ hg h1) h

/-- the fields of an all-zero search key -/
def zeroSearchKey : List (Str × Value) :=
  [(s!' "min_objectid", .int 0), (s!' "max_objectid", .int 0), (s!' "min_type", .int 0), (s!' "max_type", .int 0),
   (s!' "min_offset", .int 0), (s!' "max_offset", .int 0), (s!' "min_transid", .int 0), (s!' "max_transid", .int 0)]

set_option maxRecDepth 100000 in
theorem searchKey_zero (b : Build) :
    structFromBytes b BTRFS_SEARCH_KEY none (List.replicate BTRFS_SEARCH_KEY.size 0) =
      .ok ⟨s!' "_btrfs_ioctl_search_key", none, zeroSearchKey⟩ := by rfl

/-- the fields of an all-zero key -/
def zeroKey : List (Str × Value) := [(s!' "objectid", .int 0), (s!' "type", .int 0), (s!' "offset", .int 0)]

set_option maxRecDepth 100000 in
theorem key_zero (b : Build) :
    structFromBytes b BTRFS_KEY none (List.replicate BTRFS_KEY.size 0) = .ok ⟨s!' "btrfs_key", none, zeroKey⟩ := by rfl

theorem zeroSearchKey_good : ∀ f ∈ zeroSearchKey, (∀ c ∈ f.1, Printable c) ∧ Good f.2 := by
  rw [← goodFields_iff]
  simp only [GoodFields, zeroSearchKey, AllIntsF, AllInts, plainFields, PlainNames]
  simp only [← plainStr_iff]
  decide

theorem zeroKey_good : ∀ f ∈ zeroKey, (∀ c ∈ f.1, Printable c) ∧ Good f.2 := by
  rw [← goodFields_iff]
  simp only [GoodFields, zeroKey, AllIntsF, AllInts, plainFields, PlainNames]
  simp only [← plainStr_iff]
  decide

theorem intArgs_good : ∀ {args : List (R Value)} {vs : List Value}, (∀ r ∈ args, GoodR r) →
    intArgs args = .ok vs → ∀ v ∈ vs, Good v := by
  intro args
  induction args with
  | nil => intro vs _ h; simp only [intArgs, Except.ok.injEq] at h; subst h; simp
  | cons r rs ih =>
    intro vs hg h
    simp only [List.mem_cons, forall_eq_or_imp] at hg
    simp only [intArgs] at h
    obtain ⟨v, h1, h⟩ := bind_ok h
    obtain ⟨i, h2, h⟩ := bind_ok h
    obtain ⟨ws, h3, h⟩ := bind_ok h
    simp only [Except.ok.injEq] at h; subst h
    simp only [List.mem_cons, forall_eq_or_imp]
    exact ⟨hg.1 _ h1, ih hg.2 h3⟩

theorem keyFn_good (b : Build) {args : List (R Value)} (hg : ∀ r ∈ args, GoodR r) : GoodR (keyFn b args) := by
  intro v h
  simp only [keyFn, searchKey_zero] at h
  obtain ⟨_, -, h⟩ := bind_ok h
  obtain ⟨vals, h1, h⟩ := bind_ok h
  obtain ⟨s, h2, h⟩ := bind_ok h
  have gv := intArgs_good hg h1
  simp only [Except.ok.injEq] at h2
  subst h2
  split at h
  · obtain ⟨fs, h3, h⟩ := bind_ok h
    simp only [Except.ok.injEq] at h; subst h
    simp only [List.mem_cons, forall_eq_or_imp, List.not_mem_nil, false_implies, implies_true, and_true] at gv
    rw [good_struct]
    refine ⟨?_, by rintro a b c ⟨⟩, setFields_good ?_ zeroSearchKey_good h3⟩
    · rw [← plainStr_iff]; decide
    · simp only [List.mem_cons, forall_eq_or_imp, List.not_mem_nil, false_implies, implies_true, and_true, good_int]
      exact ⟨gv.1, by decide, gv.2.1, by decide, gv.2.2.1, by decide, gv.2.2.2, by decide⟩
  · simp at h

theorem asStruct_inv {v : Value} {s : StructVal} (h : v.asStruct = .ok s) : v = .struct s.name s.key s.fields := by
  cases v <;> simp only [Value.asStruct, Except.ok.injEq, reduceCtorEq] at h
  rw [← h]

theorem asVec_inv {v : Value} {vs : List Value} (h : v.asVec = .ok vs) : ∃ k, v = .array vs k := by
  cases v <;> simp only [Value.asVec, Except.ok.injEq, reduceCtorEq] at h
  rw [← h]; exact ⟨_, rfl⟩

theorem searchFn_good (cfg : Cfg) (fs : Option Fs) {args : List (R Value)} : GoodR (searchFn cfg fs args) := by
  intro v h
  simp only [searchFn] at h
  obtain ⟨_, -, h⟩ := bind_ok h
  split at h
  · obtain ⟨v0, -, h⟩ := bind_ok h
    obtain ⟨tree, -, h⟩ := bind_ok h
    obtain ⟨v1, -, h⟩ := bind_ok h
    obtain ⟨key, -, h⟩ := bind_ok h
    obtain ⟨_, -, h⟩ := bind_ok h
    split at h
    · simp at h
    · obtain ⟨sa, -, h⟩ := bind_ok h
      obtain ⟨items, h1, h⟩ := bind_ok h
      obtain ⟨vs, h2, h⟩ := bind_ok h
      simp only [Except.ok.injEq] at h; subst h
      rw [good_array]
      exact decodeItems_good (search_good h1) h2
  · simp at h

theorem arg1_good {msg : Str} {args : List (R Value)} (hg : ∀ r ∈ args, GoodR r) : GoodR (arg1 msg args) := by
  intro v h
  simp only [arg1] at h
  obtain ⟨_, -, h⟩ := bind_ok h
  split at h
  · exact hg _ (List.mem_cons_self ..) v h
  · simp at h

theorem keyofFn_good (b : Build) {args : List (R Value)} (hg : ∀ r ∈ args, GoodR r) : GoodR (keyofFn b args) := by
  intro v h
  simp only [keyofFn, key_zero] at h
  obtain ⟨x, h1, h⟩ := bind_ok h
  obtain ⟨s, h2, h⟩ := bind_ok h
  have g := arg1_good hg _ h1
  rw [asStruct_inv h2, good_struct] at g
  split at h
  · rename_i oid ty off hk
    obtain ⟨f1, f2, f3⟩ := g.2.1 _ _ _ hk
    obtain ⟨k, h3, h⟩ := bind_ok h
    obtain ⟨fs, h4, h⟩ := bind_ok h
    simp only [Except.ok.injEq] at h3 h; subst h3 h
    rw [good_struct]
    refine ⟨?_, by rintro a b c ⟨⟩, setFields_good ?_ zeroKey_good h4⟩
    · rw [← plainStr_iff]; decide
    · simp only [List.mem_cons, forall_eq_or_imp, List.not_mem_nil, false_implies, implies_true, and_true, good_int]
      exact ⟨f1, f2, f3⟩
  · simp at h

theorem callFn_good (cfg : Cfg) (fs : Option Fs) (f : R Value) {args : List (R Value)} (hg : ∀ r ∈ args, GoodR r) :
    GoodR (callFn cfg fs f args) := by
  intro v h
  simp only [callFn] at h
  obtain ⟨fv, -, h⟩ := bind_ok h
  obtain ⟨fn, -, h⟩ := bind_ok h
  cases fn <;> simp only at h
  case key => exact keyFn_good _ hg v h
  case search => exact searchFn_good _ _ v h
  case typeOf =>
    simp only [typeofFn] at h
    obtain ⟨x, -, h⟩ := bind_ok h
    simp only [Except.ok.injEq] at h; subst h; exact good_str _
  case keyOf => exact keyofFn_good _ hg v h
  case len =>
    simp only [lenFn] at h
    obtain ⟨x, -, h⟩ := bind_ok h
    obtain ⟨vec, -, h⟩ := bind_ok h
    split at h
    · rename_i hi
      simp only [Except.ok.injEq] at h; subst h; exact good_int.2 ((inI128_iff _).1 hi)
    · simp at h
  case hist =>
    simp only [histFn] at h
    obtain ⟨_, -, h⟩ := bind_ok h
    simp only [Except.ok.injEq] at h; subst h; rw [good_array]; simp
  case str =>
    simp only [strFn] at h
    obtain ⟨x, -, h⟩ := bind_ok h
    split at h
    · simp only [Except.ok.injEq] at h; subst h; exact good_str _
    · obtain ⟨t, -, h⟩ := bind_ok h
      simp only [Except.ok.injEq] at h; subst h; exact good_str _

theorem fieldLookup_mem {fs : List (Str × Value)} {name : Str} {v : Value} (h : fieldLookup fs name = some v) :
    (name, v) ∈ fs := by
  induction fs with
  | nil => simp [fieldLookup] at h
  | cons f fs ih =>
    obtain ⟨n, w⟩ := f
    simp only [fieldLookup] at h
    split at h
    · rename_i hn; simp only [Option.some.injEq] at h; subst h hn; simp
    · simp [ih h]

theorem fieldOp_good {r : R Value} (f : Expr) (hr : GoodR r) : GoodR (fieldOp r f) := by
  intro v h
  simp only [fieldOp] at h
  obtain ⟨x, h1, h⟩ := bind_ok h
  obtain ⟨s, h2, h⟩ := bind_ok h
  have g := hr _ h1
  rw [asStruct_inv h2, good_struct] at g
  split at h
  · simp only [StructVal.field, orErr] at h
    split at h
    · rename_i w hw
      simp only [Except.ok.injEq] at h; subst h
      exact (g.2.2 _ (fieldLookup_mem hw)).2
    · simp at h
  · simp at h

theorem indexOp_good {r i : R Value} (hr : GoodR r) : GoodR (indexOp r i) := by
  intro v h
  simp only [indexOp] at h
  obtain ⟨x, h1, h⟩ := bind_ok h
  obtain ⟨vec, h2, h⟩ := bind_ok h
  obtain ⟨iv, -, h⟩ := bind_ok h
  obtain ⟨idx, -, h⟩ := bind_ok h
  obtain ⟨n, -, h⟩ := bind_ok h
  obtain ⟨k, hx⟩ := asVec_inv h2
  rw [hx] at h1
  have g := good_array.1 (hr _ h1)
  simp only [orErr] at h
  split at h
  · rename_i w hw
    simp only [Except.ok.injEq] at h; subst h
    exact g _ (List.mem_of_getElem? hw)
  · simp at h

/-! ### expressions and states -/

/-- every variable, in every scope, holds a good value -/
def GoodVars (vs : Vars Value) : Prop := ∀ s ∈ vs, ∀ x v, s x = some v → Good v

theorem GoodVars.get {vs : Vars Value} (h : GoodVars vs) {x : Str} {v : Value} (hx : vs.get x = some v) : Good v := by
  induction vs with
  | nil => simp [Vars.get] at hx
  | cons s vs ih =>
    simp only [Vars.get] at hx
    split at hx
    · rename_i w hw
      simp only [Option.some.injEq] at hx; subst hx
      exact h s (List.mem_cons_self ..) _ _ hw
    · exact ih (fun s' hs' => h s' (List.mem_cons_of_mem _ hs')) hx

theorem goodScope_set {s : Scope Value} {k : Str} {w : Value} (hs : ∀ x v, s x = some v → Good v) (hw : Good w) :
    ∀ x v, s.set k w x = some v → Good v := by
  intro x v h
  simp only [Scope.set] at h
  split at h
  · simp only [Option.some.injEq] at h; subst h; exact hw
  · exact hs x v h

theorem GoodVars.cons {s : Scope Value} {vs : Vars Value} :
    GoodVars (s :: vs) ↔ (∀ x v, s x = some v → Good v) ∧ GoodVars vs := by
  simp only [GoodVars, List.mem_cons, forall_eq_or_imp]

theorem GoodVars.overwrite {k : Str} {w : Value} (hw : Good w) : ∀ {vs vs' : Vars Value}, GoodVars vs →
    vs.overwrite k w = some vs' → GoodVars vs' := by
  intro vs
  induction vs with
  | nil => intro vs' _ h; simp [Vars.overwrite] at h
  | cons s vs ih =>
    intro vs' hg h
    rw [GoodVars.cons] at hg
    simp only [Vars.overwrite] at h
    split at h
    · simp only [Option.some.injEq] at h; subst h
      rw [GoodVars.cons]
      exact ⟨goodScope_set hg.1 hw, hg.2⟩
    · split at h
      · rename_i vs2 heq
        simp only [Option.some.injEq] at h; subst h
        rw [GoodVars.cons]
        exact ⟨hg.1, ih hg.2 heq⟩
      · simp at h

theorem GoodVars.insert {k : Str} {w : Value} (hw : Good w) {vs vs' : Vars Value} (hg : GoodVars vs)
    (h : vs.insert k w = .ok vs') : GoodVars vs' := by
  unfold Vars.insert at h
  split at h
  · rename_i vs2 heq
    simp only [Except.ok.injEq] at h; subst h
    exact GoodVars.overwrite hw hg heq
  · split at h
    · simp at h
    · simp only [Except.ok.injEq] at h; subst h
      rw [GoodVars.cons] at hg ⊢
      exact ⟨goodScope_set hg.1 hw, hg.2⟩

theorem GoodVars.modify {k : Str} {f : Value → R Value} (hf : ∀ v v', Good v → f v = .ok v' → Good v') :
    ∀ {vs vs' : Vars Value}, GoodVars vs → vs.modify f k = some (.ok vs') → GoodVars vs' := by
  intro vs
  induction vs with
  | nil => intro vs' _ h; simp [Vars.modify] at h
  | cons s vs ih =>
    intro vs' hg h
    rw [GoodVars.cons] at hg
    simp only [Vars.modify] at h
    split at h
    · rename_i v hv
      split at h
      · rename_i v' hv'
        simp only [Option.some.injEq, Except.ok.injEq] at h; subst h
        rw [GoodVars.cons]
        exact ⟨goodScope_set hg.1 (hf _ _ (hg.1 _ _ hv) hv'), hg.2⟩
      · simp at h
    · split at h
      · rename_i vs2 heq
        simp only [Option.some.injEq, Except.ok.injEq] at h; subst h
        rw [GoodVars.cons]
        exact ⟨hg.1, ih hg.2 heq⟩
      · simp at h
      · simp at h

mutual
theorem evalExpr_good (cfg : Cfg) (st : State) (hg : GoodVars st.vars) : ∀ e : Expr, (∀ i ∈ e.literals, Fits i) →
    GoodR (evalExpr cfg st e)
  | .ident name, _ => by
    intro v h
    rw [evalExpr] at h
    unfold orErr at h
    split at h
    · rename_i w hw
      simp only [Except.ok.injEq] at h; subst h
      exact hg.get hw
    · simp at h
  | .int i, hl => by
    intro v h; simp only [evalExpr, Except.ok.injEq] at h; subst h
    rw [good_int]; exact hl i (by simp [Expr.literals])
  | .bool b, _ => by intro v h; simp only [evalExpr, Except.ok.injEq] at h; subst h; exact good_bool _
  | .str s, _ => by intro v h; simp only [evalExpr, Except.ok.injEq] at h; subst h; exact good_str _
  | .paren e, hl => by rw [evalExpr]; exact evalExpr_good cfg st hg e (by simpa only [Expr.literals] using hl)
  | .field e f, hl => by
    rw [evalExpr]
    exact fieldOp_good f (evalExpr_good cfg st hg e (by simpa only [Expr.literals] using hl))
  | .index e i, hl => by
    rw [evalExpr]
    simp only [Expr.literals, List.mem_append] at hl
    exact indexOp_good (evalExpr_good cfg st hg e (fun j hj => hl j (.inl hj)))
  | .call f args, hl => by
    rw [evalExpr]
    simp only [Expr.literals, List.mem_append] at hl
    exact callFn_good cfg _ _ (evalArgs_good cfg st hg args (fun j hj => hl j (.inr hj)))
  | .bin op l r, hl => by
    rw [evalExpr]
    simp only [Expr.literals, List.mem_append] at hl
    exact binop_good op (evalExpr_good cfg st hg l (fun j hj => hl j (.inl hj)))
      (evalExpr_good cfg st hg r (fun j hj => hl j (.inr hj)))
  | .un op e, hl => by
    rw [evalExpr]; exact unop_good _ op (evalExpr_good cfg st hg e (by simpa only [Expr.literals] using hl))
  | .cast ty e, hl => by rw [evalExpr]; exact castOp_good _ _ ty
theorem evalArgs_good (cfg : Cfg) (st : State) (hg : GoodVars st.vars) : ∀ es : List Expr,
    (∀ i ∈ literalsL es, Fits i) → ∀ r ∈ evalArgs cfg st es, GoodR r
  | [], _ => by simp [evalArgs]
  | e :: es, hl => by
    simp only [literalsL, List.mem_append] at hl
    simp only [evalArgs, List.mem_cons, forall_eq_or_imp]
    exact ⟨evalExpr_good cfg st hg e (fun j hj => hl j (.inl hj)),
      evalArgs_good cfg st hg es (fun j hj => hl j (.inr hj))⟩
end

theorem modifyNth_good {er : Err} {f : Value → R Value} (hf : ∀ v v', Good v → f v = .ok v' → Good v') :
    ∀ {vs vs' : List Value} {n : Nat}, (∀ v ∈ vs, Good v) → modifyNth er f vs n = .ok vs' → ∀ v ∈ vs', Good v := by
  intro vs
  induction vs with
  | nil => intro vs' n _ h; simp [modifyNth] at h
  | cons v vs ih =>
    intro vs' n hg h
    simp only [List.mem_cons, forall_eq_or_imp] at hg
    cases n with
    | zero =>
      simp only [modifyNth] at h
      obtain ⟨v', h1, h⟩ := bind_ok h
      simp only [Except.ok.injEq] at h; subst h
      simp only [List.mem_cons, forall_eq_or_imp]
      exact ⟨hf _ _ hg.1 h1, hg.2⟩
    | succ n =>
      simp only [modifyNth] at h
      obtain ⟨vs2, h1, h⟩ := bind_ok h
      simp only [Except.ok.injEq] at h; subst h
      simp only [List.mem_cons, forall_eq_or_imp]
      exact ⟨hg.1, ih hg.2 h1⟩

theorem modifyField_good {what : Str} {f : Value → R Value} (hf : ∀ v v', Good v → f v = .ok v' → Good v') {name : Str} :
    ∀ {fs fs' : List (Str × Value)}, (∀ f ∈ fs, (∀ c ∈ f.1, Printable c) ∧ Good f.2) →
    modifyField what f fs name = .ok fs' → ∀ f ∈ fs', (∀ c ∈ f.1, Printable c) ∧ Good f.2 := by
  intro fs
  induction fs with
  | nil => intro fs' _ h; simp [modifyField] at h
  | cons p fs ih =>
    intro fs' hg h
    obtain ⟨n, v⟩ := p
    simp only [List.mem_cons, forall_eq_or_imp] at hg
    simp only [modifyField] at h
    split at h
    · obtain ⟨v', h1, h⟩ := bind_ok h
      simp only [Except.ok.injEq] at h; subst h
      simp only [List.mem_cons, forall_eq_or_imp]
      exact ⟨⟨hg.1.1, hf _ _ hg.1.2 h1⟩, hg.2⟩
    · obtain ⟨fs2, h1, h⟩ := bind_ok h
      simp only [Except.ok.injEq] at h; subst h
      simp only [List.mem_cons, forall_eq_or_imp]
      exact ⟨hg.1, ih hg.2 h1⟩

theorem modifyLhs_good (cfg : Cfg) (st : State) (hg : GoodVars st.vars) : ∀ (e : Expr) (f : Value → R Value)
    (vs : Vars Value), (∀ v v', Good v → f v = .ok v' → Good v') → modifyLhs cfg st e f = .ok vs → GoodVars vs
  | .ident name, f, vs, hf, h => by
    simp only [modifyLhs] at h
    split at h
    · rename_i r hr
      rw [h] at hr
      exact hg.modify hf hr
    · simp at h
  | .field e fld, f, vs, hf, h => by
    simp only [modifyLhs] at h
    split at h
    · refine modifyLhs_good cfg st hg e _ vs ?_ h
      intro v v' gv hv
      split at hv
      · obtain ⟨fs', h1, hv⟩ := bind_ok hv
        simp only [Except.ok.injEq] at hv; subst hv
        rw [good_struct] at gv ⊢
        exact ⟨gv.1, gv.2.1, modifyField_good hf gv.2.2 h1⟩
      · simp at hv
    · simp at h
  | .index e i, f, vs, hf, h => by
    simp only [modifyLhs] at h
    obtain ⟨iv, -, h⟩ := bind_ok h
    obtain ⟨idx, -, h⟩ := bind_ok h
    refine modifyLhs_good cfg st hg e _ vs ?_ h
    intro v v' gv hv
    split at hv
    · obtain ⟨n, -, hv⟩ := bind_ok hv
      obtain ⟨vec', h1, hv⟩ := bind_ok hv
      simp only [Except.ok.injEq] at hv; subst hv
      rw [good_array] at gv ⊢
      exact modifyNth_good hf gv h1
    · simp at hv
  | .int _, _, _, _, h => by simp [modifyLhs] at h
  | .bool _, _, _, _, h => by simp [modifyLhs] at h
  | .str _, _, _, _, h => by simp [modifyLhs] at h
  | .paren _, _, _, _, h => by simp [modifyLhs] at h
  | .call _ _, _, _, _, h => by simp [modifyLhs] at h
  | .bin _ _ _, _, _, _, h => by simp [modifyLhs] at h
  | .un _ _, _, _, _, h => by simp [modifyLhs] at h
  | .cast _ _, _, _, _, h => by simp [modifyLhs] at h

theorem good_closed (cfg : Cfg) :
    InvClosed cfg (fun e => ∀ i ∈ e.literals, Fits i) (fun st => GoodVars st.vars) where
  push := by
    intro st h
    simp only [Vars.push, GoodVars.cons]
    exact ⟨by simp [Scope.empty], h⟩
  pop := by
    intro st vs h hp
    cases hv : st.vars with
    | nil => rw [hv] at hp; simp [Vars.pop] at hp
    | cons s r =>
      rw [hv] at hp h
      simp only [Vars.pop, Except.ok.injEq] at hp; subst hp
      exact (GoodVars.cons.1 h).2
  assign := by
    intro st l r hl hr h
    unfold evalAssign
    split
    · exact h
    · rename_i v hv
      have gv := evalExpr_good cfg st h r hr v hv
      split
      · split
        · rename_i vs hvs; exact h.insert gv hvs
        · exact h
      · split
        · rename_i vs hvs
          exact modifyLhs_good cfg st h l _ vs (by rintro v v' - h'; simp only [Except.ok.injEq] at h'; subst h'; exact gv) hvs
        · exact h
  filesystem := by intro st e _ h; rw [evalFilesystem_vars]; exact h
  write := by intro st s h; rw [State.write_vars]; exact h
  bind := by
    intro st e items k he h hev v hv st' name vs h' hi
    have g := evalExpr_good cfg st h e he _ hev
    exact h'.insert (good_array.1 g v hv) hi

end Btrd
