/-
The decoder on arbitrary well-formed descriptions.
-/
import Verif.Lemmas.Decode
import Verif.Spec.Ints

namespace Btrd
open Spec

/-! ### integers inside values -/

theorem allIntsL_iff (P : Int → Prop) (vs : List Value) : AllIntsL P vs ↔ ∀ v ∈ vs, AllInts P v := by
  induction vs with
  | nil => simp [AllIntsL]
  | cons v vs ih => simp [AllIntsL, ih]

theorem allIntsF_iff (P : Int → Prop) (fs : List (Str × Value)) : AllIntsF P fs ↔ ∀ f ∈ fs, AllInts P f.2 := by
  induction fs with
  | nil => simp [AllIntsF]
  | cons f fs ih => obtain ⟨n, v⟩ := f; simp [AllIntsF, ih]

theorem allIntsF_append (P : Int → Prop) (fs gs : List (Str × Value)) :
    AllIntsF P (fs ++ gs) ↔ AllIntsF P fs ∧ AllIntsF P gs := by
  simp only [allIntsF_iff, List.mem_append]
  constructor
  · intro h; exact ⟨fun f hf => h f (.inl hf), fun f hf => h f (.inr hf)⟩
  · rintro ⟨h1, h2⟩ f (hf | hf)
    · exact h1 f hf
    · exact h2 f hf

mutual
theorem AllInts.mono {P Q : Int → Prop} (h : ∀ i, P i → Q i) : ∀ v, AllInts P v → AllInts Q v
  | .int i, hv => by simp only [AllInts] at *; exact h i hv
  | .str _, _ => by simp only [AllInts]
  | .bool _, _ => by simp only [AllInts]
  | .func _, _ => by simp only [AllInts]
  | .array vs _, hv => by simp only [AllInts] at *; exact AllIntsL.mono h vs hv
  | .struct _ k fs, hv => by
    simp only [AllInts] at *
    refine ⟨fun a b c hk => ?_, AllIntsF.mono h fs hv.2⟩
    obtain ⟨h1, h2, h3⟩ := hv.1 a b c hk
    exact ⟨h _ h1, h _ h2, h _ h3⟩
theorem AllIntsL.mono {P Q : Int → Prop} (h : ∀ i, P i → Q i) : ∀ vs, AllIntsL P vs → AllIntsL Q vs
  | [], _ => by simp only [AllIntsL]
  | v :: vs, hv => by
    simp only [AllIntsL] at *
    exact ⟨AllInts.mono h v hv.1, AllIntsL.mono h vs hv.2⟩
theorem AllIntsF.mono {P Q : Int → Prop} (h : ∀ i, P i → Q i) : ∀ fs, AllIntsF P fs → AllIntsF Q fs
  | [], _ => by simp only [AllIntsF]
  | (_, v) :: fs, hv => by
    simp only [AllIntsF] at *
    exact ⟨AllInts.mono h v hv.1, AllIntsF.mono h fs hv.2⟩
end

/-- representable as a `u64` -/
def IsU64 (i : Int) : Prop := 0 ≤ i ∧ i < 2 ^ 64

theorem leAt_isU64 (m : Mem) (pos n : Nat) (h : n ≤ 8) : IsU64 (leAt m pos n) := by
  have h1 := leAt_lt m n pos
  have h2 : 256 ^ n ≤ 256 ^ 8 := Nat.pow_le_pow_right (by decide) h
  have h3 : (256 : Nat) ^ 8 = 2 ^ 64 := by decide
  refine ⟨Int.natCast_nonneg _, ?_⟩
  have : leAt m pos n < 2 ^ 64 := by omega
  exact_mod_cast this

theorem asFields_u64 (name : Option Str) (v : Value) (h : AllInts IsU64 v) : AllIntsF IsU64 (asFields name v) := by
  cases name with
  | some n => simp only [asFields, AllIntsF]; exact ⟨h, trivial⟩
  | none =>
    cases v <;> simp only [asFields, components, AllIntsF]
    simp only [AllInts] at h
    exact h.2

mutual
theorem valueAt_u64 (m : Mem) : ∀ (t : Ty) (pos : Nat), AllInts IsU64 (valueAt m pos t)
  | .u8, pos => by simp only [valueAt, AllInts]; exact leAt_isU64 _ _ _ (by decide)
  | .u16, pos => by simp only [valueAt, AllInts]; exact leAt_isU64 _ _ _ (by decide)
  | .u32, pos => by simp only [valueAt, AllInts]; exact leAt_isU64 _ _ _ (by decide)
  | .u64, pos => by simp only [valueAt, AllInts]; exact leAt_isU64 _ _ _ (by decide)
  | .array t n, pos => by
    simp only [valueAt, AllInts, allIntsL_iff, List.mem_map]
    rintro v ⟨i, -, rfl⟩
    exact valueAt_u64 m t _
  | .struct _ fs, pos => by
    simp only [valueAt, AllInts]; exact ⟨by simp, fieldsAt_u64 m fs pos⟩
  | .union _ fs, pos => by
    simp only [valueAt, AllInts]; exact ⟨by simp, membersAt_u64 m fs pos⟩
  | .trailingString _, pos => by simp [valueAt, AllInts, IsU64]
  | .trailingTypes _ _, pos => by simp [valueAt, AllInts, IsU64]
  | .dynamic _, pos => by simp [valueAt, AllInts, IsU64]
theorem fieldsAt_u64 (m : Mem) : ∀ (fs : List (Option Str × Ty)) (pos : Nat), AllIntsF IsU64 (fieldsAt m pos fs)
  | [], _ => by simp only [fieldsAt, AllIntsF]
  | (name, t) :: fs, pos => by
    simp only [fieldsAt, allIntsF_append]
    exact ⟨asFields_u64 _ _ (valueAt_u64 m t pos), fieldsAt_u64 m fs _⟩
theorem membersAt_u64 (m : Mem) : ∀ (fs : List (Option Str × Ty)) (pos : Nat), AllIntsF IsU64 (membersAt m pos fs)
  | [], _ => by simp only [membersAt, AllIntsF]
  | (name, t) :: fs, pos => by
    simp only [membersAt, allIntsF_append]
    exact ⟨asFields_u64 _ _ (valueAt_u64 m t pos), membersAt_u64 m fs _⟩
end

/-! ### steps -/

theorem lookup_eq (fs : List (Str × Value)) (name : Str) : lookup fs name = fieldLookup fs name := by
  induction fs with
  | nil => rfl
  | cons f fs ih =>
    obtain ⟨n, v⟩ := f
    simp only [fieldLookup, ← ih, lookup, List.find?_cons]
    by_cases h : n = name
    · simp [h]
    · simp [h, beq_eq_false_iff_ne.2 h]

theorem getFieldValue_eq (fs : List (Str × Value)) (name : Str) :
    getFieldValue name fs =
      match lookup fs name with
      | none => R.err (.noLengthField name)
      | some v => match v.asInteger with
        | .ok i => .ok (asUsize i)
        | .error e => .error e := by
  rw [lookup_eq]
  induction fs with
  | nil => rfl
  | cons f fs ih =>
    obtain ⟨n, v⟩ := f
    by_cases h : n = name
    · simp only [getFieldValue, fieldLookup, h, if_true]
      cases v.asInteger <;> rfl
    · simp only [getFieldValue, fieldLookup, h, if_false, ih]

theorem lookup_mem {fs : List (Str × Value)} {name : Str} {v : Value} (h : lookup fs name = some v) :
    (name, v) ∈ fs := by
  simp only [lookup, Option.map_eq_some_iff] at h
  obtain ⟨⟨n, w⟩, h1, h2⟩ := h
  have := List.find?_some h1
  have hm := List.mem_of_find?_eq_some h1
  simp at this h2
  subst this; subst h2
  exact hm

theorem asUsize_nat {i : Int} (h : IsU64 i) : ∃ n : Nat, i = n ∧ n < 2 ^ 64 ∧ asUsize i = n := by
  obtain ⟨h1, h2⟩ := h
  refine ⟨i.toNat, by omega, by omega, ?_⟩
  simp only [asUsize]
  rw [Int.emod_eq_of_lt h1 h2]

/-- reading a length: the value of the first field with the name, when it is an integer -/
theorem getFieldValue_u64 {fs : List (Str × Value)} (hu : AllIntsF IsU64 fs) (name : Str) :
    (∃ n : Nat, n < 2 ^ 64 ∧ lookup fs name = some (.int n) ∧ getFieldValue name fs = .ok n) ∨
    ((∀ n : Nat, lookup fs name ≠ some (.int n)) ∧
      (getFieldValue name fs = R.err (.noLengthField name) ∨
        ∃ got, getFieldValue name fs = R.err (.typeMismatch s!' "integer" got))) := by
  rw [getFieldValue_eq]
  cases hl : lookup fs name with
  | none => right; simp
  | some v =>
    have hm := (allIntsF_iff _ _).1 hu _ (lookup_mem hl)
    cases v with
    | int i =>
      simp only [AllInts] at hm
      obtain ⟨n, rfl, h1, h2⟩ := asUsize_nat hm
      left
      exact ⟨n, h1, rfl, by simp [Value.asInteger, h2]⟩
    | _ => right; exact ⟨by simp, .inr ⟨_, rfl⟩⟩

theorem fieldStep_fixed_eq (b : Build) {what : Str} (name : Option Str) (t : Ty) (hf : FixedSize t) (ha : AnonOks [(name, t)])
    (bytes : Bytes) (pos : Nat) (hp : pos ≤ bytes.length) (acc : List (Str × Value)) :
    fieldStep b what (name, t) bytes pos acc =
      if pos + width t ≤ bytes.length then
        .ok (pos + width t, acc ++ asFields name (valueAt (mem bytes) pos t))
      else R.err (.shortRead (name.getD s!' "(anon)") [] (bytes.length - pos) (width t)) := by
  rw [fieldStep_fixed b name t hf]
  simp only [sliceFrom, if_pos hp]
  obtain ⟨ha1, -, ha3⟩ := AnonOks_cons name t [] ha
  by_cases h : pos + width t ≤ bytes.length
  · rw [if_pos h, fieldWrap_ok name t.size (toValue b t) (bytes.drop pos) (valueAt (mem bytes) pos t)
      (by rw [size_eq_width, List.length_drop]; omega) (toValue_fixed b t hf ha1 bytes pos h)
      (fun hn => ha3 hn _ _)]
    simp [size_eq_width]
  · rw [if_neg h]
    simp only [fieldWrap]
    rw [if_neg (by rw [size_eq_width, List.length_drop]; omega), size_eq_width, List.length_drop]

theorem fieldStep_string (b : Build) {what : Str} (name : Option Str) (l : Str) (bytes : Bytes) (pos : Nat)
    (acc : List (Str × Value)) :
    fieldStep b what (name, .trailingString l) bytes pos acc = trailingStringStep b what name l bytes pos acc := rfl

theorem fieldStep_types (b : Build) {what : Str} (name : Option Str) (t : Ty) (l : Str) (bytes : Bytes) (pos : Nat)
    (acc : List (Str × Value)) :
    fieldStep b what (name, .trailingTypes t l) bytes pos acc =
      trailingTypesStep b what name (toValue b t) t.size l bytes pos acc := rfl

theorem fieldStep_dynamic (b : Build) {what : Str} (name : Option Str) (cb : Bytes → Except Fail (List (Option Str × Ty)))
    (bytes : Bytes) (pos : Nat) (acc : List (Str × Value)) :
    fieldStep b what (name, .dynamic cb) bytes pos acc =
      match sliceFrom bytes pos with
      | .error e => .error e
      | .ok s => dynStep b what (cb s) s pos acc := rfl

/-- the string arm, with the length known -/
theorem trailingStringStep_eq (b : Build) {what : Str} (name l : Str) (bytes : Bytes) (hb : bytes.length < 2 ^ 64) (pos n : Nat)
    (hp : pos ≤ bytes.length) (hn64 : n < 2 ^ 64) (acc : List (Str × Value))
    (hn : getFieldValue l acc = .ok n) :
    (pos + n ≤ bytes.length → trailingStringStep b what (some name) l bytes pos acc =
      .ok (pos + n, acc ++ [(name, .str (bytesAt bytes pos n))])) ∧
    (¬ pos + n ≤ bytes.length → ∀ r, trailingStringStep b what (some name) l bytes pos acc ≠ .ok r) ∧
    (pos + n < 2 ^ 64 → ¬ pos + n ≤ bytes.length →
      trailingStringStep b what (some name) l bytes pos acc =
        R.err (.shortRead what s!' " for string read" bytes.length (pos + n))) := by
  refine ⟨?_, ?_, ?_⟩
  · intro h
    have : n + pos < 2 ^ 64 := by omega
    simp only [trailingStringStep, hn, bind, Except.bind, usizeAdd, if_pos this, orErr, sliceRange]
    rw [if_pos (by omega), if_pos (by omega)]
    simp [bytesAt]
  · intro h r
    simp only [trailingStringStep, hn, bind, Except.bind, usizeAdd]
    split
    · simp at *
    · rename_i stop heq
      split at heq
      · simp only [Except.ok.injEq] at heq
        subst heq
        rw [if_neg (by omega)]; simp
      · split at heq
        · simp at heq
        · simp only [Except.ok.injEq] at heq
          subst heq
          have hw : (n + pos) % 2 ^ 64 < pos := by omega
          generalize (n + pos) % 2 ^ 64 = stop at hw
          split
          · simp only [orErr, sliceRange]
            rw [if_neg (by omega)]; simp
          · simp
  · intro h1 h2
    have : n + pos < 2 ^ 64 := by omega
    simp only [trailingStringStep, hn, bind, Except.bind, usizeAdd, if_pos this]
    rw [if_neg (by omega), Nat.add_comm n]

theorem trailingLoop_ok (b : Build) (t : Ty) (hf : FixedSize t) (ha : AnonOk t) (bytes : Bytes) :
    ∀ k pos, pos + k * width t ≤ bytes.length →
      trailingLoop (toValue b t) t.size bytes k pos =
        .ok (pos + k * width t, (List.range k).map fun i => valueAt (mem bytes) (pos + i * width t) t) := by
  intro k
  induction k with
  | zero => intro pos _; simp [trailingLoop]
  | succ k ih =>
    intro pos h
    have hmul : (k + 1) * width t = width t + k * width t := by rw [Nat.succ_mul, Nat.add_comm]
    rw [hmul] at h
    rw [trailingLoop, size_eq_width]
    simp only [sliceRange]
    rw [if_pos (by omega)]
    simp only [bind, Except.bind]
    have hv : toValue b t (List.take (pos + width t - pos) (List.drop pos bytes)) =
        .ok (valueAt (mem bytes) pos t) := by
      have h0 := toValue_fixed b t hf ha ((bytes.drop pos).take (pos + width t - pos)) 0 (by
        simp only [List.length_take, List.length_drop]; omega)
      rw [List.drop_zero] at h0
      rw [h0]
      congr 1
      apply valueAt_congr
      intro i hi
      simp only [mem, List.getD_eq_getElem?_getD, List.getElem?_take, List.getElem?_drop]
      rw [if_pos (by omega)]
      simp
    simp only [hv]
    rw [← size_eq_width] at *
    rw [ih (pos + t.size) (by omega)]
    simp only
    rw [hmul, List.range_succ_eq_map]
    simp only [List.map_cons, List.map_map, Function.comp_def, Nat.zero_mul, Nat.add_zero]
    congr 2
    · omega
    · congr 1
      apply List.map_congr_left
      intro i _
      rw [Nat.succ_mul]
      congr 1
      omega

theorem trailingLoop_short (b : Build) (t : Ty) (bytes : Bytes) :
    ∀ k pos, ¬ pos + k * width t ≤ bytes.length → pos ≤ bytes.length →
      ∀ r, trailingLoop (toValue b t) t.size bytes k pos ≠ .ok r := by
  intro k
  induction k with
  | zero => intro pos h hp; omega
  | succ k ih =>
    intro pos h hp r
    have hmul : (k + 1) * width t = width t + k * width t := by rw [Nat.succ_mul, Nat.add_comm]
    rw [hmul] at h
    rw [trailingLoop, size_eq_width]
    simp only [sliceRange]
    split
    · rename_i h2
      simp only [bind, Except.bind]
      split
      · simp
      · rename_i hl
        have := ih (pos + width t) (by omega) (by omega)
        rw [size_eq_width] at this
        split
        · simp
        · rename_i heq
          exact absurd heq (this _)
    · simp [bind, Except.bind]

theorem trailingTypesStep_eq (b : Build) {what : Str} (name l : Str) (t : Ty) (hf : FixedSize t) (ha : AnonOk t)
    (bytes : Bytes) (hb : bytes.length < 2 ^ 64) (pos n : Nat)
    (hp : pos ≤ bytes.length) (acc : List (Str × Value))
    (hn : getFieldValue l acc = .ok n) :
    (pos + n * width t ≤ bytes.length → trailingTypesStep b what (some name) (toValue b t) t.size l bytes pos acc =
      .ok (pos + n * width t, acc ++ [(name, .array ((List.range n).map fun i =>
        valueAt (mem bytes) (pos + i * width t) t) false)])) ∧
    (¬ pos + n * width t ≤ bytes.length →
      ∀ r, trailingTypesStep b what (some name) (toValue b t) t.size l bytes pos acc ≠ .ok r) ∧
    (pos + n * width t < 2 ^ 64 → ¬ pos + n * width t ≤ bytes.length →
      trailingTypesStep b what (some name) (toValue b t) t.size l bytes pos acc =
        R.err (.shortRead what s!' " for trailing types read" bytes.length (pos + n * width t))) := by
  have hcomm : t.size * n = n * width t := by rw [size_eq_width, Nat.mul_comm]
  refine ⟨?_, ?_, ?_⟩
  · intro h
    have h1 : t.size * n < 2 ^ 64 := by omega
    have h2 : t.size * n + pos < 2 ^ 64 := by omega
    simp only [trailingTypesStep, hn, bind, Except.bind, usizeMul, if_pos h1, usizeAdd, if_pos h2]
    rw [if_pos (by omega), trailingLoop_ok b t hf ha bytes n pos h]
    simp [orErr]
  · intro h r
    simp only [trailingTypesStep, hn, bind, Except.bind]
    split
    · simp
    · split
      · simp
      · split
        · split
          · simp
          · rename_i heq
            exact absurd heq (trailingLoop_short b t bytes n pos h hp _)
        · simp
  · intro h1 h2
    have h3 : t.size * n < 2 ^ 64 := by omega
    have h4 : t.size * n + pos < 2 ^ 64 := by omega
    simp only [trailingTypesStep, hn, bind, Except.bind, usizeMul, if_pos h3, usizeAdd, if_pos h4]
    rw [if_neg (by omega), hcomm, Nat.add_comm pos]

theorem dynStep_ok (b : Build) {what : Str} (gs : List (Option Str × Ty)) (hf : FixedSizes gs) (ha : AnonOks gs) (bytes : Bytes)
    (pos : Nat) (hp : pos ≤ bytes.length) (acc : List (Str × Value)) :
    dynStep b what (.ok gs) (bytes.drop pos) pos acc =
      if pos + widths gs ≤ bytes.length then .ok (pos + widths gs, acc ++ fieldsAt (mem bytes) pos gs)
      else R.err (.shortRead what [] (bytes.length - pos) (widths gs)) := by
  rw [dynStep, if_pos ((allStatic_iff gs).2 hf), sizeSum_eq_widths]
  split
  · rename_i h
    rw [List.length_drop] at h
    rw [if_pos (by omega), fieldsLoop_fixed b gs hf ha bytes pos 0 [] (by omega)]
    simp
  · rename_i h
    rw [List.length_drop] at h
    rw [if_neg (by omega), List.length_drop]

/-- fields of a description, one at a time -/
theorem WellFormed_fixed {name : Option Str} {t : Ty} {fs : List (Option Str × Ty)} (hf : FixedSize t)
    (h : WellFormed ((name, t) :: fs)) : AnonOks [(name, t)] ∧ WellFormed fs := by
  cases t <;> first | (simp only [FixedSize] at hf; done) | (simp only [WellFormed] at h; exact h.2)

theorem fieldsLoop_iff (b : Build) {what : Str} (bytes : Bytes) (hb : bytes.length < 2 ^ 64) : ∀ (fs : List (Option Str × Ty)),
    WellFormed fs → ∀ (pos : Nat) (seen : List (Str × Value)), pos ≤ bytes.length → AllIntsF IsU64 seen →
      ∀ (stop : Nat) (out : List (Str × Value)),
        fieldsLoop b what fs bytes pos seen = .ok (stop, out) ↔ Laid bytes fs pos seen out stop := by
  intro fs
  induction fs with
  | nil =>
    intro _ pos seen _ _ stop out
    rw [fieldsLoop]
    constructor
    · intro h
      simp only [Except.ok.injEq, Prod.mk.injEq] at h
      obtain ⟨rfl, rfl⟩ := h
      exact .done _ _
    · intro h
      cases h
      rfl
  | cons f fs ih =>
    intro hwf pos seen hp hu stop out
    obtain ⟨name, t⟩ := f
    rw [fieldsLoop]
    by_cases hf : FixedSize t
    · obtain ⟨ha, hwf'⟩ := WellFormed_fixed hf hwf
      have hu' : AllIntsF IsU64 (seen ++ asFields name (valueAt (mem bytes) pos t)) := by
        rw [allIntsF_append]; exact ⟨hu, asFields_u64 _ _ (valueAt_u64 _ _ _)⟩
      rw [fieldStep_fixed_eq b name t hf ha bytes pos hp seen]
      split
      · rename_i o a heq
        split at heq
        · rename_i hl
          simp only [Except.ok.injEq, Prod.mk.injEq] at heq
          obtain ⟨rfl, rfl⟩ := heq
          rw [ih hwf' _ _ hl hu']
          constructor
          · intro h; exact .fixed hf hl h
          · intro h
            cases h with
            | fixed _ _ h => exact h
            | string => simp [FixedSize] at hf
            | types => simp [FixedSize] at hf
            | dynamic => simp [FixedSize] at hf
        · simp at heq
      · rename_i e heq
        split at heq
        · simp at heq
        · rename_i hl
          constructor
          · simp
          · intro h
            cases h with
            | fixed _ h _ => exact absurd h hl
            | string => simp [FixedSize] at hf
            | types => simp [FixedSize] at hf
            | dynamic => simp [FixedSize] at hf
    · cases t with
      | trailingString l =>
        simp only [WellFormed] at hwf
        cases name with
        | none => exact absurd rfl hwf.1
        | some name =>
        rw [fieldStep_string]
        rcases getFieldValue_u64 hu l with ⟨n, hn64, hl, hg⟩ | ⟨hl, hg⟩
        · obtain ⟨h1, h2, -⟩ := trailingStringStep_eq b name l bytes hb pos n hp hn64 seen hg
          by_cases hle : pos + n ≤ bytes.length
          · rw [h1 hle]
            simp only
            rw [ih hwf.2 _ _ hle (by rw [allIntsF_append]; exact ⟨hu, by simp [AllIntsF, AllInts]⟩)]
            constructor
            · intro h; exact .string hl hle h
            · intro h
              cases h with
              | fixed h => exact absurd h hf
              | string hn _ h =>
                rw [hl] at hn
                simp only [Option.some.injEq, Value.int.injEq, Int.natCast_inj] at hn
                subst hn
                exact h
          · have h2 := h2 hle
            constructor
            · intro h
              split at h
              · rename_i heq; exact absurd heq (h2 _)
              · simp at h
            · intro h
              cases h with
              | fixed h => exact absurd h hf
              | string hn h _ =>
                rw [hl] at hn
                simp only [Option.some.injEq, Value.int.injEq, Int.natCast_inj] at hn
                subst hn
                exact absurd h hle
        · constructor
          · intro h
            rcases hg with hg | ⟨_, hg⟩ <;> simp [trailingStringStep, hg, bind, Except.bind] at h
          · intro h
            cases h with
            | fixed h => exact absurd h hf
            | string hn _ _ => exact absurd hn (hl _)
      | trailingTypes t l =>
        simp only [WellFormed] at hwf
        cases name with
        | none => exact absurd rfl hwf.1
        | some name =>
        obtain ⟨-, hft, hat, hwf'⟩ := hwf
        rw [fieldStep_types]
        rcases getFieldValue_u64 hu l with ⟨n, hn64, hl, hg⟩ | ⟨hl, hg⟩
        · obtain ⟨h1, h2, -⟩ := trailingTypesStep_eq b name l t hft hat bytes hb pos n hp seen hg
          by_cases hle : pos + n * width t ≤ bytes.length
          · rw [h1 hle]
            simp only
            rw [ih hwf' _ _ hle (by
              rw [allIntsF_append]; refine ⟨hu, ?_⟩
              simp only [AllIntsF, AllInts, and_true, allIntsL_iff, List.mem_map]
              rintro v ⟨i, -, rfl⟩
              exact valueAt_u64 _ _ _)]
            constructor
            · intro h; exact .types hl hle h
            · intro h
              cases h with
              | fixed h => exact absurd h hf
              | types hn _ h =>
                rw [hl] at hn
                simp only [Option.some.injEq, Value.int.injEq, Int.natCast_inj] at hn
                subst hn
                exact h
          · have h2 := h2 hle
            constructor
            · intro h
              split at h
              · rename_i heq; exact absurd heq (h2 _)
              · simp at h
            · intro h
              cases h with
              | fixed h => exact absurd h hf
              | types hn h _ =>
                rw [hl] at hn
                simp only [Option.some.injEq, Value.int.injEq, Int.natCast_inj] at hn
                subst hn
                exact absurd h hle
        · constructor
          · intro h
            rcases hg with hg | ⟨_, hg⟩ <;> simp [trailingTypesStep, hg, bind, Except.bind] at h
          · intro h
            cases h with
            | fixed h => exact absurd h hf
            | types hn _ _ => exact absurd hn (hl _)
      | dynamic cb =>
        simp only [WellFormed] at hwf
        rw [fieldStep_dynamic]
        simp only [sliceFrom, if_pos hp]
        cases hcb : cb (bytes.drop pos) with
        | error e =>
          rw [dynStep]
          constructor
          · intro h; simp at h
          · intro h
            cases h with
            | fixed h => exact absurd h hf
            | dynamic h _ _ _ => rw [hcb] at h; simp at h
        | ok gs =>
          by_cases hfg : FixedSizes gs
          · rw [dynStep_ok b gs hfg (hwf.1 _ _ hcb hfg) bytes pos hp]
            by_cases hle : pos + widths gs ≤ bytes.length
            · rw [if_pos hle]
              simp only
              rw [ih hwf.2 _ _ hle (by rw [allIntsF_append]; exact ⟨hu, fieldsAt_u64 _ _ _⟩)]
              constructor
              · intro h; exact .dynamic hcb hfg hle h
              · intro h
                cases h with
                | fixed h => exact absurd h hf
                | dynamic h1 _ _ h =>
                  rw [hcb] at h1
                  simp only [Except.ok.injEq] at h1
                  subst h1
                  exact h
            · rw [if_neg hle]
              constructor
              · intro h; simp at h
              · intro h
                cases h with
                | fixed h => exact absurd h hf
                | dynamic h1 _ h _ =>
                  rw [hcb] at h1
                  simp only [Except.ok.injEq] at h1
                  subst h1
                  exact absurd h hle
          · rw [dynStep, if_neg (by rw [allStatic_iff]; exact hfg)]
            constructor
            · intro h; simp at h
            · intro h
              cases h with
              | fixed h => exact absurd h hf
              | dynamic h1 h _ _ =>
                rw [hcb] at h1
                simp only [Except.ok.injEq] at h1
                subst h1
                exact absurd h hfg
      | _ => 
        simp only [WellFormed] at hwf
        exact absurd hwf.1 hf

/-- a layout ends within the bytes, and not before its fixed parts do -/
theorem Laid.bounds {bytes : Bytes} {fs : List (Option Str × Ty)} {pos : Nat} {seen out : List (Str × Value)}
    {stop : Nat} (h : Laid bytes fs pos seen out stop) (hp : pos ≤ bytes.length) :
    pos + sizeSum fs ≤ stop ∧ stop ≤ bytes.length := by
  induction h with
  | done => simp [sizeSum, hp]
  | fixed hf hl _ ih =>
    have := ih hl
    simp only [sizeSum, size_eq_width] at *
    omega
  | string _ hl _ ih =>
    have := ih hl
    simp only [sizeSum, Ty.size] at *
    omega
  | types _ hl _ ih =>
    have := ih hl
    simp only [sizeSum, Ty.size] at *
    omega
  | dynamic _ _ hl _ ih =>
    have := ih hl
    simp only [sizeSum, Ty.size] at *
    omega

theorem structFromBytes_iff (b : Build) (s : StructDef) (key : Option (Int × Int × Int)) (bytes : Bytes)
    (hb : bytes.length < 2 ^ 64) (hwf : WellFormed s.fields) (sv : StructVal) :
    structFromBytes b s key bytes = .ok sv ↔
      sv.name = s.name ∧ sv.key = key ∧ ∃ stop, Laid bytes s.fields 0 [] sv.fields stop := by
  have hi := fieldsLoop_iff b (what := s.name) bytes hb s.fields hwf 0 [] (by omega) (by simp [AllIntsF])
  simp only [structFromBytes]
  split
  · constructor
    · intro h
      split at h
      · rename_i stop vs heq
        simp only [Except.ok.injEq] at h
        subst h
        exact ⟨rfl, rfl, stop, (hi _ _).1 heq⟩
      · simp at h
    · rintro ⟨h1, h2, stop, h3⟩
      rw [(hi _ _).2 h3]
      simp only [Except.ok.injEq]
      cases sv
      simp_all
  · rename_i hs
    constructor
    · simp
    · rintro ⟨-, -, stop, h⟩
      have := Laid.bounds h (by omega)
      simp only [StructDef.size] at hs
      omega

end Btrd
