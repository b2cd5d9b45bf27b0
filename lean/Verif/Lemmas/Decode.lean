/-
The decoder on descriptions of fixed size.
-/
import Verif.Model.Decode
import Verif.Spec.Layout

namespace Btrd
open Spec

mutual
theorem size_eq_width : ∀ t : Ty, t.size = width t
  | .u8 => rfl
  | .u16 => rfl
  | .u32 => rfl
  | .u64 => rfl
  | .array t n => by simp only [Ty.size, width, size_eq_width t, Nat.mul_comm]
  | .struct _ fs => by simp only [Ty.size, width, sizeSum_eq_widths fs]
  | .union _ fs => by simp only [Ty.size, width, sizeMax_eq_widest fs]
  | .trailingString _ => rfl
  | .trailingTypes _ _ => rfl
  | .dynamic _ => rfl
theorem sizeSum_eq_widths : ∀ fs : List (Option Str × Ty), sizeSum fs = widths fs
  | [] => rfl
  | (_, t) :: fs => by simp only [sizeSum, widths, size_eq_width t, sizeSum_eq_widths fs]
theorem sizeMax_eq_widest : ∀ fs : List (Option Str × Ty), sizeMax fs = widest fs
  | [] => rfl
  | (_, t) :: fs => by
    simp only [sizeMax, widest, size_eq_width t, sizeMax_eq_widest fs]
    split <;> omega
end

mutual
theorem isStatic_iff : ∀ t : Ty, t.isStatic = true ↔ FixedSize t
  | .u8 => by simp [Ty.isStatic, FixedSize]
  | .u16 => by simp [Ty.isStatic, FixedSize]
  | .u32 => by simp [Ty.isStatic, FixedSize]
  | .u64 => by simp [Ty.isStatic, FixedSize]
  | .array t n => by simp only [Ty.isStatic, FixedSize, isStatic_iff t]
  | .struct _ fs => by simp only [Ty.isStatic, FixedSize, allStatic_iff fs]
  | .union _ fs => by simp only [Ty.isStatic, FixedSize, allStatic_iff fs]
  | .trailingString _ => by simp [Ty.isStatic, FixedSize]
  | .trailingTypes _ _ => by simp [Ty.isStatic, FixedSize]
  | .dynamic _ => by simp [Ty.isStatic, FixedSize]
theorem allStatic_iff : ∀ fs : List (Option Str × Ty), allStatic fs = true ↔ FixedSizes fs
  | [] => by simp [allStatic, FixedSizes]
  | (_, t) :: fs => by simp only [allStatic, FixedSizes, Bool.and_eq_true, isStatic_iff t, allStatic_iff fs]
end

/-! ### reading integers -/

theorem leNat_take_drop (bytes : Bytes) : ∀ n pos, pos + n ≤ bytes.length →
    leNat ((bytes.drop pos).take n) = leAt (mem bytes) pos n := by
  intro n
  induction n with
  | zero => intro pos _; simp [leNat, leAt]
  | succ n ih =>
    intro pos h
    have hlt : pos < bytes.length := by omega
    rw [List.drop_eq_getElem_cons hlt]
    simp only [List.take_succ_cons, leNat, leAt, ih (pos + 1) (by omega)]
    congr 2
    simp [mem, List.getD_eq_getElem?_getD, List.getElem?_eq_getElem hlt]

theorem leAt_lt (m : Mem) : ∀ n pos, leAt m pos n < 256 ^ n := by
  intro n
  induction n with
  | zero => intro pos; simp [leAt]
  | succ n ih =>
    intro pos
    have := ih (pos + 1)
    have hb := (m pos).toNat_lt
    simp only [leAt]
    have : 256 ^ (n + 1) = 256 * 256 ^ n := by rw [Nat.pow_succ, Nat.mul_comm]
    omega

theorem leInt_eq (bytes : Bytes) (n pos : Nat) (h : pos + n ≤ bytes.length) :
    leInt n (bytes.drop pos) = .ok (.int (leAt (mem bytes) pos n)) := by
  simp only [leInt, List.length_drop, leNat_take_drop bytes n pos h]
  rw [if_pos (by omega)]

/-! ### anonymous fields -/

theorem fieldWrap_ok (name : Option Str) (size : Nat) (f : Bytes → R Value) (bytes : Bytes) (v : Value)
    (hs : size ≤ bytes.length) (hf : f bytes = .ok v)
    (hn : name = none → ∃ n k fs, v = .struct n k fs) :
    fieldWrap name size f bytes = .ok (asFields name v) := by
  simp only [fieldWrap, if_pos hs, hf]
  cases name with
  | some n => rfl
  | none =>
    obtain ⟨n, k, fs, rfl⟩ := hn rfl
    rfl

theorem AnonOks_cons (name : Option Str) (t : Ty) (fs : List (Option Str × Ty)) (h : AnonOks ((name, t) :: fs)) :
    AnonOk t ∧ AnonOks fs ∧ (name = none → ∀ m pos, ∃ n k gs, valueAt m pos t = .struct n k gs) := by
  cases name with
  | some n => simp only [AnonOks] at h; exact ⟨h.1, h.2, by simp⟩
  | none =>
    cases t <;> simp only [AnonOks] at h
    · exact ⟨h.1, h.2, fun _ m pos => ⟨_, _, _, by simp only [valueAt]; rfl⟩⟩
    · exact ⟨h.1, h.2, fun _ m pos => ⟨_, _, _, by simp only [valueAt]; rfl⟩⟩

theorem fieldStep_fixed (b : Build) {what : Str} (name : Option Str) (t : Ty) (h : FixedSize t) (bytes : Bytes) (offset : Nat)
    (acc : List (Str × Value)) :
    fieldStep b what (name, t) bytes offset acc =
      match sliceFrom bytes offset with
      | .error e => .error e
      | .ok s =>
        match fieldWrap name t.size (toValue b t) s with
        | .ok vs => .ok (offset + t.size, acc ++ vs)
        | .error e => .error e := by
  cases t <;> first | (simp only [FixedSize] at h; done) | rfl

theorem arrayLoop_eq (f : Bytes → R Value) (g : Nat → Value) (size : Nat) (bytes : Bytes) :
    ∀ k i, (∀ j, i ≤ j → j < i + k → j * size ≤ bytes.length ∧ f (bytes.drop (j * size)) = .ok (g j)) →
      arrayLoop f size bytes k i = .ok ((List.range k).map fun j => g (i + j)) := by
  intro k
  induction k with
  | zero => intro i _; simp [arrayLoop]
  | succ k ih =>
    intro i h
    obtain ⟨h1, h2⟩ := h i (by omega) (by omega)
    simp only [arrayLoop, sliceFrom, if_pos h1, h2, bind, Except.bind,
      ih (i + 1) (fun j hj hj' => h j (by omega) (by omega))]
    rw [List.range_succ_eq_map]
    simp [List.map_map, Function.comp_def, Nat.add_assoc, Nat.add_comm 1]

mutual
/-- decoding a type of fixed size from enough bytes gives the value the bytes determine -/
theorem toValue_fixed (b : Build) : ∀ t : Ty, FixedSize t → AnonOk t → ∀ (bytes : Bytes) (pos : Nat),
    pos + width t ≤ bytes.length → toValue b t (bytes.drop pos) = .ok (valueAt (mem bytes) pos t)
  | .u8, _, _, bytes, pos, hl => by
    simp only [toValue, valueAt]; exact leInt_eq bytes 1 pos (by simpa [width] using hl)
  | .u16, _, _, bytes, pos, hl => by
    simp only [toValue, valueAt]; exact leInt_eq bytes 2 pos (by simpa [width] using hl)
  | .u32, _, _, bytes, pos, hl => by
    simp only [toValue, valueAt]; exact leInt_eq bytes 4 pos (by simpa [width] using hl)
  | .u64, _, _, bytes, pos, hl => by
    simp only [toValue, valueAt]; exact leInt_eq bytes 8 pos (by simpa [width] using hl)
  | .array t n, hf, ha, bytes, pos, hl => by
    simp only [FixedSize] at hf
    simp only [AnonOk] at ha
    simp only [width] at hl
    simp only [toValue, valueAt]
    rw [arrayLoop_eq (toValue b t) (fun j => valueAt (mem bytes) (pos + j * width t) t) t.size]
    · simp
    · intro j _ hj
      rw [size_eq_width]
      have h1 : j * width t + width t ≤ n * width t := by
        rw [← Nat.succ_mul]; exact Nat.mul_le_mul_right _ (by omega)
      refine ⟨by simp only [List.length_drop]; omega, ?_⟩
      rw [List.drop_drop]
      exact toValue_fixed b t hf ha bytes _ (by omega)
  | .struct name fs, hf, ha, bytes, pos, hl => by
    simp only [FixedSize] at hf
    simp only [AnonOk] at ha
    simp only [width] at hl
    simp only [toValue, valueAt]
    rw [if_pos (by rw [sizeSum_eq_widths, List.length_drop]; omega),
      fieldsLoop_fixed b fs hf ha bytes pos 0 [] (by omega)]
    simp
  | .union name fs, hf, ha, bytes, pos, hl => by
    simp only [FixedSize] at hf
    simp only [AnonOk] at ha
    simp only [width] at hl
    simp only [toValue, valueAt, unionLoop_fixed b fs hf ha bytes pos hl]
  | .trailingString _, hf, _, _, _, _ => by simp [FixedSize] at hf
  | .trailingTypes _ _, hf, _, _, _, _ => by simp [FixedSize] at hf
  | .dynamic _, hf, _, _, _, _ => by simp [FixedSize] at hf
/-- the field loop on fields of fixed size, started at any offset -/
theorem fieldsLoop_fixed (b : Build) {what : Str} : ∀ fs : List (Option Str × Ty), FixedSizes fs → AnonOks fs →
    ∀ (bytes : Bytes) (base off : Nat) (acc : List (Str × Value)), base + off + widths fs ≤ bytes.length →
      fieldsLoop b what fs (bytes.drop base) off acc =
        .ok (off + widths fs, acc ++ fieldsAt (mem bytes) (base + off) fs)
  | [], _, _, bytes, base, off, acc, _ => by simp [fieldsLoop, widths, fieldsAt]
  | (name, t) :: fs, hf, ha, bytes, base, off, acc, hl => by
    simp only [FixedSizes] at hf
    obtain ⟨ha1, ha2, ha3⟩ := AnonOks_cons name t fs ha
    simp only [widths] at hl
    have hv := toValue_fixed b t hf.1 ha1 bytes (base + off) (by omega)
    have hw : fieldWrap name t.size (toValue b t) (bytes.drop (base + off)) =
        .ok (asFields name (valueAt (mem bytes) (base + off) t)) :=
      fieldWrap_ok _ _ _ _ _ (by rw [size_eq_width, List.length_drop]; omega) hv (fun h => ha3 h _ _)
    rw [fieldsLoop, fieldStep_fixed b name t hf.1]
    simp only [sliceFrom, List.length_drop]
    rw [if_pos (by omega)]
    simp only [List.drop_drop, hw]
    rw [fieldsLoop_fixed b fs hf.2 ha2 bytes base (off + t.size) _ (by rw [size_eq_width]; omega)]
    simp only [widths, fieldsAt, size_eq_width, List.append_assoc, Nat.add_assoc]
theorem unionLoop_fixed (b : Build) : ∀ fs : List (Option Str × Ty), FixedSizes fs → AnonOks fs →
    ∀ (bytes : Bytes) (pos : Nat), pos + widest fs ≤ bytes.length →
      unionLoop b fs (bytes.drop pos) = .ok (membersAt (mem bytes) pos fs)
  | [], _, _, bytes, pos, _ => by simp [unionLoop, membersAt]
  | (name, t) :: fs, hf, ha, bytes, pos, hl => by
    simp only [FixedSizes] at hf
    obtain ⟨ha1, ha2, ha3⟩ := AnonOks_cons name t fs ha
    have hl1 : pos + width t ≤ bytes.length := by simp only [widest] at hl; split at hl <;> omega
    have hl2 : pos + widest fs ≤ bytes.length := by simp only [widest] at hl; split at hl <;> omega
    have hv := toValue_fixed b t hf.1 ha1 bytes pos hl1
    have hw : fieldWrap name t.size (toValue b t) (bytes.drop pos) =
        .ok (asFields name (valueAt (mem bytes) pos t)) :=
      fieldWrap_ok _ _ _ _ _ (by rw [size_eq_width, List.length_drop]; omega) hv (fun h => ha3 h _ _)
    rw [unionLoop]
    simp only [hw, unionLoop_fixed b fs hf.2 ha2 bytes pos hl2, membersAt]
end

/-! ### only the covered bytes matter -/

theorem leAt_shift (m : Mem) (pos : Nat) (m' : Mem) (pos' n : Nat)
    (h : ∀ i, i < n → m (pos + i) = m' (pos' + i)) : leAt m pos n = leAt m' pos' n := by
  induction n generalizing pos pos' with
  | zero => rfl
  | succ n ih =>
    simp only [leAt]
    have h0 : m pos = m' pos' := h 0 (by omega)
    rw [h0, ih (pos + 1) (pos' + 1) (fun i hi => by
      simpa [Nat.add_assoc, Nat.add_comm 1] using h (i + 1) (by omega))]

mutual
theorem valueAt_congr (m m' : Mem) : ∀ (t : Ty) (pos pos' : Nat),
    (∀ i, i < width t → m (pos + i) = m' (pos' + i)) → valueAt m pos t = valueAt m' pos' t
  | .u8, pos, pos', h => by
    simp only [valueAt, leAt_shift m pos m' pos' 1 (by simpa [width] using h)]
  | .u16, pos, pos', h => by
    simp only [valueAt, leAt_shift m pos m' pos' 2 (by simpa [width] using h)]
  | .u32, pos, pos', h => by
    simp only [valueAt, leAt_shift m pos m' pos' 4 (by simpa [width] using h)]
  | .u64, pos, pos', h => by
    simp only [valueAt, leAt_shift m pos m' pos' 8 (by simpa [width] using h)]
  | .array t n, pos, pos', h => by
    simp only [valueAt, Value.array.injEq, and_true]
    apply List.map_congr_left
    intro i hi
    rw [List.mem_range] at hi
    have h1 : i * width t + width t ≤ n * width t := by
      rw [← Nat.succ_mul]; exact Nat.mul_le_mul_right _ (by omega)
    apply valueAt_congr m m' t
    intro j hj
    have := h (i * width t + j) (by simp only [width]; omega)
    simpa [Nat.add_assoc] using this
  | .struct name fs, pos, pos', h => by
    simp only [valueAt, fieldsAt_congr m m' fs pos pos' (by simpa [width] using h)]
  | .union name fs, pos, pos', h => by
    simp only [valueAt, membersAt_congr m m' fs pos pos' (by simpa [width] using h)]
  | .trailingString _, _, _, _ => by simp only [valueAt]
  | .trailingTypes _ _, _, _, _ => by simp only [valueAt]
  | .dynamic _, _, _, _ => by simp only [valueAt]
theorem fieldsAt_congr (m m' : Mem) : ∀ (fs : List (Option Str × Ty)) (pos pos' : Nat),
    (∀ i, i < widths fs → m (pos + i) = m' (pos' + i)) → fieldsAt m pos fs = fieldsAt m' pos' fs
  | [], _, _, _ => by simp only [fieldsAt]
  | (name, t) :: fs, pos, pos', h => by
    simp only [widths] at h
    simp only [fieldsAt]
    rw [valueAt_congr m m' t pos pos' (fun i hi => h i (by omega)),
      fieldsAt_congr m m' fs (pos + width t) (pos' + width t)
        (fun i hi => by simpa [Nat.add_assoc] using h (width t + i) (by omega))]
theorem membersAt_congr (m m' : Mem) : ∀ (fs : List (Option Str × Ty)) (pos pos' : Nat),
    (∀ i, i < widest fs → m (pos + i) = m' (pos' + i)) → membersAt m pos fs = membersAt m' pos' fs
  | [], _, _, _ => by simp only [membersAt]
  | (name, t) :: fs, pos, pos', h => by
    simp only [membersAt]
    have h1 : ∀ i, i < width t → i < widest ((name, t) :: fs) := by
      intro i hi; simp only [widest]; split <;> omega
    have h2 : ∀ i, i < widest fs → i < widest ((name, t) :: fs) := by
      intro i hi; simp only [widest]; split <;> omega
    rw [valueAt_congr m m' t pos pos' (fun i hi => h i (h1 i hi)),
      membersAt_congr m m' fs pos pos' (fun i hi => h i (h2 i hi))]
end

end Btrd
