/-
Field names of decoded values, and encoding them back.
-/
import Verif.Lemmas.DecodeMore

namespace Btrd
open Spec

/-! ### names -/

theorem asFields_names (name : Option Str) (v : Value) :
    (asFields name v).map (·.1) = match name with | some n => [n] | none => (components v).map (·.1) := by
  cases name <;> rfl

mutual
theorem components_names (m : Mem) : ∀ (t : Ty) (pos : Nat),
    (components (valueAt m pos t)).map (·.1) = tyNames t
  | .struct _ fs, pos => by simp only [valueAt, components, tyNames]; exact fieldsAt_names m fs pos
  | .union _ fs, pos => by simp only [valueAt, components, tyNames]; exact membersAt_names m fs pos
  | .u8, _ => by simp only [valueAt, components, tyNames, List.map_nil]
  | .u16, _ => by simp only [valueAt, components, tyNames, List.map_nil]
  | .u32, _ => by simp only [valueAt, components, tyNames, List.map_nil]
  | .u64, _ => by simp only [valueAt, components, tyNames, List.map_nil]
  | .array _ _, _ => by simp only [valueAt, components, tyNames, List.map_nil]
  | .trailingString _, _ => by simp only [valueAt, components, tyNames, List.map_nil]
  | .trailingTypes _ _, _ => by simp only [valueAt, components, tyNames, List.map_nil]
  | .dynamic _, _ => by simp only [valueAt, components, tyNames, List.map_nil]
theorem fieldsAt_names (m : Mem) : ∀ (fs : List (Option Str × Ty)) (pos : Nat),
    (fieldsAt m pos fs).map (·.1) = flatNames fs
  | [], _ => by simp only [fieldsAt, flatNames, List.map_nil]
  | (some n, t) :: fs, pos => by
    simp only [fieldsAt, flatNames, List.map_append, asFields_names, fieldsAt_names m fs]; rfl
  | (none, t) :: fs, pos => by
    simp only [fieldsAt, flatNames, List.map_append, asFields_names, fieldsAt_names m fs, components_names m t]
theorem membersAt_names (m : Mem) : ∀ (fs : List (Option Str × Ty)) (pos : Nat),
    (membersAt m pos fs).map (·.1) = flatNames fs
  | [], _ => by simp only [membersAt, flatNames, List.map_nil]
  | (some n, t) :: fs, pos => by
    simp only [membersAt, flatNames, List.map_append, asFields_names, membersAt_names m fs]; rfl
  | (none, t) :: fs, pos => by
    simp only [membersAt, flatNames, List.map_append, asFields_names, membersAt_names m fs, components_names m t]
end

theorem lookup_of_nodup {fs : List (Str × Value)} (h : (fs.map (·.1)).Nodup) :
    ∀ n v, (n, v) ∈ fs → lookup fs n = some v := by
  induction fs with
  | nil => simp
  | cons f fs ih =>
    obtain ⟨m, w⟩ := f
    intro n v hm
    simp only [List.map_cons, List.nodup_cons] at h
    simp only [List.mem_cons, Prod.mk.injEq] at hm
    rcases hm with ⟨rfl, rfl⟩ | hm
    · simp [lookup]
    · have hne : m ≠ n := by
        rintro rfl
        exact h.1 (List.mem_map.2 ⟨_, hm, rfl⟩)
      have hb : (m == n) = false := by simp [hne]
      simpa only [lookup, List.find?_cons, hb] using ih h.2 n v hm

theorem accessibleL_iff (vs : List Value) : AccessibleL vs ↔ ∀ v ∈ vs, Accessible v := by
  induction vs with
  | nil => simp [AccessibleL]
  | cons v vs ih => simp [AccessibleL, ih]

theorem accessibleF_iff (fs : List (Str × Value)) : AccessibleF fs ↔ ∀ f ∈ fs, Accessible f.2 := by
  induction fs with
  | nil => simp [AccessibleF]
  | cons f fs ih => obtain ⟨n, v⟩ := f; simp [AccessibleF, ih]

theorem accessibleF_append (fs gs : List (Str × Value)) :
    AccessibleF (fs ++ gs) ↔ AccessibleF fs ∧ AccessibleF gs := by
  simp only [accessibleF_iff, List.mem_append]
  constructor
  · intro h; exact ⟨fun f hf => h f (.inl hf), fun f hf => h f (.inr hf)⟩
  · rintro ⟨h1, h2⟩ f (hf | hf)
    · exact h1 f hf
    · exact h2 f hf

theorem accessibleF_asFields (name : Option Str) (v : Value) (h : Accessible v) : AccessibleF (asFields name v) := by
  cases name with
  | some n => simp only [asFields, AccessibleF]; exact ⟨h, trivial⟩
  | none =>
    cases v <;> simp only [asFields, components, AccessibleF]
    simp only [Accessible] at h
    exact h.2

mutual
theorem valueAt_accessible (m : Mem) : ∀ (t : Ty) (pos : Nat), distinctB t = true → Accessible (valueAt m pos t)
  | .u8, _, _ => by simp only [valueAt, Accessible]
  | .u16, _, _ => by simp only [valueAt, Accessible]
  | .u32, _, _ => by simp only [valueAt, Accessible]
  | .u64, _, _ => by simp only [valueAt, Accessible]
  | .trailingString _, _, _ => by simp only [valueAt, Accessible]
  | .trailingTypes _ _, _, _ => by simp only [valueAt, Accessible]
  | .dynamic _, _, _ => by simp only [valueAt, Accessible]
  | .array t n, pos, h => by
    simp only [distinctB] at h
    simp only [valueAt, Accessible, accessibleL_iff, List.mem_map]
    rintro v ⟨i, -, rfl⟩
    exact valueAt_accessible m t _ h
  | .struct _ fs, pos, h => by
    simp only [distinctB, Bool.and_eq_true, decide_eq_true_eq] at h
    simp only [valueAt, Accessible]
    exact ⟨lookup_of_nodup (by rw [fieldsAt_names]; exact h.1), fieldsAt_accessible m fs pos h.2⟩
  | .union _ fs, pos, h => by
    simp only [distinctB, Bool.and_eq_true, decide_eq_true_eq] at h
    simp only [valueAt, Accessible]
    exact ⟨lookup_of_nodup (by rw [membersAt_names]; exact h.1), membersAt_accessible m fs pos h.2⟩
theorem fieldsAt_accessible (m : Mem) : ∀ (fs : List (Option Str × Ty)) (pos : Nat), distinctsB fs = true →
    AccessibleF (fieldsAt m pos fs)
  | [], _, _ => by simp only [fieldsAt, AccessibleF]
  | (name, t) :: fs, pos, h => by
    simp only [distinctsB, Bool.and_eq_true] at h
    simp only [fieldsAt, accessibleF_append]
    exact ⟨accessibleF_asFields _ _ (valueAt_accessible m t pos h.1), fieldsAt_accessible m fs _ h.2⟩
theorem membersAt_accessible (m : Mem) : ∀ (fs : List (Option Str × Ty)) (pos : Nat), distinctsB fs = true →
    AccessibleF (membersAt m pos fs)
  | [], _, _ => by simp only [membersAt, AccessibleF]
  | (name, t) :: fs, pos, h => by
    simp only [distinctsB, Bool.and_eq_true] at h
    simp only [membersAt, accessibleF_append]
    exact ⟨accessibleF_asFields _ _ (valueAt_accessible m t pos h.1), membersAt_accessible m fs _ h.2⟩
end

/-- names and accessibility of any layout without dynamic parts -/
theorem Laid.names {bytes : Bytes} {fs : List (Option Str × Ty)} {pos : Nat} {seen out : List (Str × Value)}
    {stop : Nat} (h : Laid bytes fs pos seen out stop) (hnd : ∀ n cb, (n, Ty.dynamic cb) ∉ fs)
    (hd : distinctsB fs = true) (hs : AccessibleF seen) :
    out.map (·.1) = seen.map (·.1) ++ flatNames fs ∧ AccessibleF out := by
  induction h with
  | done => simp [flatNames, hs]
  | @fixed name t fs pos seen out stop hf hl r ih =>
    simp only [distinctsB, Bool.and_eq_true] at hd
    have := ih (fun n cb hm => hnd n cb (List.mem_cons_of_mem _ hm)) hd.2 (by
      rw [accessibleF_append]; exact ⟨hs, accessibleF_asFields _ _ (valueAt_accessible _ _ _ hd.1)⟩)
    refine ⟨?_, this.2⟩
    rw [this.1]
    cases name with
    | some n => simp [asFields, flatNames]
    | none => simp [asFields, flatNames, components_names]
  | @string name lf fs pos n seen out stop hn hl r ih =>
    simp only [distinctsB, Bool.and_eq_true] at hd
    have := ih (fun n cb hm => hnd n cb (List.mem_cons_of_mem _ hm)) hd.2 (by
      rw [accessibleF_append]; exact ⟨hs, by simp [AccessibleF, Accessible]⟩)
    refine ⟨?_, this.2⟩
    rw [this.1]; simp [flatNames]
  | @types name cf t fs pos n seen out stop hn hl r ih =>
    simp only [distinctsB, distinctB, Bool.and_eq_true] at hd
    have := ih (fun n cb hm => hnd n cb (List.mem_cons_of_mem _ hm)) hd.2 (by
      rw [accessibleF_append]; refine ⟨hs, ?_⟩
      simp only [AccessibleF, Accessible, accessibleL_iff, and_true, List.mem_map]
      rintro v ⟨i, -, rfl⟩
      exact valueAt_accessible _ _ _ hd.1)
    refine ⟨?_, this.2⟩
    rw [this.1]; simp [flatNames]
  | dynamic => exact absurd (List.mem_cons_self ..) (hnd _ _)

/-! ### encoding -/

/-- the `n` bytes of memory from `pos` -/
def memBytes (m : Mem) (pos : Nat) : Nat → Bytes
  | 0 => []
  | n + 1 => m pos :: memBytes m (pos + 1) n

theorem memBytes_length (m : Mem) : ∀ n pos, (memBytes m pos n).length = n := by
  intro n; induction n with
  | zero => intro _; rfl
  | succ n ih => intro pos; simp [memBytes, ih]

theorem memBytes_append (m : Mem) : ∀ a pos b, memBytes m pos a ++ memBytes m (pos + a) b = memBytes m pos (a + b) := by
  intro a
  induction a with
  | zero => intro pos b; simp [memBytes]
  | succ a ih =>
    intro pos b
    have := ih (pos + 1) b
    rw [Nat.add_right_comm] at this
    have h2 : a + 1 + b = (a + b) + 1 := by omega
    rw [h2]
    simp only [memBytes, List.cons_append, List.cons.injEq, true_and]
    rw [← this]
    congr 2

theorem memBytes_mem (bytes : Bytes) : ∀ n pos, pos + n ≤ bytes.length →
    memBytes (mem bytes) pos n = bytesAt bytes pos n := by
  intro n
  induction n with
  | zero => intro pos _; simp [memBytes, bytesAt]
  | succ n ih =>
    intro pos h
    have hlt : pos < bytes.length := by omega
    simp only [memBytes, bytesAt]
    rw [List.drop_eq_getElem_cons hlt, List.take_succ_cons, ih (pos + 1) (by omega)]
    simp [mem, bytesAt, List.getD_eq_getElem?_getD, List.getElem?_eq_getElem hlt]

theorem leBytes_leAt (m : Mem) : ∀ n pos, leBytes n (leAt m pos n) = memBytes m pos n := by
  intro n
  induction n with
  | zero => intro pos; rfl
  | succ n ih =>
    intro pos
    simp only [leBytes, leAt, memBytes]
    have hb := (m pos).toNat_lt
    have h1 : (((m pos).toNat + 256 * leAt m (pos + 1) n : Nat) : Int) % 256 = ((m pos).toNat : Int) := by omega
    have h2 : (((m pos).toNat + 256 * leAt m (pos + 1) n : Nat) : Int) / 256 = (leAt m (pos + 1) n : Int) := by omega
    rw [h1, h2, ih (pos + 1)]
    simp

theorem flatMap_range {β : Type} (f : Nat → List UInt8) (g : β → List UInt8) (h : Nat → β)
    (hf : ∀ i, g (h i) = f i) (n : Nat) : ((List.range n).map h).flatMap g = (List.range n).flatMap f := by
  induction n with
  | zero => rfl
  | succ n ih => rw [List.range_succ]; simp [List.flatMap_append, hf, ih] 

theorem flatMap_memBytes (m : Mem) (pos w : Nat) : ∀ n,
    (List.range n).flatMap (fun i => memBytes m (pos + i * w) w) = memBytes m pos (n * w) := by
  intro n
  induction n with
  | zero => simp [memBytes]
  | succ n ih =>
    rw [List.range_succ, List.flatMap_append, ih]
    simp only [List.flatMap_cons, List.flatMap_nil, List.append_nil]
    rw [memBytes_append, Nat.succ_mul]

theorem longer_memBytes (m : Mem) (pos a b : Nat) :
    longer (memBytes m pos a) (memBytes m pos b) = memBytes m pos (if a ≤ b then b else a) := by
  simp only [longer, memBytes_length]
  split <;> rfl

mutual
theorem encode_valueAt (m : Mem) : ∀ (t : Ty) (pos : Nat), FixedSize t → AnonOk t →
    encode t (valueAt m pos t) = memBytes m pos (width t)
  | .u8, pos, _, _ => by simp only [valueAt, encode, width]; exact leBytes_leAt m 1 pos
  | .u16, pos, _, _ => by simp only [valueAt, encode, width]; exact leBytes_leAt m 2 pos
  | .u32, pos, _, _ => by simp only [valueAt, encode, width]; exact leBytes_leAt m 4 pos
  | .u64, pos, _, _ => by simp only [valueAt, encode, width]; exact leBytes_leAt m 8 pos
  | .array t n, pos, hf, ha => by
    simp only [FixedSize] at hf
    simp only [AnonOk] at ha
    simp only [valueAt, encode, width]
    rw [flatMap_range (fun i => memBytes m (pos + i * width t) (width t)) (fun v => encode t v)
      (fun i => valueAt m (pos + i * width t) t) (fun i => encode_valueAt m t _ hf ha)]
    exact flatMap_memBytes m pos (width t) n
  | .struct _ fs, pos, hf, ha => by
    simp only [FixedSize] at hf
    simp only [AnonOk] at ha
    simp only [valueAt, encode, width]
    have := encodeFields_fieldsAt m fs pos [] hf ha
    rw [List.append_nil] at this
    rw [this]
  | .union _ fs, pos, hf, ha => by
    simp only [FixedSize] at hf
    simp only [AnonOk] at ha
    simp only [valueAt, encode, width]
    have := encodeMembers_membersAt m fs pos [] hf ha
    rw [List.append_nil] at this
    rw [this]
  | .trailingString _, _, hf, _ => by simp [FixedSize] at hf
  | .trailingTypes _ _, _, hf, _ => by simp [FixedSize] at hf
  | .dynamic _, _, hf, _ => by simp [FixedSize] at hf
theorem encodeFields_fieldsAt (m : Mem) : ∀ (fs : List (Option Str × Ty)) (pos : Nat) (rest : List (Str × Value)),
    FixedSizes fs → AnonOks fs → encodeFields fs (fieldsAt m pos fs ++ rest) = (memBytes m pos (widths fs), rest)
  | [], _, _, _, _ => by simp only [fieldsAt, encodeFields, widths, memBytes, List.nil_append]
  | (some n, t) :: fs, pos, rest, hf, ha => by
    simp only [FixedSizes] at hf
    simp only [AnonOks] at ha
    simp only [fieldsAt, asFields, List.cons_append, List.nil_append, encodeFields, widths,
      encode_valueAt m t pos hf.1 ha.1, encodeFields_fieldsAt m fs (pos + width t) rest hf.2 ha.2,
      memBytes_append]
  | (none, .struct n gs) :: fs, pos, rest, hf, ha => by
    simp only [FixedSizes, FixedSize] at hf
    simp only [AnonOks, AnonOk] at ha
    simp only [fieldsAt, asFields, valueAt, components, encodeFields, widths, width, List.append_assoc,
      encodeFields_fieldsAt m gs pos _ hf.1 ha.1, encodeFields_fieldsAt m fs _ rest hf.2 ha.2, memBytes_append]
  | (none, .union n gs) :: fs, pos, rest, hf, ha => by
    simp only [FixedSizes, FixedSize] at hf
    simp only [AnonOks, AnonOk] at ha
    simp only [fieldsAt, asFields, valueAt, components, encodeFields, widths, width, List.append_assoc,
      encodeMembers_membersAt m gs pos _ hf.1 ha.1, encodeFields_fieldsAt m fs _ rest hf.2 ha.2, memBytes_append]
  | (none, .u8) :: _, _, _, _, ha => by simp [AnonOks] at ha
  | (none, .u16) :: _, _, _, _, ha => by simp [AnonOks] at ha
  | (none, .u32) :: _, _, _, _, ha => by simp [AnonOks] at ha
  | (none, .u64) :: _, _, _, _, ha => by simp [AnonOks] at ha
  | (none, .array _ _) :: _, _, _, _, ha => by simp [AnonOks] at ha
  | (none, .trailingString _) :: _, _, _, _, ha => by simp [AnonOks] at ha
  | (none, .trailingTypes _ _) :: _, _, _, _, ha => by simp [AnonOks] at ha
  | (none, .dynamic _) :: _, _, _, _, ha => by simp [AnonOks] at ha
theorem encodeMembers_membersAt (m : Mem) : ∀ (fs : List (Option Str × Ty)) (pos : Nat) (rest : List (Str × Value)),
    FixedSizes fs → AnonOks fs → encodeMembers fs (membersAt m pos fs ++ rest) = (memBytes m pos (widest fs), rest)
  | [], _, _, _, _ => by simp only [membersAt, encodeMembers, widest, memBytes, List.nil_append]
  | (some n, t) :: fs, pos, rest, hf, ha => by
    simp only [FixedSizes] at hf
    simp only [AnonOks] at ha
    simp only [membersAt, asFields, List.cons_append, List.nil_append, encodeMembers, widest,
      encode_valueAt m t pos hf.1 ha.1, encodeMembers_membersAt m fs pos rest hf.2 ha.2, longer_memBytes]
  | (none, .struct n gs) :: fs, pos, rest, hf, ha => by
    simp only [FixedSizes, FixedSize] at hf
    simp only [AnonOks, AnonOk] at ha
    simp only [membersAt, asFields, valueAt, components, encodeMembers, widest, width, List.append_assoc,
      encodeFields_fieldsAt m gs pos _ hf.1 ha.1, encodeMembers_membersAt m fs pos rest hf.2 ha.2, longer_memBytes]
    split <;> rename_i h <;> simp only [h, if_true, if_false]
  | (none, .union n gs) :: fs, pos, rest, hf, ha => by
    simp only [FixedSizes, FixedSize] at hf
    simp only [AnonOks, AnonOk] at ha
    simp only [membersAt, asFields, valueAt, components, encodeMembers, widest, width, List.append_assoc,
      encodeMembers_membersAt m gs pos _ hf.1 ha.1, encodeMembers_membersAt m fs pos rest hf.2 ha.2, longer_memBytes]
    split <;> rename_i h <;> simp only [h, if_true, if_false]
  | (none, .u8) :: _, _, _, _, ha => by simp [AnonOks] at ha
  | (none, .u16) :: _, _, _, _, ha => by simp [AnonOks] at ha
  | (none, .u32) :: _, _, _, _, ha => by simp [AnonOks] at ha
  | (none, .u64) :: _, _, _, _, ha => by simp [AnonOks] at ha
  | (none, .array _ _) :: _, _, _, _, ha => by simp [AnonOks] at ha
  | (none, .trailingString _) :: _, _, _, _, ha => by simp [AnonOks] at ha
  | (none, .trailingTypes _ _) :: _, _, _, _, ha => by simp [AnonOks] at ha
  | (none, .dynamic _) :: _, _, _, _, ha => by simp [AnonOks] at ha
end

theorem bytesAt_append (bytes : Bytes) (pos a b : Nat) :
    bytesAt bytes pos a ++ bytesAt bytes (pos + a) b = bytesAt bytes pos (a + b) := by
  simp only [bytesAt, List.take_add, List.drop_drop]

theorem bytesAt_length (bytes : Bytes) (pos n : Nat) (h : pos + n ≤ bytes.length) : (bytesAt bytes pos n).length = n := by
  simp only [bytesAt, List.length_take, List.length_drop]; omega

/-- encoding what a layout without dynamic parts gives is the bytes it covers -/
theorem Laid.encoded {bytes : Bytes} {fs : List (Option Str × Ty)} {pos : Nat} {seen out : List (Str × Value)}
    {stop : Nat} (h : Laid bytes fs pos seen out stop) (hwf : WellFormed fs)
    (hnd : ∀ n cb, (n, Ty.dynamic cb) ∉ fs) :
    ∃ more, out = seen ++ more ∧ pos ≤ stop ∧ encodeFields fs more = (bytesAt bytes pos (stop - pos), []) := by
  induction h with
  | done pos seen => exact ⟨[], by simp, Nat.le_refl _, by simp [encodeFields, bytesAt]⟩
  | @fixed name t fs pos seen out stop hf hl r ih =>
    obtain ⟨ha, hwf'⟩ := WellFormed_fixed hf hwf
    obtain ⟨more, hm, hle, he⟩ := ih hwf' (fun n cb hm => hnd n cb (List.mem_cons_of_mem _ hm))
    refine ⟨asFields name (valueAt (mem bytes) pos t) ++ more, by rw [hm, List.append_assoc], by omega, ?_⟩
    have hsplit : stop - pos = width t + (stop - (pos + width t)) := by omega
    have h1 := encodeFields_fieldsAt (mem bytes) [(name, t)] pos more (by simp [FixedSizes, hf]) ha
    simp only [fieldsAt, widths, Nat.add_zero, List.append_nil] at h1
    have key : ∀ (w : Nat), pos + w ≤ bytes.length → memBytes (mem bytes) pos w = bytesAt bytes pos w :=
      fun w hw => memBytes_mem bytes w pos hw
    cases name with
    | some n =>
      simp only [asFields, List.cons_append, List.nil_append, encodeFields, he, Prod.mk.injEq] at h1 ⊢
      have h2 := h1.1
      simp only [List.append_nil] at h2
      rw [h2, key _ hl, bytesAt_append, ← hsplit]
      simp
    | none =>
      cases t with
      | struct n gs =>
        simp only [encodeFields, Prod.mk.injEq, List.append_nil] at h1 ⊢
        rw [h1.2] 
        rw [h1.1, key _ hl, he, bytesAt_append, ← hsplit]
        simp
      | union n gs =>
        simp only [encodeFields, Prod.mk.injEq, List.append_nil] at h1 ⊢
        rw [h1.2] 
        rw [h1.1, key _ hl, he, bytesAt_append, ← hsplit]
        simp
      | _ => simp [AnonOks] at ha
  | @string name lf fs pos n seen out stop hn hl r ih =>
    simp only [WellFormed] at hwf
    obtain ⟨more, hm, hle, he⟩ := ih hwf.2 (fun n cb hm => hnd n cb (List.mem_cons_of_mem _ hm))
    refine ⟨(name, .str (bytesAt bytes pos n)) :: more, by rw [hm, List.append_assoc]; rfl, by omega, ?_⟩
    have hsplit : stop - pos = n + (stop - (pos + n)) := by omega
    simp only [encodeFields, encode, he, bytesAt_append, ← hsplit]
  | @types name cf t fs pos n seen out stop hn hl r ih =>
    simp only [WellFormed] at hwf
    obtain ⟨more, hm, hle, he⟩ := ih hwf.2.2.2 (fun n cb hm => hnd n cb (List.mem_cons_of_mem _ hm))
    refine ⟨_ :: more, by rw [hm, List.append_assoc]; rfl, by omega, ?_⟩
    have hsplit : stop - pos = n * width t + (stop - (pos + n * width t)) := by omega
    simp only [encodeFields, encode, he]
    rw [flatMap_range (fun i => memBytes (mem bytes) (pos + i * width t) (width t)) (fun v => Spec.encode t v)
      (fun i => valueAt (mem bytes) (pos + i * width t) t) (fun i => encode_valueAt _ t _ hwf.2.1 hwf.2.2.1),
      flatMap_memBytes, memBytes_mem _ _ _ hl, bytesAt_append, ← hsplit]
  | dynamic => exact absurd (List.mem_cons_self ..) (hnd _ _)

end Btrd
