/-
Kernels that keep the promise of `Spec.Honours` exist: for every filesystem whose items fit a buffer and
every schedule of batch sizes. (Used only to show that theorems about honest kernels are about something.)
-/
import Verif.Lemmas.Search

namespace Btrd
open Spec

/-- `v` in `n` bytes, least significant first -/
def natBytes : Nat → Nat → Bytes
  | 0, _ => []
  | n + 1, v => UInt8.ofNat (v % 256) :: natBytes n (v / 256)

theorem natBytes_length : ∀ n v, (natBytes n v).length = n := by
  intro n
  induction n with
  | zero => intro v; rfl
  | succ n ih => intro v; simp [natBytes, ih]

theorem leAt_natBytes : ∀ (n v : Nat) (pre post : Bytes), v < 256 ^ n →
    leAt (mem (pre ++ natBytes n v ++ post)) pre.length n = v := by
  intro n
  induction n with
  | zero => intro v pre post h; simp at h; simp [leAt, h]
  | succ n ih =>
    intro v pre post h
    simp only [leAt, natBytes]
    have h1 : mem (pre ++ UInt8.ofNat (v % 256) :: natBytes n (v / 256) ++ post) pre.length = UInt8.ofNat (v % 256) := by
      simp [mem]
    have h2 := ih (v / 256) (pre ++ [UInt8.ofNat (v % 256)]) post (by
      rw [Nat.pow_succ] at h
      exact Nat.div_lt_of_lt_mul (by rw [Nat.mul_comm]; exact h))
    simp only [List.length_append, List.length_cons, List.length_nil, Nat.zero_add, List.append_assoc,
      List.cons_append, List.nil_append] at h1 h2 ⊢
    rw [h1, h2]
    have : (UInt8.ofNat (v % 256)).toNat = v % 256 := by
      simp [UInt8.toNat_ofNat']
    omega

def encodeHeader (h : Header) : Bytes :=
  natBytes 8 h.transid ++ natBytes 8 h.objectid ++ natBytes 8 h.offset ++ natBytes 4 h.ty ++ natBytes 4 h.len

theorem encodeHeader_length (h : Header) : (encodeHeader h).length = 32 := by simp [encodeHeader, natBytes_length]

def encodeItems : List Item → Bytes
  | [] => []
  | it :: q => encodeHeader it.1 ++ it.2 ++ encodeItems q

/-- the item can be reported: its numbers fit their fields, its length is right, and it fits the buffer -/
def Storable (it : Item) : Prop :=
  it.1.transid < 2 ^ 64 ∧ it.1.objectid < 2 ^ 64 ∧ it.1.offset < 2 ^ 64 ∧ it.1.ty < 2 ^ 32 ∧ it.1.len < 2 ^ 32 ∧
  it.1.len = it.2.length ∧ 32 + it.2.length ≤ bufSize

instance (it : Item) : Decidable (Storable it) := inferInstanceAs (Decidable (_ ∧ _))

theorem holds_encode : ∀ (q : List Item) (pre : Bytes), (∀ it ∈ q, Storable it) →
    pre.length + (encodeItems q).length ≤ bufSize → Holds (mem (pre ++ encodeItems q)) pre.length q := by
  intro q
  induction q with
  | nil => intro pre _ _; trivial
  | cons it q ih =>
    intro pre hs hl
    obtain ⟨h, payload⟩ := it
    have h0 := hs (h, payload) (by simp)
    obtain ⟨s1, s2, s3, s4, s5, s6, s7⟩ := h0
    simp only at s1 s2 s3 s4 s5 s6 s7
    simp only [encodeItems] at hl ⊢
    simp only [Holds]
    have hrest := ih (pre ++ (encodeHeader h ++ payload)) (fun it hit => hs it (List.mem_cons_of_mem _ hit))
      (by simp only [List.length_append] at *; omega)
    have hlen := encodeHeader_length h
    refine ⟨?_, ?_, ?_, ?_, ?_, ?_, s6, ?_, ?_⟩
    · simp only [List.length_append, hlen] at hl; omega
    · have := leAt_natBytes 8 h.transid pre (natBytes 8 h.objectid ++ natBytes 8 h.offset ++ natBytes 4 h.ty ++
        natBytes 4 h.len ++ payload ++ encodeItems q) (by simpa using s1)
      simpa [encodeHeader] using this
    · have := leAt_natBytes 8 h.objectid (pre ++ natBytes 8 h.transid) (natBytes 8 h.offset ++ natBytes 4 h.ty ++
        natBytes 4 h.len ++ payload ++ encodeItems q) (by simpa using s2)
      simpa [encodeHeader, natBytes_length] using this
    · have := leAt_natBytes 8 h.offset (pre ++ natBytes 8 h.transid ++ natBytes 8 h.objectid) (natBytes 4 h.ty ++
        natBytes 4 h.len ++ payload ++ encodeItems q) (by simpa using s3)
      simpa [encodeHeader, natBytes_length] using this
    · have := leAt_natBytes 4 h.ty (pre ++ natBytes 8 h.transid ++ natBytes 8 h.objectid ++ natBytes 8 h.offset)
        (natBytes 4 h.len ++ payload ++ encodeItems q) (by simpa using s4)
      simpa [encodeHeader, natBytes_length] using this
    · have := leAt_natBytes 4 h.len (pre ++ natBytes 8 h.transid ++ natBytes 8 h.objectid ++ natBytes 8 h.offset ++
        natBytes 4 h.ty) (payload ++ encodeItems q) (by simpa using s5)
      simpa [encodeHeader, natBytes_length] using this
    · intro j hj
      have : mem (pre ++ (encodeHeader h ++ payload ++ encodeItems q)) (pre.length + 32 + j) = payload.getD j 0 := by
        have e : pre ++ (encodeHeader h ++ payload ++ encodeItems q) =
            (pre ++ encodeHeader h) ++ (payload ++ encodeItems q) := by simp
        rw [e]
        simp only [mem, List.getD_eq_getElem?_getD]
        rw [List.getElem?_append_right (by simp [hlen])]
        rw [List.getElem?_append_left (by simp [hlen]; omega)]
        simp [hlen]
      rw [this]
      simp [List.getElem?_eq_getElem hj]
    · simpa [hlen, Nat.add_assoc] using hrest

/-- the first items, at most `n`, that fit `room` bytes -/
def fit : Nat → Nat → List Item → List Item
  | 0, _, _ => []
  | _, _, [] => []
  | n + 1, room, it :: q => if 32 + it.2.length ≤ room then it :: fit n (room - (32 + it.2.length)) q else []

theorem fit_prefix : ∀ (q : List Item) (n room : Nat), fit n room q <+: q := by
  intro q
  induction q with
  | nil => intro n room; cases n <;> simp [fit]
  | cons it q ih =>
    intro n room
    cases n with
    | zero => simp [fit]
    | succ n =>
      simp only [fit]
      split
      · exact (List.prefix_cons_inj it).2 (ih _ _)
      · exact List.nil_prefix

theorem fit_room : ∀ (q : List Item) (n room : Nat), (encodeItems (fit n room q)).length ≤ room := by
  intro q
  induction q with
  | nil => intro n room; cases n <;> simp [fit, encodeItems]
  | cons it q ih =>
    intro n room
    cases n with
    | zero => simp [fit, encodeItems]
    | succ n =>
      simp only [fit]
      split
      · have := ih n (room - (32 + it.2.length))
        simp only [encodeItems, List.length_append, encodeHeader_length]
        omega
      · simp [encodeItems]

/-- the kernel that reports, in call `i`, up to `sizes i + 1` of the items asked for, as they fit the buffer -/
def batchKernel (trees : Trees) (sizes : Nat → Nat) : Kernel := fun i a =>
  let q := fit (sizes i + 1) bufSize (matching trees a)
  .data q.length (mem (encodeItems q))

/-- whatever the filesystem and the schedule, that kernel keeps the promise -/
theorem batchKernel_honours (trees : Trees) (hs : ∀ t, ∀ it ∈ trees t, Storable it) (sizes : Nat → Nat) :
    Honours (batchKernel trees sizes) trees := by
  intro i a
  obtain ⟨rest, hr⟩ := fit_prefix (matching trees a) (sizes i + 1) bufSize
  have hst : ∀ it ∈ matching trees a, Storable it := fun it h => hs _ it (List.mem_filter.1 h).1
  refine ⟨_, _, rest, rfl, ?_, hr.symm, ?_⟩
  · have := holds_encode (fit (sizes i + 1) bufSize (matching trees a)) []
      (fun it h => hst it ((fit_prefix _ _ _).subset h)) (by simpa using fit_room _ _ _)
    simpa using this
  · intro he
    rw [he] at hr
    rw [List.nil_append] at hr
    cases hm : matching trees a with
    | nil => rw [hr, hm]
    | cons it q =>
      rw [hm] at he
      have h0 := (hst it (by rw [hm]; simp)).2.2.2.2.2.2
      simp only [fit, if_pos h0] at he
      simp at he

end Btrd
