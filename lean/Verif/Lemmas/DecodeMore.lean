/-
More about decoding: it never panics on the structs of the table, field names, encoding back.
-/
import Batteries.Data.List.Basic
import Verif.Lemmas.StructTable

namespace Btrd
open Spec

/-! ### no panics -/

/-- a computation that returns: a value or one of the errors of decoding -/
def Returns {α : Type} (r : R α) : Prop := (∃ a, r = .ok a) ∨ ∃ e, r = R.err e ∧ DecodeErr e

/-- the fields read so far correspond to their descriptions; narrow ones hold small integers -/
def Matches (pre : List (Option Str × Ty)) (acc : List (Str × Value)) : Prop :=
  List.Forall₂ (fun f e => f.1 = some e.1 ∧ (narrowTy f.2 = true → ∃ n : Nat, n < 2 ^ 32 ∧ e.2 = .int n)) pre acc

theorem narrow_lookup {pre : List (Option Str × Ty)} {acc : List (Str × Value)} {l : Str}
    (hm : Matches pre acc) (h : narrowIn pre l = true) :
    ∃ n : Nat, n < 2 ^ 32 ∧ lookup acc l = some (.int n) := by
  induction hm with
  | nil => simp [narrowIn] at h
  | @cons f e pre acc hfe _ ih =>
    obtain ⟨name, t⟩ := f
    obtain ⟨n, v⟩ := e
    obtain ⟨h1, h2⟩ := hfe
    simp only at h1 h2
    subst h1
    by_cases hn : n = l
    · subst hn
      simp only [narrowIn, List.find?_cons, BEq.rfl] at h
      obtain ⟨k, hk, rfl⟩ := h2 h
      exact ⟨k, hk, by simp [lookup]⟩
    · have hb : ((some n : Option Str) == some l) = false := by simp [hn]
      have hb' : (n == l) = false := by simp [hn]
      obtain ⟨k, hk, hlk⟩ := ih (by
        simp only [narrowIn, List.find?_cons, hb] at h ⊢
        exact h)
      exact ⟨k, hk, by simpa only [lookup, List.find?_cons, hb'] using hlk⟩

theorem forall2_snoc {α β : Type} {P : α → β → Prop} {as : List α} {bs : List β} {a : α} {b : β}
    (h : List.Forall₂ P as bs) (hab : P a b) : List.Forall₂ P (as ++ [a]) (bs ++ [b]) := by
  induction h with
  | nil => exact .cons hab .nil
  | cons h1 _ ih => exact .cons h1 ih

theorem narrow_value {t : Ty} (m : Mem) (pos : Nat) (h : narrowTy t = true) :
    ∃ n : Nat, n < 2 ^ 32 ∧ valueAt m pos t = .int n := by
  cases t <;> simp only [narrowTy] at h <;> simp only [valueAt] <;> try contradiction
  · exact ⟨_, Nat.lt_of_lt_of_le (leAt_lt m 1 pos) (by decide), rfl⟩
  · exact ⟨_, Nat.lt_of_lt_of_le (leAt_lt m 2 pos) (by decide), rfl⟩
  · exact ⟨_, Nat.lt_of_lt_of_le (leAt_lt m 4 pos) (by decide), rfl⟩

theorem getFieldValue_of_lookup {acc : List (Str × Value)} {l : Str} {n : Nat} (hn : n < 2 ^ 64)
    (h : lookup acc l = some (.int n)) : getFieldValue l acc = .ok n := by
  rw [getFieldValue_eq, h]
  simp only [Value.asInteger, asUsize]
  rw [Int.emod_eq_of_lt (by omega) (by exact_mod_cast hn)]
  simp

theorem fieldsLoop_returns (b : Build) {what : Str} (bytes : Bytes) (hb : bytes.length < 2 ^ 63) :
    ∀ (fs pre : List (Option Str × Ty)) (pos : Nat) (acc : List (Str × Value)), namedB pre fs = true →
      Matches pre acc → pos ≤ bytes.length → Returns (fieldsLoop b what fs bytes pos acc) := by
  intro fs
  induction fs with
  | nil => intro pre pos acc _ _ _; rw [fieldsLoop]; exact .inl ⟨_, rfl⟩
  | cons f fs ih =>
    intro pre pos acc h hm hp
    obtain ⟨name, t⟩ := f
    cases name with
    | none => simp [namedB] at h
    | some name =>
    have hb64 : bytes.length < 2 ^ 64 := by omega
    rw [fieldsLoop]
    have fixedCase : FixedSize t → anonB t = true → namedB (pre ++ [(some name, t)]) fs = true →
        Returns (match fieldStep b what (some name, t) bytes pos acc with
          | .ok (o, a) => fieldsLoop b what fs bytes o a
          | .error e => .error e) := by
      intro hf ha hr
      rw [fieldStep_fixed_eq b (some name) t hf (by simp only [AnonOks]; exact ⟨anonB_ok t ha, trivial⟩) bytes pos hp acc]
      by_cases hl : pos + width t ≤ bytes.length
      · rw [if_pos hl]
        exact ih _ _ _ hr (forall2_snoc hm ⟨rfl, fun hn => narrow_value _ _ hn⟩) hl
      · rw [if_neg hl]; exact .inr ⟨_, rfl, by first | assumption | (simp [DecodeErr]; done) | (simp only [DecodeErr]; omega)⟩
    cases t with
    | trailingString l =>
      simp only [namedB, Bool.and_eq_true] at h
      obtain ⟨n, hn, hl⟩ := narrow_lookup hm h.1
      have hg := getFieldValue_of_lookup (by omega) hl
      obtain ⟨h1, -, h3⟩ := trailingStringStep_eq b name l bytes hb64 pos n hp (by omega) acc hg
      rw [fieldStep_string]
      by_cases hle : pos + n ≤ bytes.length
      · rw [h1 hle]
        exact ih _ _ _ h.2 (forall2_snoc hm ⟨rfl, fun hn => by simp [narrowTy] at hn⟩) hle
      · rw [h3 (by omega) hle]; exact .inr ⟨_, rfl, by first | assumption | (simp [DecodeErr]; done) | (simp only [DecodeErr]; omega)⟩
    | trailingTypes t l =>
      simp only [namedB, Bool.and_eq_true, decide_eq_true_eq] at h
      obtain ⟨⟨⟨⟨h1, h2⟩, h3⟩, h4⟩, h5⟩ := h
      obtain ⟨n, hn, hl⟩ := narrow_lookup hm h1
      have hg := getFieldValue_of_lookup (by omega) hl
      obtain ⟨g1, -, g3⟩ := trailingTypesStep_eq b name l t ((isStatic_iff t).1 h2) (anonB_ok t h3) bytes hb64 pos n hp
        acc hg
      rw [fieldStep_types]
      by_cases hle : pos + n * width t ≤ bytes.length
      · rw [g1 hle]
        exact ih _ _ _ h5 (forall2_snoc hm ⟨rfl, fun hn => by simp [narrowTy] at hn⟩) hle
      · rw [size_eq_width] at h4
        have : n * width t ≤ 2 ^ 32 * 2 ^ 20 := Nat.mul_le_mul (by omega) h4
        rw [g3 (by omega) hle]; exact .inr ⟨_, rfl, by first | assumption | (simp [DecodeErr]; done) | (simp only [DecodeErr]; omega)⟩
    | _ =>
      simp only [namedB, Bool.and_eq_true] at h
      first
        | exact fixedCase ((isStatic_iff _).1 h.1.1) h.1.2 h.2
        | (simp [Ty.isStatic] at h; done)

theorem fieldsLoop_fixed_returns (b : Build) {what : Str} (bytes : Bytes) (fs : List (Option Str × Ty)) (hf : FixedSizes fs)
    (ha : AnonOks fs) (hl : widths fs ≤ bytes.length) : Returns (fieldsLoop b what fs bytes 0 []) := by
  have := fieldsLoop_fixed b (what := what) fs hf ha bytes 0 0 [] (by omega)
  rw [List.drop_zero] at this
  rw [this]
  exact .inl ⟨_, rfl⟩

theorem dynamic_returns (b : Build) (name : Option Str) (cb : Bytes → Except Fail (List (Option Str × Ty)))
    (hcb : GoodCallback cb) (bytes : Bytes) : Returns (fieldsLoop b what [(name, .dynamic cb)] bytes 0 []) := by
  rw [fieldsLoop, fieldStep_dynamic]
  simp only [sliceFrom, Nat.zero_le, if_true]
  rcases hcb.returns (bytes.drop 0) with ⟨gs, hg⟩ | ⟨e, hg, hde⟩
  · rw [hg, dynStep_ok b gs (hcb.fixed _ _ hg) (hcb.anon _ _ hg) bytes 0 (by omega) []]
    by_cases h : 0 + widths gs ≤ bytes.length
    · rw [if_pos h]; exact .inl ⟨_, rfl⟩
    · rw [if_neg h]; exact .inr ⟨_, rfl, by first | assumption | (simp [DecodeErr]; done) | (simp only [DecodeErr]; omega)⟩
  · rw [hg, dynStep]; exact .inr ⟨_, rfl, by first | assumption | (simp [DecodeErr]; done) | (simp only [DecodeErr]; omega)⟩

theorem structFromBytes_returns (b : Build) (s : StructDef) (hs : s ∈ structs) (key : Option (Int × Int × Int))
    (bytes : Bytes) (hb : bytes.length < 2 ^ 63) : Returns (structFromBytes b s key bytes) := by
  simp only [structFromBytes]
  by_cases hl : s.size ≤ bytes.length
  · rw [if_pos hl]
    have : Returns (fieldsLoop b s.name s.fields bytes 0 []) := by
      rcases structs_cases s hs with h | rfl | rfl
      · simp only [descB, Bool.and_eq_true, Bool.or_eq_true] at h
        rcases h.1.1 with ⟨h1, h2⟩ | h
        · exact fieldsLoop_fixed_returns b bytes s.fields ((allStatic_iff _).1 h1) (anonsB_ok _ h2)
            (by rw [← sizeSum_eq_widths]; exact hl)
        · exact fieldsLoop_returns b bytes hb s.fields [] 0 [] h .nil (by omega)
      · exact dynamic_returns b none _ extentItemFields_good bytes
      · exact dynamic_returns b none _ fileExtentItemFields_good bytes
    rcases this with ⟨⟨o, vs⟩, h⟩ | ⟨e, h, hde⟩
    · rw [h]; exact .inl ⟨_, rfl⟩
    · rw [h]; exact .inr ⟨_, rfl, by first | assumption | (simp [DecodeErr]; done) | (simp only [DecodeErr]; omega)⟩
  · rw [if_neg hl]; exact .inr ⟨_, rfl, by first | assumption | (simp [DecodeErr]; done) | (simp only [DecodeErr]; omega)⟩

/-! ### layouts: splitting and fixed parts -/

theorem Laid.split {bytes : Bytes} {pre post : List (Option Str × Ty)} {pos : Nat} {seen out : List (Str × Value)}
    {stop : Nat} (h : Laid bytes (pre ++ post) pos seen out stop) :
    ∃ mid p, Laid bytes pre pos seen mid p ∧ Laid bytes post p mid out stop := by
  generalize hfs : pre ++ post = fs at h
  induction h generalizing pre with
  | done pos seen =>
    simp only [List.append_eq_nil_iff] at hfs
    obtain ⟨rfl, rfl⟩ := hfs
    exact ⟨seen, pos, .done _ _, .done _ _⟩
  | @fixed name t fs pos seen out stop hf hl r ih =>
    cases pre with
    | nil => simp only [List.nil_append] at hfs; subst hfs; exact ⟨seen, pos, .done _ _, .fixed hf hl r⟩
    | cons f pre =>
      simp only [List.cons_append, List.cons.injEq] at hfs
      obtain ⟨rfl, rfl⟩ := hfs
      obtain ⟨mid, p, h1, h2⟩ := ih rfl
      exact ⟨mid, p, .fixed hf hl h1, h2⟩
  | @string name lf fs pos n seen out stop hn hl r ih =>
    cases pre with
    | nil => simp only [List.nil_append] at hfs; subst hfs; exact ⟨seen, pos, .done _ _, .string hn hl r⟩
    | cons f pre =>
      simp only [List.cons_append, List.cons.injEq] at hfs
      obtain ⟨rfl, rfl⟩ := hfs
      obtain ⟨mid, p, h1, h2⟩ := ih rfl
      exact ⟨mid, p, .string hn hl h1, h2⟩
  | @types name cf t fs pos n seen out stop hn hl r ih =>
    cases pre with
    | nil => simp only [List.nil_append] at hfs; subst hfs; exact ⟨seen, pos, .done _ _, .types hn hl r⟩
    | cons f pre =>
      simp only [List.cons_append, List.cons.injEq] at hfs
      obtain ⟨rfl, rfl⟩ := hfs
      obtain ⟨mid, p, h1, h2⟩ := ih rfl
      exact ⟨mid, p, .types hn hl h1, h2⟩
  | @dynamic name cb gs fs pos seen out stop hcb hf hl r ih =>
    cases pre with
    | nil => simp only [List.nil_append] at hfs; subst hfs; exact ⟨seen, pos, .done _ _, .dynamic hcb hf hl r⟩
    | cons f pre =>
      simp only [List.cons_append, List.cons.injEq] at hfs
      obtain ⟨rfl, rfl⟩ := hfs
      obtain ⟨mid, p, h1, h2⟩ := ih rfl
      exact ⟨mid, p, .dynamic hcb hf hl h1, h2⟩

theorem Laid.prefix {bytes : Bytes} {fs : List (Option Str × Ty)} {pos : Nat} {seen out : List (Str × Value)}
    {stop : Nat} (h : Laid bytes fs pos seen out stop) : ∃ more, out = seen ++ more := by
  induction h with
  | done => exact ⟨[], by simp⟩
  | fixed _ _ _ ih => obtain ⟨m, rfl⟩ := ih; exact ⟨_, List.append_assoc _ _ _⟩
  | string _ _ _ ih => obtain ⟨m, rfl⟩ := ih; exact ⟨_, List.append_assoc _ _ _⟩
  | types _ _ _ ih => obtain ⟨m, rfl⟩ := ih; exact ⟨_, List.append_assoc _ _ _⟩
  | dynamic _ _ _ _ ih => obtain ⟨m, rfl⟩ := ih; exact ⟨_, List.append_assoc _ _ _⟩

/-- a layout of fixed size fields is what the bytes at their positions say -/
theorem laid_fixed {bytes : Bytes} {fs : List (Option Str × Ty)} (hf : FixedSizes fs) {pos : Nat}
    {seen out : List (Str × Value)} {stop : Nat} (hp : pos ≤ bytes.length) :
    Laid bytes fs pos seen out stop ↔
      pos + widths fs ≤ bytes.length ∧ out = seen ++ fieldsAt (mem bytes) pos fs ∧ stop = pos + widths fs := by
  induction fs generalizing pos seen with
  | nil =>
    simp only [widths, fieldsAt, Nat.add_zero, List.append_nil]
    constructor
    · intro h; cases h; exact ⟨hp, rfl, rfl⟩
    · rintro ⟨-, rfl, rfl⟩; exact .done _ _
  | cons f fs ih =>
    obtain ⟨name, t⟩ := f
    simp only [FixedSizes] at hf
    constructor
    · intro h
      cases h with
      | fixed _ hl r =>
        obtain ⟨h1, h2, h3⟩ := (ih hf.2 hl).1 r
        simp only [widths, fieldsAt]
        exact ⟨by omega, by rw [h2, List.append_assoc], by omega⟩
      | string => simp [FixedSize] at hf
      | types => simp [FixedSize] at hf
      | dynamic => simp [FixedSize] at hf
    · rintro ⟨h1, h2, h3⟩
      simp only [widths, fieldsAt] at h1 h2 h3
      refine .fixed hf.1 (by omega) ((ih hf.2 (by omega)).2 ⟨by omega, by rw [h2, List.append_assoc], by omega⟩)

end Btrd
