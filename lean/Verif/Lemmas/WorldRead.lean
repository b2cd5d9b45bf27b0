/-
Reading structs, against the rules of `Spec/World`: when it gives a value, and the messages when it does not.
-/
import Verif.Spec.World
import Verif.Model.Message
import Verif.Lemmas.Complaints
import Verif.Props.Cast

namespace Btrd
open Spec

/-! ### trailing parts -/

/-- nothing of fixed size comes after a trailing part -/
def lateB : List (Option Str × Ty) → Bool
  | [] => true
  | (_, .trailingString _) :: fs => decide (sizeSum fs = 0) && lateB fs
  | (_, .trailingTypes _ _) :: fs => decide (sizeSum fs = 0) && lateB fs
  | _ :: fs => lateB fs

set_option maxRecDepth 100000 in
theorem structs_late : ∀ s ∈ structs, lateB s.fields = true := by
  have : structs.all (fun s => lateB s.fields) = true := by decide
  intro s hs
  exact List.all_eq_true.1 this s hs

theorem Spec.Laid.append {bytes : Bytes} {pre post : List (Option Str × Ty)} {pos p : Nat}
    {seen mid out : List (Str × Value)} {stop : Nat} (h : Laid bytes pre pos seen mid p)
    (h' : Laid bytes post p mid out stop) : Laid bytes (pre ++ post) pos seen out stop := by
  induction h with
  | done => exact h'
  | fixed hf hl _ ih => exact .fixed hf hl (ih h')
  | string hn hl _ ih => exact .string hn hl (ih h')
  | types hn hl _ ih => exact .types hn hl (ih h')
  | dynamic hcb hf hl _ ih => exact .dynamic hcb hf hl (ih h')

theorem short_text (name part : Str) (a b : Nat) :
    (Err.shortRead name part a b).text = some (tooShort name part a b) := by
  simp only [Err.text, tooShort, natDisplay, numeral_nat]

/-- reading the fields of a struct of the table without dynamic parts: all of it, or it is unreadable -/
theorem fieldsLoop_unreadable (b : Build) (s : StructDef) (bytes : Bytes) (hb : bytes.length < 2 ^ 63)
    (hw : widths s.fields ≤ bytes.length) :
    ∀ (fs pre : List (Option Str × Ty)) (pos : Nat) (acc : List (Str × Value)), s.fields = pre ++ fs →
      Laid bytes pre 0 [] acc pos → namedB pre fs = true → lateB fs = true → Matches pre acc →
      pos + widths fs ≤ bytes.length →
      (∃ r, fieldsLoop b s.name fs bytes pos acc = .ok r) ∨
        ∃ e t, fieldsLoop b s.name fs bytes pos acc = R.err e ∧ e.text = some t ∧ Unreadable bytes s t := by
  intro fs
  induction fs with
  | nil => intro pre pos acc _ _ _ _ _ _; rw [fieldsLoop]; exact .inl ⟨_, rfl⟩
  | cons f fs ih =>
    intro pre pos acc he hlaid h hlate hm hp
    obtain ⟨name, t⟩ := f
    cases name with
    | none => simp [namedB] at h
    | some name =>
    have hb64 : bytes.length < 2 ^ 64 := by omega
    rw [fieldsLoop]
    have fixedCase : FixedSize t → anonB t = true → namedB (pre ++ [(some name, t)]) fs = true → lateB fs = true →
        (∃ r, (match fieldStep b s.name (some name, t) bytes pos acc with
          | .ok (o, a) => fieldsLoop b s.name fs bytes o a
          | .error e => .error e) = .ok r) ∨
        ∃ e t', (match fieldStep b s.name (some name, t) bytes pos acc with
          | .ok (o, a) => fieldsLoop b s.name fs bytes o a
          | .error e => .error e) = R.err e ∧ e.text = some t' ∧ Unreadable bytes s t' := by
      intro hf ha hr hlt
      simp only [widths] at hp
      rw [fieldStep_fixed_eq b (some name) t hf (by simp only [AnonOks]; exact ⟨anonB_ok t ha, trivial⟩) bytes pos
        (by omega) acc]
      have hl : pos + width t ≤ bytes.length := by omega
      rw [if_pos hl]
      exact ih _ _ _ (by rw [he, List.append_assoc]; rfl)
        (hlaid.append (.fixed hf hl (.done _ _))) hr hlt
        (forall2_snoc hm ⟨rfl, fun hn => narrow_value _ _ hn⟩) (by omega)
    cases t with
    | trailingString l =>
      simp only [namedB, Bool.and_eq_true] at h
      simp only [lateB, Bool.and_eq_true, decide_eq_true_eq] at hlate
      simp only [widths, width] at hp
      rw [sizeSum_eq_widths] at hlate
      obtain ⟨n, hn, hl⟩ := narrow_lookup hm h.1
      have hg := getFieldValue_of_lookup (by omega) hl
      obtain ⟨h1, -, h3⟩ := trailingStringStep_eq b (what := s.name) name l bytes hb64 pos n (by omega) (by omega) acc hg
      rw [fieldStep_string]
      by_cases hle : pos + n ≤ bytes.length
      · rw [h1 hle]
        exact ih _ _ _ (by rw [he, List.append_assoc]; rfl) (hlaid.append (.string hl hle (.done _ _))) h.2 hlate.2
          (forall2_snoc hm ⟨rfl, fun hn => by simp [narrowTy] at hn⟩) (by omega)
      · rw [h3 (by omega) hle]
        exact .inr ⟨_, _, rfl, short_text _ _ _ _, .string hw he hlaid hl (by omega)⟩
    | trailingTypes t l =>
      simp only [namedB, Bool.and_eq_true, decide_eq_true_eq] at h
      simp only [lateB, Bool.and_eq_true, decide_eq_true_eq] at hlate
      simp only [widths, width] at hp
      rw [sizeSum_eq_widths] at hlate
      obtain ⟨⟨⟨⟨h1, h2⟩, h3⟩, h4⟩, h5⟩ := h
      obtain ⟨n, hn, hl⟩ := narrow_lookup hm h1
      have hg := getFieldValue_of_lookup (by omega) hl
      obtain ⟨g1, -, g3⟩ := trailingTypesStep_eq b (what := s.name) name l t ((isStatic_iff t).1 h2) (anonB_ok t h3)
        bytes hb64 pos n (by omega) acc hg
      rw [fieldStep_types]
      by_cases hle : pos + n * width t ≤ bytes.length
      · rw [g1 hle]
        exact ih _ _ _ (by rw [he, List.append_assoc]; rfl) (hlaid.append (.types hl hle (.done _ _))) h5 hlate.2
          (forall2_snoc hm ⟨rfl, fun hn => by simp [narrowTy] at hn⟩) (by omega)
      · rw [size_eq_width] at h4
        have : n * width t ≤ 2 ^ 32 * 2 ^ 20 := Nat.mul_le_mul (by omega) h4
        rw [g3 (by omega) hle]
        exact .inr ⟨_, _, rfl, short_text _ _ _ _, .types hw he hlaid hl (by omega)⟩
    | _ =>
      simp only [namedB, Bool.and_eq_true] at h
      simp only [lateB] at hlate
      first
        | exact fixedCase ((isStatic_iff _).1 h.1.1) h.1.2 h.2 hlate
        | (simp [Ty.isStatic] at h; done)

theorem fieldsLoop_append (b : Build) (what : Str) (bytes : Bytes) : ∀ (pre fs : List (Option Str × Ty)) (pos : Nat)
    (acc : List (Str × Value)) (o : Nat) (a : List (Str × Value)), fieldsLoop b what pre bytes pos acc = .ok (o, a) →
    fieldsLoop b what (pre ++ fs) bytes pos acc = fieldsLoop b what fs bytes o a := by
  intro pre
  induction pre with
  | nil =>
    intro fs pos acc o a h
    rw [fieldsLoop] at h
    simp only [Except.ok.injEq, Prod.mk.injEq] at h
    obtain ⟨rfl, rfl⟩ := h
    rfl
  | cons f pre ih =>
    intro fs pos acc o a h
    rw [List.cons_append, fieldsLoop]
    rw [fieldsLoop] at h
    cases hs : fieldStep b what f bytes pos acc with
    | error e => rw [hs] at h; cases h
    | ok r =>
      obtain ⟨o', a'⟩ := r
      rw [hs] at h
      exact ih fs o' a' o a h

theorem namedB_append : ∀ (pre fs p : List (Option Str × Ty)), namedB p (pre ++ fs) = true →
    namedB p pre = true ∧ namedB (p ++ pre) fs = true := by
  intro pre
  induction pre with
  | nil => intro fs p h; exact ⟨by simp [namedB], by simpa using h⟩
  | cons f pre ih =>
    intro fs p h
    obtain ⟨name, t⟩ := f
    cases name with
    | none => simp [namedB] at h
    | some n =>
      have e : p ++ (some n, t) :: pre = p ++ [(some n, t)] ++ pre := by simp
      cases t <;> simp only [List.cons_append, namedB, Bool.and_eq_true] at h ⊢ <;> rw [e] <;>
        exact ⟨⟨h.1, (ih _ _ h.2).1⟩, (ih _ _ h.2).2⟩

theorem laid_matches {bytes : Bytes} {fs : List (Option Str × Ty)} {pos : Nat} {seen out : List (Str × Value)}
    {stop : Nat} (h : Laid bytes fs pos seen out stop) : ∀ pre, namedB pre fs = true → Matches pre seen →
    Matches (pre ++ fs) out := by
  induction h with
  | done => intro pre _ hm; simpa using hm
  | @fixed name t fs pos seen out stop hf hl _ ih =>
    intro pre hn hm
    have e : pre ++ (name, t) :: fs = pre ++ [(name, t)] ++ fs := by simp
    rw [e]
    cases name with
    | none => simp [namedB] at hn
    | some n =>
      refine ih _ ?_ (forall2_snoc hm ⟨rfl, fun hn => narrow_value _ _ hn⟩)
      cases t <;> simp only [namedB, Bool.and_eq_true] at hn <;> exact hn.2
  | @string name l fs pos n seen out stop hn' hl _ ih =>
    intro pre hn hm
    have e : pre ++ (some name, .trailingString l) :: fs = pre ++ [(some name, .trailingString l)] ++ fs := by simp
    rw [e]
    simp only [namedB, Bool.and_eq_true] at hn
    exact ih _ hn.2 (forall2_snoc hm ⟨rfl, fun hn => by simp [narrowTy] at hn⟩)
  | @types name l t fs pos n seen out stop hn' hl _ ih =>
    intro pre hn hm
    have e : pre ++ (some name, .trailingTypes t l) :: fs = pre ++ [(some name, .trailingTypes t l)] ++ fs := by simp
    rw [e]
    simp only [namedB, Bool.and_eq_true] at hn
    exact ih _ hn.2 (forall2_snoc hm ⟨rfl, fun hn => by simp [narrowTy] at hn⟩)
  | @dynamic name cb gs fs pos seen out stop _ _ _ _ ih =>
    intro pre hn hm
    cases name with
    | none => simp [namedB] at hn
    | some n => simp [namedB, Ty.isStatic] at hn

theorem Spec.WellFormed.left : ∀ {pre fs : List (Option Str × Ty)}, WellFormed (pre ++ fs) → WellFormed pre := by
  intro pre
  induction pre with
  | nil => intro fs _; simp only [WellFormed]
  | cons f pre ih =>
    intro fs h
    obtain ⟨name, t⟩ := f
    cases t <;> simp only [List.cons_append, WellFormed] at h ⊢
    case trailingTypes => exact ⟨h.1, h.2.1, h.2.2.1, ih h.2.2.2⟩
    case trailingString => exact ⟨h.1, ih h.2⟩
    case dynamic => exact ⟨h.1, ih h.2⟩
    all_goals exact ⟨h.1, h.2.1, ih h.2.2⟩

/-- what comes before a trailing part has been read -/
theorem fieldsLoop_of_laid (b : Build) (s : StructDef) (hwf : WellFormed s.fields) (bytes : Bytes) (hb : bytes.length < 2 ^ 64)
    {pre post : List (Option Str × Ty)} (he : s.fields = pre ++ post) {seen : List (Str × Value)} {pos : Nat}
    (hl : Laid bytes pre 0 [] seen pos) :
    fieldsLoop b s.name s.fields bytes 0 [] = fieldsLoop b s.name post bytes pos seen := by
  rw [he]
  rw [he] at hwf
  exact fieldsLoop_append b s.name bytes pre post 0 [] pos seen
    ((fieldsLoop_iff b bytes hb pre hwf.left 0 [] (by omega) (by simp [AllIntsF]) pos seen).2 hl)

/-! ### extent items -/

theorem inlineRefs_outcome : ∀ (fuel : Nat) (bytes : Bytes), bytes.length < fuel →
    (∃ fs, inlineRefs fuel bytes = .ok fs) ∨
      ∃ refs vs ty rest, bytes = refs ++ ty :: rest ∧ InlineRefs refs vs ∧
        (refLength ty = none ∧ inlineRefs fuel bytes = R.err (.unknownInlineRef ty.toNat) ∨
          ∃ n, refLength ty = some n ∧ rest.length < n ∧ inlineRefs fuel bytes = R.err .leftover) := by
  intro fuel
  induction fuel with
  | zero => intro bytes h; omega
  | succ fuel ih =>
    intro bytes hl
    cases bytes with
    | nil => exact .inl ⟨[], by rw [inlineRefs.eq_def]⟩
    | cons ty rest =>
    simp only [List.length_cons] at hl
    rw [inlineRefs_cons]
    -- one more reference in front
    have key : ∀ (n : Nat) (extra : List (Option Str × Ty)), refLength ty = some n →
        (∀ x tail vs, x.length = n → InlineRefs tail vs → ∃ ws, InlineRefs (ty :: (x ++ tail)) ws) →
        (∃ fs, inlineRefs.next fuel rest n extra = .ok fs) ∨
        ∃ refs vs ty' rest', ty :: rest = refs ++ ty' :: rest' ∧ InlineRefs refs vs ∧
          (refLength ty' = none ∧ inlineRefs.next fuel rest n extra = R.err (.unknownInlineRef ty'.toNat) ∨
            ∃ n', refLength ty' = some n' ∧ rest'.length < n' ∧ inlineRefs.next fuel rest n extra = R.err .leftover) := by
      intro n extra hn hx
      by_cases hle : n ≤ rest.length
      · have hsplit : rest = rest.take n ++ rest.drop n := (List.take_append_drop n rest).symm
        have hlen : (rest.take n).length = n := by simp; omega
        rw [show inlineRefs.next fuel rest n extra = inlineRefs.next fuel (rest.take n ++ rest.drop n) n extra by
          rw [List.take_append_drop], next_append fuel _ _ n extra hlen]
        rcases ih (rest.drop n) (by simp; omega) with ⟨fs, h⟩ | ⟨refs, vs, ty', rest', h1, h2, h3⟩
        · rw [h]; exact .inl ⟨_, rfl⟩
        · obtain ⟨ws, hws⟩ := hx (rest.take n) refs vs hlen h2
          refine .inr ⟨ty :: (rest.take n ++ refs), ws, ty', rest', ?_, hws, ?_⟩
          · conv => lhs; rw [hsplit, h1]
            simp
          · rcases h3 with ⟨h3, h4⟩ | ⟨n', h3, h4, h5⟩
            · exact .inl ⟨h3, by rw [h4]⟩
            · exact .inr ⟨n', h3, h4, by rw [h5]⟩
      · refine .inr ⟨[], [], ty, rest, rfl, .nil, .inr ⟨n, hn, by omega, ?_⟩⟩
        simp only [inlineRefs.next]
        rw [if_neg hle]
    by_cases h178 : ty = 178
    · subst h178
      rw [if_pos rfl]
      refine key 28 _ rfl ?_
      intro x tail vs hx ht
      have e : x = x.take 8 ++ (x.drop 8).take 8 ++ (x.drop 16).take 8 ++ x.drop 24 := by
        have q1 := List.take_append_drop 8 x
        have q2 := List.take_append_drop 8 (x.drop 8)
        have q3 := List.take_append_drop 8 (x.drop 16)
        simp only [List.drop_drop] at q2 q3
        simp only [List.append_assoc, q1, q2, q3]
      have := InlineRefs.dataRef (root := x.take 8) (oid := (x.drop 8).take 8) (off := (x.drop 16).take 8)
        (count := x.drop 24) (by simp; omega) (by simp; omega) (by simp; omega) (by simp; omega) ht
      rw [← e] at this
      exact ⟨_, this⟩
    · rw [if_neg h178]
      by_cases h184 : ty = 184
      · subst h184
        rw [if_pos rfl]
        refine key 12 _ rfl ?_
        intro x tail vs hx ht
        have e : x = x.take 8 ++ x.drop 8 := (List.take_append_drop 8 x).symm
        have := InlineRefs.sharedDataRef (off := x.take 8) (count := x.drop 8) (by simp; omega) (by simp; omega) ht
        rw [← e] at this
        exact ⟨_, this⟩
      · rw [if_neg h184]
        by_cases hb : ty = 182 ∨ ty = 176
        · rw [if_pos hb]
          refine key 8 _ ?_ ?_
          · rw [refLength, if_neg h178, if_neg h184, if_pos (Or.comm.1 hb)]
          · intro x tail vs hx ht
            exact ⟨_, InlineRefs.blockRef (Or.comm.1 hb) hx ht⟩
        · rw [if_neg hb]
          refine .inr ⟨[], [], ty, rest, rfl, .nil, .inl ⟨?_, rfl⟩⟩
          rw [refLength, if_neg h178, if_neg h184, if_neg (fun h => hb (Or.comm.1 h))]

theorem inlineRefs_stuck {refs : Bytes} {vs : List (Str × Value)} (h : InlineRefs refs vs) (ty : UInt8) (rest : Bytes) :
    ∀ fuel, (refs ++ ty :: rest).length < fuel →
      (refLength ty = none → inlineRefs fuel (refs ++ ty :: rest) = R.err (.unknownInlineRef ty.toNat)) ∧
      (∀ n, refLength ty = some n → rest.length < n → inlineRefs fuel (refs ++ ty :: rest) = R.err .leftover) := by
  induction h with
  | nil =>
    intro fuel hf
    obtain ⟨fuel, rfl⟩ : ∃ k, fuel = k + 1 := ⟨fuel - 1, by simp at hf; omega⟩
    simp only [List.nil_append]
    rw [inlineRefs_cons]
    have hnext : ∀ n extra, rest.length < n → inlineRefs.next fuel rest n extra = R.err .leftover := by
      intro n extra hn
      simp only [inlineRefs.next]
      rw [if_neg (by omega)]
    unfold refLength
    split
    · exact ⟨by simp, fun n h hl => hnext _ _ (by simp only [Option.some.injEq] at h; omega)⟩
    · split
      · exact ⟨by simp, fun n h hl => hnext _ _ (by simp only [Option.some.injEq] at h; omega)⟩
      · split
        · rename_i h
          rw [if_pos (Or.comm.1 h)]
          exact ⟨by simp, fun n h hl => hnext _ _ (by simp only [Option.some.injEq] at h; omega)⟩
        · rename_i h
          rw [if_neg (fun g => h (Or.comm.1 g))]
          exact ⟨fun _ => rfl, by simp⟩
  | @dataRef root oid off count tail vs h1 h2 h3 h4 _ ih =>
    intro fuel hf
    obtain ⟨fuel, rfl⟩ : ∃ k, fuel = k + 1 := ⟨fuel - 1, by simp at hf; omega⟩
    have e : 178 :: (root ++ oid ++ off ++ count ++ tail) ++ ty :: rest =
      178 :: ((root ++ oid ++ off ++ count) ++ (tail ++ ty :: rest)) := by simp
    rw [e] at hf ⊢
    rw [inlineRefs_cons, if_pos rfl, next_append fuel _ _ 28 _ (by simp [h1, h2, h3, h4])]
    obtain ⟨i1, i2⟩ := ih fuel (by simp only [List.length_cons, List.length_append] at hf ⊢; omega)
    exact ⟨fun h => by rw [i1 h], fun n h hl => by rw [i2 n h hl]⟩
  | @sharedDataRef off count tail vs h1 h2 _ ih =>
    intro fuel hf
    obtain ⟨fuel, rfl⟩ : ∃ k, fuel = k + 1 := ⟨fuel - 1, by simp at hf; omega⟩
    have e : 184 :: (off ++ count ++ tail) ++ ty :: rest =
      184 :: ((off ++ count) ++ (tail ++ ty :: rest)) := by simp
    rw [e] at hf ⊢
    rw [inlineRefs_cons, if_neg (by decide), if_pos rfl, next_append fuel _ _ 12 _ (by simp [h1, h2])]
    obtain ⟨i1, i2⟩ := ih fuel (by simp only [List.length_cons, List.length_append] at hf ⊢; omega)
    exact ⟨fun h => by rw [i1 h], fun n h hl => by rw [i2 n h hl]⟩
  | @blockRef ty' off tail vs ht h1 _ ih =>
    intro fuel hf
    obtain ⟨fuel, rfl⟩ : ∃ k, fuel = k + 1 := ⟨fuel - 1, by simp at hf; omega⟩
    have e : ty' :: (off ++ tail) ++ ty :: rest = ty' :: (off ++ (tail ++ ty :: rest)) := by simp
    rw [e] at hf ⊢
    have n1 : ty' ≠ 178 := by rcases ht with rfl | rfl <;> decide
    have n2 : ty' ≠ 184 := by rcases ht with rfl | rfl <;> decide
    rw [inlineRefs_cons, if_neg n1, if_neg n2, if_pos (Or.comm.1 ht), next_append fuel _ _ 8 _ h1]
    obtain ⟨i1, i2⟩ := ih fuel (by simp only [List.length_cons, List.length_append] at hf ⊢; omega)
    exact ⟨fun h => by rw [i1 h], fun n h hl => by rw [i2 n h hl]⟩

/-! ### all structs of the table -/

theorem named_struct {s s' : StructDef} (hs : s ∈ structs) (hs' : s' ∈ structs) (h : s.name = s'.name) : s = s' := by
  have h1 := findStruct_self s hs
  rw [h, findStruct_self s' hs'] at h1
  exact (Option.some.inj h1).symm

theorem extent_of_name {s : StructDef} (hs : s ∈ structs) (h : s.name = s!' "btrfs_extent_item") :
    s = struct_btrfs_extent_item := named_struct hs (by simp [structs]) h

theorem file_of_name {s : StructDef} (hs : s ∈ structs) (h : s.name = s!' "btrfs_file_extent_item") :
    s = struct_btrfs_file_extent_item := named_struct hs (by simp [structs]) h

theorem fileExtent_widths : widths fileExtentHead = 21 ∧ widths (fileExtentHead ++ fileExtentPlace) = 53 := by decide

theorem fileExtent_reified (bytes : Bytes) :
    (bytes.length < 21 ∧ fileExtentItemFields bytes =
      R.err (.shortRead s!' "btrfs_file_extent_item" [] bytes.length 21)) ∨
    (21 ≤ bytes.length ∧ Placed bytes ∧ fileExtentItemFields bytes = .ok (fileExtentHead ++ fileExtentPlace)) ∨
    (21 ≤ bytes.length ∧ ¬ Placed bytes ∧ fileExtentItemFields bytes = .ok fileExtentHead) := by
  rcases fileExtentItemFields_cases bytes with h | ⟨ty, h1, h2, ⟨h3, h4⟩ | ⟨h3, h4⟩⟩
  · exact .inl h
  · exact .inr (.inl ⟨h2, by simpa [Placed, h1] using h3, h4⟩)
  · exact .inr (.inr ⟨h2, by simpa [Placed, h1] using h3, h4⟩)

/-- **reading a struct gives a value as the rules say** -/
theorem read_iff (b : Build) (s : StructDef) (hs : s ∈ structs) (key : Option (Int × Int × Int)) (bytes : Bytes)
    (hb : bytes.length < 2 ^ 64) (sv : StructVal) :
    structFromBytes b s key bytes = .ok sv ↔ sv.name = s.name ∧ sv.key = key ∧ ReadAs bytes s sv.fields := by
  by_cases h1 : s.name = s!' "btrfs_extent_item"
  · have := extent_of_name hs h1
    subst this
    rw [C55_extent_item_iff b key bytes hb sv]
    obtain ⟨nm, k, fl⟩ := sv
    simp only [StructVal.mk.injEq]
    constructor
    · rintro ⟨refs, gen, flags, rest, vs, h1, h2, h3, h4, h5, rfl, rfl, rfl⟩
      exact ⟨rfl, rfl, .extentItem rfl h1 h2 h3 h4 h5⟩
    · rintro ⟨rfl, rfl, h⟩
      cases h with
      | laid h => exact absurd rfl h
      | extentItem _ h1 h2 h3 h4 h5 => exact ⟨_, _, _, _, _, h1, h2, h3, h4, h5, rfl, rfl, rfl⟩
      | inlineExtent h => exact absurd h (by decide)
      | placedExtent h => exact absurd h (by decide)
  · rw [C52_layout_iff b s hs key bytes hb sv]
    by_cases h2 : s.name = s!' "btrfs_file_extent_item"
    · have := file_of_name hs h2
      subst this
      have e0 : struct_btrfs_file_extent_item.fields = [(none, .dynamic fileExtentItemFields)] := rfl
      rw [e0, laid_dynamic]
      refine and_congr_right fun _ => and_congr_right fun _ => ?_
      obtain ⟨nm, k, fl⟩ := sv
      simp only
      obtain ⟨w1, w2⟩ := fileExtent_widths
      constructor
      · rintro ⟨gs, g1, g2, g3, rfl⟩
        rcases fileExtent_reified bytes with ⟨h, g⟩ | ⟨h, hp, g⟩ | ⟨h, hp, g⟩
        · rw [g] at g1; cases g1
        · rw [g] at g1; cases g1
          exact .placedExtent rfl (by omega) hp
        · rw [g] at g1; cases g1
          exact .inlineExtent rfl (by omega) hp
      · intro h
        cases h with
        | laid _ h => exact absurd rfl h
        | extentItem h => exact absurd h (by decide)
        | inlineExtent _ h hp =>
          rcases fileExtent_reified bytes with ⟨h', g⟩ | ⟨h', hp', g⟩ | ⟨h', hp', g⟩
          · omega
          · exact absurd hp' hp
          · exact ⟨_, g, fileExtentItemFields_good.fixed _ _ g, by omega, rfl⟩
        | placedExtent _ h hp =>
          rcases fileExtent_reified bytes with ⟨h', g⟩ | ⟨h', hp', g⟩ | ⟨h', hp', g⟩
          · omega
          · exact ⟨_, g, fileExtentItemFields_good.fixed _ _ g, by omega, rfl⟩
          · exact absurd hp hp'
    · refine and_congr_right fun _ => and_congr_right fun _ => ?_
      constructor
      · rintro ⟨stop, h⟩
        exact .laid h1 h2 h
      · intro h
        generalize sv.fields = out at h ⊢
        cases h with
        | laid _ _ h => exact ⟨_, h⟩
        | extentItem h => exact absurd h h1
        | inlineExtent h => exact absurd h h2
        | placedExtent h => exact absurd h h2

/-- a struct of the table that is neither of the two with dynamic contents -/
theorem desc_of_names {s : StructDef} (hs : s ∈ structs) (h1 : s.name ≠ s!' "btrfs_extent_item")
    (h2 : s.name ≠ s!' "btrfs_file_extent_item") : descB s.fields = true := by
  rcases structs_cases s hs with h | rfl | rfl
  · exact h
  · exact absurd rfl h1
  · exact absurd rfl h2

/-- **reading a struct fails as the rules say** -/
theorem read_fails (b : Build) (s : StructDef) (hs : s ∈ structs) (key : Option (Int × Int × Int)) (bytes : Bytes)
    (hb : bytes.length < 2 ^ 63) (e : Err) (h : structFromBytes b s key bytes = R.err e) :
    ∃ t, e.text = some t ∧ Unreadable bytes s t := by
  simp only [structFromBytes] at h
  by_cases hl : s.size ≤ bytes.length
  · rw [if_pos hl] at h
    have hw : widths s.fields ≤ bytes.length := by rw [← sizeSum_eq_widths]; exact hl
    have h' : fieldsLoop b s.name s.fields bytes 0 [] = R.err e := by
      cases hf : fieldsLoop b s.name s.fields bytes 0 [] with
      | error e' => rw [hf] at h; simp only [Except.error.injEq] at h; rw [h]
      | ok r => rw [hf] at h; cases h
    by_cases h1 : s.name = s!' "btrfs_extent_item"
    · have := extent_of_name hs h1
      subst this
      have e0 : struct_btrfs_extent_item.fields = [(none, .dynamic extentItemFields)] := rfl
      rw [e0, fieldsLoop, fieldStep_dynamic] at h'
      simp only [sliceFrom, Nat.zero_le, if_true, List.drop_zero] at h'
      by_cases h24 : 24 ≤ bytes.length
      · rcases inlineRefs_outcome (bytes.length + 1) (bytes.drop 24) (by simp; omega) with
          ⟨fs, hf⟩ | ⟨refs, vs, ty, rest, g1, g2, g3⟩
        · have hok : extentItemFields bytes =
              .ok ([(some s!' "refs", .u64), (some s!' "generation", .u64), (some s!' "flags", .u64)] ++ fs) := by
            simp only [extentItemFields]; rw [if_pos h24, hf]
          obtain ⟨i1, i2⟩ := spec_of_inlineRefs _ _ _ hf
          have hd := dynStep_ok b (what := struct_btrfs_extent_item.name) _ (extentItemFields_good.fixed _ _ hok)
            (extentItemFields_good.anon _ _ hok) bytes 0 (by omega) []
          rw [hok] at h'
          rw [List.drop_zero] at hd
          rw [hd, if_pos (by simp [widths, width, i2]; omega)] at h'
          simp [fieldsLoop] at h'
        · have hsplit : bytes = bytes.take 24 ++ refs ++ ty :: rest := by
            rw [List.append_assoc, ← g1, List.take_append_drop]
          have hlen : (bytes.take 24).length = 24 := by simp; omega
          rcases g3 with ⟨g3, g4⟩ | ⟨n, g3, g4, g5⟩
          · have : extentItemFields bytes = R.err (.unknownInlineRef ty.toNat) := by
              simp only [extentItemFields]; rw [if_pos h24, g4]
            rw [this, dynStep] at h'
            simp only [Except.error.injEq, Fail.err.injEq] at h'
            subst h'
            exact ⟨_, by simp only [Err.text, natDisplay, numeral_nat], .extentUnknown rfl hlen hsplit g2 g3⟩
          · have : extentItemFields bytes = R.err .leftover := by
              simp only [extentItemFields]; rw [if_pos h24, g5]
            rw [this, dynStep] at h'
            simp only [Except.error.injEq, Fail.err.injEq] at h'
            subst h'
            exact ⟨_, rfl, .extentCut rfl hlen hsplit g2 g3 g4⟩
      · have : extentItemFields bytes = R.err (.shortRead s!' "btrfs_extent_item" [] bytes.length 24) := by
          simp only [extentItemFields]; rw [if_neg h24]
        rw [this, dynStep] at h'
        simp only [Except.error.injEq, Fail.err.injEq] at h'
        subst h'
        exact ⟨_, short_text _ _ _ _, .extentShort rfl (by omega)⟩
    · by_cases h2 : s.name = s!' "btrfs_file_extent_item"
      · have := file_of_name hs h2
        subst this
        have e0 : struct_btrfs_file_extent_item.fields = [(none, .dynamic fileExtentItemFields)] := rfl
        rw [e0, fieldsLoop, fieldStep_dynamic] at h'
        simp only [sliceFrom, Nat.zero_le, if_true, List.drop_zero] at h'
        obtain ⟨w1, w2⟩ := fileExtent_widths
        rcases fileExtent_reified bytes with ⟨g, g'⟩ | ⟨g, hp, g'⟩ | ⟨g, hp, g'⟩
        · rw [g', dynStep] at h'
          simp only [Except.error.injEq, Fail.err.injEq] at h'
          subst h'
          exact ⟨_, short_text _ _ _ _, .fileShort rfl g⟩
        · have hd := dynStep_ok b (what := struct_btrfs_file_extent_item.name) _ (fileExtentItemFields_good.fixed _ _ g')
            (fileExtentItemFields_good.anon _ _ g') bytes 0 (by omega) []
          rw [g'] at h'
          rw [List.drop_zero] at hd
          rw [hd] at h'
          by_cases h53 : 53 ≤ bytes.length
          · rw [if_pos (by omega)] at h'
            simp [fieldsLoop] at h'
          · rw [if_neg (by omega)] at h'
            simp only [Except.error.injEq, Fail.err.injEq] at h'
            subst h'
            refine ⟨_, short_text _ _ _ _, ?_⟩
            rw [w2]
            exact .fileCut rfl g hp (by omega)
        · have hd := dynStep_ok b (what := struct_btrfs_file_extent_item.name) _ (fileExtentItemFields_good.fixed _ _ g')
            (fileExtentItemFields_good.anon _ _ g') bytes 0 (by omega) []
          rw [g'] at h'
          rw [List.drop_zero] at hd
          rw [hd, if_pos (by omega)] at h'
          simp [fieldsLoop] at h'
      · have hd := desc_of_names hs h1 h2
        simp only [descB, Bool.and_eq_true, Bool.or_eq_true] at hd
        rcases hd.1.1 with ⟨g1, g2⟩ | g
        · have := fieldsLoop_fixed b (what := s.name) s.fields ((allStatic_iff _).1 g1) (anonsB_ok _ g2) bytes 0 0 []
            (by omega)
          rw [List.drop_zero] at this
          rw [this] at h'
          cases h'
        · rcases fieldsLoop_unreadable b s bytes hb hw s.fields [] 0 [] rfl (.done _ _) g (structs_late s hs) .nil
            (by omega) with ⟨r, hr⟩ | ⟨e', t, h3, h4, h5⟩
          · rw [hr] at h'; cases h'
          · rw [h3] at h'
            simp only [Except.error.injEq, Fail.err.injEq] at h'
            subst h'
            exact ⟨t, h4, h5⟩
  · rw [if_neg hl] at h
    simp only [Except.error.injEq, Fail.err.injEq] at h
    subst h
    refine ⟨_, short_text _ _ _ _, ?_⟩
    simp only [StructDef.size, sizeSum_eq_widths] at hl ⊢
    exact .short (by omega)

theorem step_of_match {b : Build} {what : Str} {f : Option Str × Ty} {fs : List (Option Str × Ty)} {bytes : Bytes}
    {pos : Nat} {acc : List (Str × Value)} {e : Err} (h : fieldStep b what f bytes pos acc = R.err e) :
    fieldsLoop b what (f :: fs) bytes pos acc = R.err e := by
  rw [fieldsLoop, h]

/-- **what cannot be read fails with its message** -/
theorem fails_read (b : Build) (s : StructDef) (hs : s ∈ structs) (key : Option (Int × Int × Int)) (bytes : Bytes)
    (hb : bytes.length < 2 ^ 63) (t : Str) (h : Unreadable bytes s t) :
    ∃ e, structFromBytes b s key bytes = R.err e ∧ e.text = some t := by
  have hb64 : bytes.length < 2 ^ 64 := by omega
  have loop : ∀ e, widths s.fields ≤ bytes.length → fieldsLoop b s.name s.fields bytes 0 [] = R.err e →
      structFromBytes b s key bytes = R.err e := by
    intro e hw he
    simp only [structFromBytes]
    rw [if_pos (by rw [StructDef.size, sizeSum_eq_widths]; exact hw), he]
  -- structs with trailing parts
  have desc : ∀ pre f post, s.fields = pre ++ f :: post → f.2.isStatic = false → (∀ cb, f.2 ≠ .dynamic cb) →
      namedB [] s.fields = true := by
    intro pre f post he hn hd
    have hsp : ∀ cb, s.fields ≠ [(none, .dynamic cb)] := by
      intro cb hc
      rw [hc] at he
      cases pre with
      | nil => simp only [List.nil_append, List.cons.injEq] at he; exact hd cb (by rw [← he.1])
      | cons => simp at he
    rcases structs_cases s hs with h | rfl | rfl
    · simp only [descB, Bool.and_eq_true, Bool.or_eq_true] at h
      rcases h.1.1 with ⟨g1, -⟩ | g
      · rw [allStatic_iff, he] at g1
        have := (FixedSizes_append pre (f :: post)).1 g1
        obtain ⟨nm, ty⟩ := f
        simp only [FixedSizes] at this
        rw [(isStatic_iff ty).2 this.2.1] at hn
        cases hn
      · exact g
    · exact absurd rfl (hsp _)
    · exact absurd rfl (hsp _)
  have dyn : ∀ cb e, s.fields = [(none, .dynamic cb)] → dynStep b s.name (cb bytes) bytes 0 [] = R.err e →
      structFromBytes b s key bytes = R.err e := by
    intro cb e hf he
    refine loop e (by rw [hf]; simp [widths, width]) ?_
    rw [hf]
    refine step_of_match ?_
    rw [fieldStep_dynamic]
    simp only [sliceFrom, Nat.zero_le, if_true, List.drop_zero]
    exact he
  cases h with
  | short h =>
    refine ⟨_, ?_, short_text _ _ _ _⟩
    simp only [structFromBytes]
    rw [StructDef.size, sizeSum_eq_widths, if_neg (by omega)]
  | @string pre name lf post seen pos n hw he hl hn hlt =>
    have hnm := desc _ _ _ he rfl (by intro cb h; cases h)
    rw [he] at hnm
    obtain ⟨n1, n2⟩ := namedB_append _ _ _ hnm
    have hm := laid_matches hl [] n1 .nil
    simp only [List.nil_append] at hm n2
    simp only [namedB, Bool.and_eq_true] at n2
    obtain ⟨n', hn', hl'⟩ := narrow_lookup hm n2.1
    rw [hn] at hl'
    simp only [Option.some.injEq, Value.int.injEq] at hl'
    have : n = n' := by exact_mod_cast hl'
    subst this
    have hp : pos ≤ bytes.length := (Laid.bounds hl (by omega)).2
    obtain ⟨-, -, g3⟩ := trailingStringStep_eq b (what := s.name) name lf bytes hb64 pos n hp (by omega) seen
      (getFieldValue_of_lookup (by omega) hn)
    refine ⟨_, loop _ hw ?_, short_text _ _ _ _⟩
    rw [fieldsLoop_of_laid b s (structs_wellFormed s hs) bytes hb64 he hl]
    refine step_of_match ?_
    rw [fieldStep_string]
    exact g3 (by omega) (by omega)
  | @types pre name t cf post seen pos n hw he hl hn hlt =>
    have hnm := desc _ _ _ he rfl (by intro cb h; cases h)
    rw [he] at hnm
    obtain ⟨n1, n2⟩ := namedB_append _ _ _ hnm
    have hm := laid_matches hl [] n1 .nil
    simp only [List.nil_append] at hm n2
    simp only [namedB, Bool.and_eq_true, decide_eq_true_eq] at n2
    obtain ⟨⟨⟨⟨k1, k2⟩, k3⟩, k4⟩, k5⟩ := n2
    obtain ⟨n', hn', hl'⟩ := narrow_lookup hm k1
    rw [hn] at hl'
    simp only [Option.some.injEq, Value.int.injEq] at hl'
    have : n = n' := by exact_mod_cast hl'
    subst this
    have hp : pos ≤ bytes.length := (Laid.bounds hl (by omega)).2
    obtain ⟨-, -, g3⟩ := trailingTypesStep_eq b (what := s.name) name cf t ((isStatic_iff t).1 k2) (anonB_ok t k3) bytes
      hb64 pos n hp seen (getFieldValue_of_lookup (by omega) hn)
    refine ⟨_, loop _ hw ?_, short_text _ _ _ _⟩
    rw [fieldsLoop_of_laid b s (structs_wellFormed s hs) bytes hb64 he hl]
    refine step_of_match ?_
    rw [fieldStep_types]
    rw [size_eq_width] at k4
    have : n * width t ≤ 2 ^ 32 * 2 ^ 20 := Nat.mul_le_mul (by omega) k4
    exact g3 (by omega) (by omega)
  | extentShort hn h =>
    have := extent_of_name hs hn
    subst this
    refine ⟨_, dyn extentItemFields _ rfl ?_, short_text _ _ _ _⟩
    rw [show extentItemFields bytes = R.err (.shortRead s!' "btrfs_extent_item" [] bytes.length 24) by
      simp only [extentItemFields]; rw [if_neg (by omega)], dynStep]
    rfl
  | @extentUnknown head refs vs ty rest hn hh he hr hty =>
    have := extent_of_name hs hn
    subst this
    refine ⟨.unknownInlineRef ty.toNat, dyn extentItemFields _ rfl ?_, by simp only [Err.text, natDisplay, numeral_nat]⟩
    have hdr : bytes.drop 24 = refs ++ ty :: rest := by
      rw [he, List.append_assoc]; exact List.drop_left' hh
    have := (inlineRefs_stuck hr ty rest (bytes.length + 1) (by rw [← hdr]; simp; omega)).1 hty
    rw [← hdr] at this
    have hlen : bytes.length = 24 + (refs ++ ty :: rest).length := by
      rw [← hdr, List.length_drop, he]; simp [hh]
    rw [show extentItemFields bytes = R.err (.unknownInlineRef ty.toNat) by
      simp only [extentItemFields]; rw [if_pos (by omega), this], dynStep]
  | @extentCut head refs vs ty rest n hn hh he hr hty hlt =>
    have := extent_of_name hs hn
    subst this
    refine ⟨.leftover, dyn extentItemFields _ rfl ?_, rfl⟩
    have hdr : bytes.drop 24 = refs ++ ty :: rest := by
      rw [he, List.append_assoc]; exact List.drop_left' hh
    have := (inlineRefs_stuck hr ty rest (bytes.length + 1) (by rw [← hdr]; simp; omega)).2 n hty hlt
    rw [← hdr] at this
    have hlen : bytes.length = 24 + (refs ++ ty :: rest).length := by
      rw [← hdr, List.length_drop, he]; simp [hh]
    rw [show extentItemFields bytes = R.err .leftover by
      simp only [extentItemFields]; rw [if_pos (by omega), this], dynStep]
  | fileShort hn h =>
    have := file_of_name hs hn
    subst this
    refine ⟨_, dyn fileExtentItemFields _ rfl ?_, short_text _ _ _ _⟩
    rcases fileExtent_reified bytes with ⟨g, g'⟩ | ⟨g, hp, g'⟩ | ⟨g, hp, g'⟩
    · rw [g', dynStep]; rfl
    · omega
    · omega
  | fileCut hn h hp hlt =>
    have := file_of_name hs hn
    subst this
    refine ⟨_, dyn fileExtentItemFields _ rfl ?_, short_text _ _ _ _⟩
    obtain ⟨w1, w2⟩ := fileExtent_widths
    rcases fileExtent_reified bytes with ⟨g, g'⟩ | ⟨g, hp', g'⟩ | ⟨g, hp', g'⟩
    · omega
    · have hd := dynStep_ok b (what := struct_btrfs_file_extent_item.name) _ (fileExtentItemFields_good.fixed _ _ g')
        (fileExtentItemFields_good.anon _ _ g') bytes 0 (by omega) []
      rw [List.drop_zero] at hd
      rw [g', hd, if_neg (by omega), w2]
      rfl
    · exact absurd hp hp'

end Btrd
