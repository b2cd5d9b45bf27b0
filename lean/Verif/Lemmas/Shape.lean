/-
Structs have the fields they should have.
-/
import Verif.Spec.Shape
import Verif.Lemmas.Good

namespace Btrd
open Spec

/-! ### shaped values -/

theorem shaped_int (i : Int) : Shaped (.int i) := by intro n k fs h; cases h
theorem shaped_str (s : Bytes) : Shaped (.str s) := by intro n k fs h; cases h
theorem shaped_bool (b : Bool) : Shaped (.bool b) := by intro n k fs h; cases h
theorem shaped_func (f : Function) : Shaped (.func f) := by intro n k fs h; cases h

theorem shaped_array {vs : List Value} {h : Bool} : Shaped (.array vs h) ↔ ∀ v ∈ vs, Shaped v := by
  constructor
  · intro hs v hv n k fs hp; exact hs n k fs (.item hv hp)
  · intro hs n k fs hp
    cases hp with
    | item hw hp => exact hs _ hw n k fs hp

theorem shaped_struct {n : Str} {k : Option (Int × Int × Int)} {fs : List (Str × Value)} :
    Shaped (.struct n k fs) ↔ HasFields n (fs.map Prod.fst) ∧ ∀ f ∈ fs, Shaped f.2 := by
  constructor
  · intro hs; exact ⟨hs n k fs (.self _), fun f hf n' k' fs' hp => hs n' k' fs' (.field (f := f.1) hf hp)⟩
  · rintro ⟨h1, h2⟩ n' k' fs' hp
    cases hp with
    | self => exact h1
    | field hf hp => exact h2 _ hf _ _ _ hp

/-! ### the descriptions -/

/-- a struct of this name can have these fields -/
def known' (n : Str) (names : List Str) : Bool :=
  (abi.any fun r => r.name == n && (r.members.map Member.name ++ trailing r.name) == names) ||
  (n == s!' "btrfs_extent_inline_ref" && (names == [s!' "type", s!' "data_ref"] ||
    names == [s!' "type", s!' "offset", s!' "shared_data_ref"] || names == [s!' "type", s!' "offset"])) ||
  (n == s!' "_btrfs_ioctl_search_key" && names == [s!' "min_objectid", s!' "max_objectid", s!' "min_type", s!' "max_type",
    s!' "min_offset", s!' "max_offset", s!' "min_transid", s!' "max_transid"]) ||
  (n == s!' "_anon_struct_0_btrfs_disk_balance_args" && names == [s!' "usage_min", s!' "usage_max"]) ||
  (n == s!' "_anon_struct_1_btrfs_disk_balance_args" && names == [s!' "limit_min", s!' "limit_max"])

theorem known'_sound {n : Str} {names : List Str} (h : known' n names = true) : HasFields n names := by
  simp only [known', Bool.or_eq_true, Bool.and_eq_true, List.any_eq_true, beq_iff_eq] at h
  rcases h with (((⟨r, hr, rfl, rfl⟩ | ⟨rfl, (rfl | rfl) | rfl⟩) | ⟨rfl, rfl⟩) | ⟨rfl, rfl⟩) | ⟨rfl, rfl⟩
  · exact .header hr
  · exact .dataRef
  · exact .sharedDataRef
  · exact .blockRef
  · exact .searchKey
  · exact .usage
  · exact .limit

mutual
/-- the names a field without a name brings -/
def flat : Ty → List Str
  | .struct _ fs => flats fs
  | .union _ fs => flats fs
  | _ => []
/-- the names of the fields -/
def flats : List (Option Str × Ty) → List Str
  | [] => []
  | (some n, _) :: fs => n :: flats fs
  | (none, t) :: fs => flat t ++ flats fs
end

theorem flats_append (fs gs : List (Option Str × Ty)) : flats (fs ++ gs) = flats fs ++ flats gs := by
  induction fs with
  | nil => simp [flats]
  | cons f fs ih => obtain ⟨name, t⟩ := f; cases name <;> simp [flats, ih]

mutual
/-- all structs in it that show are known ones -/
def okTy : Ty → Bool
  | .array t _ => okTy t
  | .struct n fs => known' n (flats fs) && okTys fs
  | .union n fs => known' n (flats fs) && okTys fs
  | .trailingTypes t _ => okTy t
  | _ => true
def okTys : List (Option Str × Ty) → Bool
  | [] => true
  | (some _, t) :: fs => okTy t && okTys fs
  | (none, t) :: fs => okAnon t && okTys fs
def okAnon : Ty → Bool
  | .struct _ fs => okTys fs
  | .union _ fs => okTys fs
  | _ => true
end

theorem okTys_append (fs gs : List (Option Str × Ty)) : okTys (fs ++ gs) = (okTys fs && okTys gs) := by
  induction fs with
  | nil => simp [okTys]
  | cons f fs ih => obtain ⟨name, t⟩ := f; cases name <;> simp only [List.cons_append, okTys, ih, Bool.and_assoc]

/-- these fields have these names and hold shaped values -/
def ShapedF (names : List Str) (fs : List (Str × Value)) : Prop := fs.map Prod.fst = names ∧ ∀ f ∈ fs, Shaped f.2

theorem ShapedF.append {as bs : List Str} {fs gs : List (Str × Value)} (h1 : ShapedF as fs) (h2 : ShapedF bs gs) :
    ShapedF (as ++ bs) (fs ++ gs) := by
  refine ⟨by rw [List.map_append, h1.1, h2.1], fun f hf => ?_⟩
  rcases List.mem_append.1 hf with hf | hf
  · exact h1.2 f hf
  · exact h2.2 f hf

theorem ShapedF.named (n : Str) {v : Value} (h : Shaped v) : ShapedF [n] (asFields (some n) v) :=
  ⟨rfl, by intro f hf; simp only [asFields, List.mem_singleton] at hf; subst hf; exact h⟩

theorem ShapedF.nil : ShapedF [] [] := ⟨rfl, by simp⟩

mutual
theorem valueAt_shaped (m : Mem) : ∀ (t : Ty) (pos : Nat), okTy t = true → Shaped (valueAt m pos t)
  | .u8, pos, _ => shaped_int _
  | .u16, pos, _ => shaped_int _
  | .u32, pos, _ => shaped_int _
  | .u64, pos, _ => shaped_int _
  | .array t n, pos, h => by
    simp only [valueAt, shaped_array, List.mem_map]
    rintro v ⟨i, -, rfl⟩
    exact valueAt_shaped m t _ (by simpa only [okTy] using h)
  | .struct n fs, pos, h => by
    simp only [okTy, Bool.and_eq_true] at h
    have := fieldsAt_shaped m fs pos h.2
    rw [valueAt, shaped_struct, this.1]
    exact ⟨known'_sound h.1, this.2⟩
  | .union n fs, pos, h => by
    simp only [okTy, Bool.and_eq_true] at h
    have := membersAt_shaped m fs pos h.2
    rw [valueAt, shaped_struct, this.1]
    exact ⟨known'_sound h.1, this.2⟩
  | .trailingString _, pos, _ => by simp only [valueAt]; exact shaped_int _
  | .trailingTypes _ _, pos, _ => by simp only [valueAt]; exact shaped_int _
  | .dynamic _, pos, _ => by simp only [valueAt]; exact shaped_int _
theorem anonAt_shaped (m : Mem) : ∀ (t : Ty) (pos : Nat), okAnon t = true →
    ShapedF (flat t) (asFields none (valueAt m pos t))
  | .u8, pos, _ => .nil
  | .u16, pos, _ => .nil
  | .u32, pos, _ => .nil
  | .u64, pos, _ => .nil
  | .array t n, pos, h => by simp only [valueAt, asFields, components, flat]; exact .nil
  | .struct n fs, pos, h => by
    simp only [okAnon] at h
    simp only [valueAt, asFields, components, flat]
    exact fieldsAt_shaped m fs pos h
  | .union n fs, pos, h => by
    simp only [okAnon] at h
    simp only [valueAt, asFields, components, flat]
    exact membersAt_shaped m fs pos h
  | .trailingString _, pos, _ => by simp only [valueAt, asFields, components, flat]; exact .nil
  | .trailingTypes _ _, pos, _ => by simp only [valueAt, asFields, components, flat]; exact .nil
  | .dynamic _, pos, _ => by simp only [valueAt, asFields, components, flat]; exact .nil
theorem fieldsAt_shaped (m : Mem) : ∀ (fs : List (Option Str × Ty)) (pos : Nat), okTys fs = true →
    ShapedF (flats fs) (fieldsAt m pos fs)
  | [], _, _ => by simp only [fieldsAt, flats]; exact .nil
  | (some n, t) :: fs, pos, h => by
    simp only [okTys, Bool.and_eq_true] at h
    simp only [fieldsAt, flats]
    exact (ShapedF.named n (valueAt_shaped m t pos h.1)).append (fieldsAt_shaped m fs _ h.2)
  | (none, t) :: fs, pos, h => by
    simp only [okTys, Bool.and_eq_true] at h
    simp only [fieldsAt, flats]
    exact (anonAt_shaped m t pos h.1).append (fieldsAt_shaped m fs _ h.2)
theorem membersAt_shaped (m : Mem) : ∀ (fs : List (Option Str × Ty)) (pos : Nat), okTys fs = true →
    ShapedF (flats fs) (membersAt m pos fs)
  | [], _, _ => by simp only [membersAt, flats]; exact .nil
  | (some n, t) :: fs, pos, h => by
    simp only [okTys, Bool.and_eq_true] at h
    simp only [membersAt, flats]
    exact (ShapedF.named n (valueAt_shaped m t pos h.1)).append (membersAt_shaped m fs _ h.2)
  | (none, t) :: fs, pos, h => by
    simp only [okTys, Bool.and_eq_true] at h
    simp only [membersAt, flats]
    exact (anonAt_shaped m t pos h.1).append (membersAt_shaped m fs _ h.2)
end

/-- what a field brings -/
theorem asFields_shaped (m : Mem) (name : Option Str) (t : Ty) (pos : Nat) (fs : List (Option Str × Ty))
    (h : okTys ((name, t) :: fs) = true) :
    ∃ names, ShapedF names (asFields name (valueAt m pos t)) ∧ flats ((name, t) :: fs) = names ++ flats fs ∧
      okTys fs = true := by
  cases name with
  | some n =>
    simp only [okTys, Bool.and_eq_true] at h
    exact ⟨_, .named n (valueAt_shaped m t pos h.1), by simp [flats], h.2⟩
  | none =>
    simp only [okTys, Bool.and_eq_true] at h
    exact ⟨_, anonAt_shaped m t pos h.1, by simp [flats], h.2⟩

theorem noDyn_cons {f : Option Str × Ty} {fs : List (Option Str × Ty)} (h : noDyn (f :: fs) = true) : noDyn fs = true := by
  obtain ⟨n, t⟩ := f
  cases t <;> first | (simpa only [noDyn] using h) | (simp [noDyn] at h)

/-- descriptions without a dynamic part -/
theorem laid_shaped {bytes : Bytes} {fs : List (Option Str × Ty)} {pos : Nat} {seen out : List (Str × Value)}
    {stop : Nat} (h : Laid bytes fs pos seen out stop) (hp : okTys fs = true) (hd : noDyn fs = true)
    {names : List Str} (hs : ShapedF names seen) : ShapedF (names ++ flats fs) out := by
  induction h generalizing names with
  | done => simp only [flats, List.append_nil]; exact hs
  | @fixed name t fs pos _ _ _ _ _ _ ih =>
    obtain ⟨ns, h1, h2, h3⟩ := asFields_shaped (mem bytes) name t pos fs hp
    rw [h2, ← List.append_assoc]
    exact ih h3 (noDyn_cons hd) (hs.append h1)
  | string _ _ _ ih =>
    simp only [okTys, Bool.and_eq_true] at hp
    have := ih hp.2 (noDyn_cons hd) (hs.append (ShapedF.named _ (shaped_str _)))
    rw [flats, ← List.singleton_append, ← List.append_assoc]
    exact this
  | types _ _ _ ih =>
    simp only [okTys, okTy, Bool.and_eq_true] at hp
    have := ih hp.2 (noDyn_cons hd) (hs.append (ShapedF.named _ (v := .array _ _) (shaped_array.2 (by
      intro v hv
      obtain ⟨i, -, rfl⟩ := List.mem_map.1 hv
      exact valueAt_shaped _ _ _ hp.1))))
    rw [flats, ← List.singleton_append, ← List.append_assoc]
    exact this
  | dynamic => simp [noDyn] at hd

/-- a dynamic part alone -/
theorem laid_shapedDyn {bytes : Bytes} {cb : Bytes → Except Fail (List (Option Str × Ty))} {out : List (Str × Value)}
    {stop : Nat} (h : Laid bytes [(none, .dynamic cb)] 0 [] out stop) (ho : ∀ s gs, cb s = .ok gs → okTys gs = true) :
    ∃ gs, cb bytes = .ok gs ∧ ShapedF (flats gs) out := by
  cases h with
  | fixed hf => simp [FixedSize] at hf
  | dynamic hcb _ _ rest =>
    cases rest
    simp only [List.drop_zero] at hcb
    exact ⟨_, hcb, fieldsAt_shaped _ _ _ (ho _ _ hcb)⟩

theorem inlineRefs_ok : ∀ (fuel : Nat) (bytes : Bytes) (fs : List (Option Str × Ty)),
    inlineRefs fuel bytes = .ok fs → okTys fs = true ∧ ∃ k, flats fs = List.replicate k s!' "inline_ref" := by
  intro fuel
  induction fuel with
  | zero => intro bytes fs h; simp [inlineRefs] at h
  | succ fuel ih =>
    have key : ∀ (rest : Bytes) (n : Nat) (extra fs : List (Option Str × Ty)), okTys [inlineRef extra] = true →
        inlineRefs.next fuel rest n extra = .ok fs → okTys fs = true ∧ ∃ k, flats fs = List.replicate k s!' "inline_ref" := by
      intro rest n extra fs hf h
      obtain ⟨-, gs, hg, rfl⟩ := inlineRefs_next fuel rest n extra fs h
      have := okTys_append [inlineRef extra] gs
      rw [List.singleton_append] at this
      obtain ⟨h1, k, h2⟩ := ih _ _ hg
      refine ⟨by rw [this, hf, h1]; rfl, k + 1, ?_⟩
      rw [inlineRef, flats, h2, List.replicate_succ]
    intro bytes fs h
    rw [inlineRefs.eq_def] at h
    simp only at h
    split at h
    · simp only [Except.ok.injEq] at h; subst h; exact ⟨rfl, 0, rfl⟩
    · split at h
      · split at h
        · exact key _ _ _ _ (by decide +kernel) h
        · split at h
          · exact key _ _ _ _ (by decide +kernel) h
          · split at h
            · exact key _ _ _ _ (by decide +kernel) h
            · simp at h
      · simp at h

theorem extentItem_ok (s : Bytes) (gs : List (Option Str × Ty)) (h : extentItemFields s = .ok gs) :
    okTys gs = true ∧ HasFields s!' "btrfs_extent_item" (flats gs) := by
  simp only [extentItemFields] at h
  split at h
  · split at h
    · rename_i fs heq
      simp only [Except.ok.injEq] at h
      subst h
      obtain ⟨h1, k, h2⟩ := inlineRefs_ok _ _ _ heq
      rw [okTys_append, flats_append, h1, h2]
      exact ⟨rfl, .extent k⟩
    · simp at h
  · simp at h

theorem fileExtentItem_ok (s : Bytes) (gs : List (Option Str × Ty)) (h : fileExtentItemFields s = .ok gs) :
    okTys gs = true ∧ HasFields s!' "btrfs_file_extent_item" (flats gs) := by
  rcases fileExtentItemFields_cases s with ⟨-, h'⟩ | ⟨ty, -, -, ⟨-, h'⟩ | ⟨-, h'⟩⟩ <;> rw [h'] at h
  · simp at h
  · simp only [Except.ok.injEq] at h; subst h; exact ⟨rfl, .onDisk⟩
  · simp only [Except.ok.injEq] at h; subst h; exact ⟨rfl, known'_sound (by decide +kernel)⟩

/-- what can be read off bytes has the right fields -/
theorem laid_struct {s : StructDef} (hs : s ∈ structs) {bytes : Bytes} {out : List (Str × Value)} {stop : Nat}
    (h : Laid bytes s.fields 0 [] out stop) : HasFields s.name (out.map Prod.fst) ∧ ∀ f ∈ out, Shaped f.2 := by
  have fixed : okTys s.fields = true → noDyn s.fields = true → known' s.name (flats s.fields) = true →
      HasFields s.name (out.map Prod.fst) ∧ ∀ f ∈ out, Shaped f.2 := by
    intro h1 h2 h3
    have := laid_shaped h h1 h2 .nil
    exact ⟨by rw [this.1]; exact known'_sound h3, this.2⟩
  simp only [structs, List.mem_cons, List.not_mem_nil, or_false] at hs
  rcases hs with e | e | e | e | e | e | e | e | e | e | e | e | e | e | e | e | e | e | e | e | e | e | e |
    e | e | e | e | e | e | e | e | e | e | e <;> subst e
  all_goals first
    | exact fixed (by decide +kernel) (by decide +kernel) (by decide +kernel)
    | (obtain ⟨gs, hg, h'⟩ := laid_shapedDyn h (fun s gs hg => (extentItem_ok s gs hg).1)
       exact ⟨by rw [h'.1]; exact (extentItem_ok _ _ hg).2, h'.2⟩)
    | (obtain ⟨gs, hg, h'⟩ := laid_shapedDyn h (fun s gs hg => (fileExtentItem_ok s gs hg).1)
       exact ⟨by rw [h'.1]; exact (fileExtentItem_ok _ _ hg).2, h'.2⟩)

theorem decoded_shaped {b : Build} {s : StructDef} {key : Option (Int × Int × Int)} {bytes : Bytes} {sv : StructVal}
    (hs : s ∈ structs) (hb : bytes.length < 2 ^ 64)
    (h : structFromBytes b s key bytes = .ok sv) : Shaped (.struct sv.name sv.key sv.fields) := by
  obtain ⟨h1, h2, stop, h3⟩ := (structFromBytes_iff b s key bytes hb (structs_wellFormed s hs) sv).1 h
  rw [shaped_struct, h1]
  exact laid_struct hs h3

end Btrd
