/-
Two properties of values that the language preserves: integers that fit 128 bits with printable names, and structs with the
fields they should have.
-/
import Verif.Lemmas.Values

namespace Btrd
open Spec

theorem good_lasting : Lasting Fits Good where
  fits _ h := h
  int _ h := good_int.2 h
  str := good_str
  bool := good_bool
  func := good_func
  array _ _ := good_array
  bin op l r hl hr := binop_good op (by rintro v ⟨⟩; exact hl) (by rintro v ⟨⟩; exact hr)
  un b op x hx := unop_good b op (by rintro v ⟨⟩; exact hx)
  decoded _ _ _ _ _ hs hb hk h := decoded_good hs hb hk h
  key b vs h := keyFn_good b (by
    intro r hr
    obtain ⟨v, hv, rfl⟩ := List.mem_map.1 hr
    rintro w ⟨⟩
    exact h v hv)
  keyof b x hx := keyofFn_good b (by
    intro r hr
    simp only [List.mem_singleton] at hr
    subst hr
    rintro w ⟨⟩
    exact hx)
  field x f hx := fieldOp_good f (by rintro v ⟨⟩; exact hx)
  modify _ _ _ _ _ _ _ h hf hm := by
    rw [good_struct] at h ⊢
    exact ⟨h.1, h.2.1, modifyField_good hf h.2.2 hm⟩

/-! ### shaped values -/

theorem checked_int {e : Err} {x : Int} {v : Value} (h : checkedI128 e x = .ok v) : ∃ i, v = .int i := by
  rw [checkedI128_eq] at h
  split at h
  · simp only [Except.ok.injEq] at h; exact ⟨_, h.symm⟩
  · simp at h

theorem checked_shaped {e : Err} {x : Int} {v : Value} (h : checkedI128 e x = .ok v) : Shaped v := by
  obtain ⟨i, rfl⟩ := checked_int h
  exact shaped_int i

theorem binop_shaped (op : BinOp) (l r : Value) (hl : Shaped l) (hr : Shaped r) (v : Value)
    (h : binop op (.ok l) (.ok r) = .ok v) : Shaped v := by
  cases op <;> simp only [binop] at h
  case plus =>
    change plusOp l r = .ok v at h
    unfold plusOp at h
    split at h
    · exact checked_shaped h
    · simp only [Except.ok.injEq] at h; subst h
      rw [shaped_array] at hl ⊢
      intro w hw
      simp only [List.mem_append, List.mem_singleton] at hw
      rcases hw with hw | rfl
      · exact hl w hw
      · exact hr
    · simp only [Except.ok.injEq] at h; subst h; exact shaped_str _
    · simp at h
  case minus => obtain ⟨i, j, -, -, h⟩ := intOp_inv h; exact checked_shaped h
  case mul => obtain ⟨i, j, -, -, h⟩ := intOp_inv h; exact checked_shaped h
  case div =>
    obtain ⟨i, j, -, -, h⟩ := intOp_inv h
    unfold divI128 at h
    split at h
    · simp at h
    · exact checked_shaped h
  case mod =>
    obtain ⟨i, j, -, -, h⟩ := intOp_inv h
    unfold remI128 at h
    split at h
    · simp at h
    · split at h
      · simp only [Except.ok.injEq] at h; subst h; exact shaped_int _
      · simp at h
  case bor => obtain ⟨i, j, -, -, h⟩ := intOp_inv h; simp only [bitI128, Except.ok.injEq] at h; subst h; exact shaped_int _
  case band => obtain ⟨i, j, -, -, h⟩ := intOp_inv h; simp only [bitI128, Except.ok.injEq] at h; subst h; exact shaped_int _
  case bxor => obtain ⟨i, j, -, -, h⟩ := intOp_inv h; simp only [bitI128, Except.ok.injEq] at h; subst h; exact shaped_int _
  case shl =>
    obtain ⟨i, j, -, -, h⟩ := intOp_inv h
    simp only [shlI128] at h
    obtain ⟨n, -, h⟩ := bind_ok h
    split at h
    · simp only [Except.ok.injEq] at h; subst h; exact shaped_int _
    · simp at h
  case shr =>
    obtain ⟨i, j, -, -, h⟩ := intOp_inv h
    simp only [shrI128] at h
    obtain ⟨n, -, h⟩ := bind_ok h
    split at h
    · simp only [Except.ok.injEq] at h; subst h; exact shaped_int _
    · simp at h
  case lt => obtain ⟨i, j, -, -, h⟩ := intOp_inv h; simp only [Except.ok.injEq] at h; subst h; exact shaped_bool _
  case le => obtain ⟨i, j, -, -, h⟩ := intOp_inv h; simp only [Except.ok.injEq] at h; subst h; exact shaped_bool _
  case gt => obtain ⟨i, j, -, -, h⟩ := intOp_inv h; simp only [Except.ok.injEq] at h; subst h; exact shaped_bool _
  case ge => obtain ⟨i, j, -, -, h⟩ := intOp_inv h; simp only [Except.ok.injEq] at h; subst h; exact shaped_bool _
  case eq =>
    obtain ⟨lv, -, h⟩ := bind_ok h
    obtain ⟨rv, -, h⟩ := bind_ok h
    simp only [Except.ok.injEq] at h; subst h; exact shaped_bool _
  case ne =>
    obtain ⟨lv, -, h⟩ := bind_ok h
    obtain ⟨rv, -, h⟩ := bind_ok h
    simp only [Except.ok.injEq] at h; subst h; exact shaped_bool _
  case land =>
    obtain ⟨lv, -, h⟩ := bind_ok h
    obtain ⟨lb, -, h⟩ := bind_ok h
    split at h
    · simp only [Except.ok.injEq] at h; subst h; exact shaped_bool _
    · obtain ⟨rv, -, h⟩ := bind_ok h
      obtain ⟨rb, -, h⟩ := bind_ok h
      simp only [Except.ok.injEq] at h; subst h; exact shaped_bool _
  case lor =>
    obtain ⟨lv, -, h⟩ := bind_ok h
    obtain ⟨lb, -, h⟩ := bind_ok h
    split at h
    · simp only [Except.ok.injEq] at h; subst h; exact shaped_bool _
    · obtain ⟨rv, -, h⟩ := bind_ok h
      obtain ⟨rb, -, h⟩ := bind_ok h
      simp only [Except.ok.injEq] at h; subst h; exact shaped_bool _

theorem unop_shaped (b : Build) (op : UnOp) (x v : Value) (h : unop b op (.ok x) = .ok v) : Shaped v := by
  cases op <;> simp only [unop] at h
  case bitNot =>
    obtain ⟨x, -, h⟩ := bind_ok h
    obtain ⟨i, -, h⟩ := bind_ok h
    simp only [Except.ok.injEq] at h; subst h; exact shaped_int _
  case not =>
    obtain ⟨x, -, h⟩ := bind_ok h
    split at h
    · simp only [Except.ok.injEq] at h; subst h; exact shaped_bool _
    · simp only [Except.ok.injEq] at h; subst h; exact shaped_bool _
    · simp at h
  case minus =>
    obtain ⟨x, -, h⟩ := bind_ok h
    obtain ⟨i, -, h⟩ := bind_ok h
    obtain ⟨n, -, h⟩ := bind_ok h
    simp only [Except.ok.injEq] at h; subst h; exact shaped_int _

/-- the fields keep their names -/
theorem setField_names {what : Str} {name : Str} {new : Value} : ∀ {fs fs' : List (Str × Value)},
    setField what fs name new = .ok fs' → fs'.map Prod.fst = fs.map Prod.fst := by
  intro fs
  induction fs with
  | nil => intro fs' h; simp [setField] at h
  | cons f fs ih =>
    intro fs' h
    obtain ⟨n, v⟩ := f
    simp only [setField] at h
    split at h
    · simp only [Except.ok.injEq] at h; subst h; rfl
    · split at h
      · rename_i fs2 heq
        simp only [Except.ok.injEq] at h; subst h
        simp [ih heq]
      · simp at h

theorem setFields_names {what : Str} : ∀ {ups : List (Str × Value)} {fs fs' : List (Str × Value)},
    setFields what fs ups = .ok fs' → fs'.map Prod.fst = fs.map Prod.fst := by
  intro ups
  induction ups with
  | nil => intro fs fs' h; simp only [setFields, Except.ok.injEq] at h; rw [h]
  | cons u ups ih =>
    intro fs fs' h
    obtain ⟨n, v⟩ := u
    simp only [setFields] at h
    obtain ⟨fs2, h1, h⟩ := bind_ok h
    rw [ih h, setField_names h1]

theorem modifyField_names {what : Str} {f : Value → R Value} {name : Str} : ∀ {fs fs' : List (Str × Value)},
    modifyField what f fs name = .ok fs' → fs'.map Prod.fst = fs.map Prod.fst := by
  intro fs
  induction fs with
  | nil => intro fs' h; simp [modifyField] at h
  | cons p fs ih =>
    intro fs' h
    obtain ⟨n, v⟩ := p
    simp only [modifyField] at h
    split at h
    · obtain ⟨v', h1, h⟩ := bind_ok h
      simp only [Except.ok.injEq] at h; subst h; rfl
    · obtain ⟨fs2, h1, h⟩ := bind_ok h
      simp only [Except.ok.injEq] at h; subst h
      simp [ih h1]

theorem setField_shaped {what : Str} {new : Value} (hn : Shaped new) (name : Str) : ∀ {fs fs' : List (Str × Value)},
    (∀ f ∈ fs, Shaped f.2) → setField what fs name new = .ok fs' → ∀ f ∈ fs', Shaped f.2 := by
  intro fs
  induction fs with
  | nil => intro fs' _ h; simp [setField] at h
  | cons f fs ih =>
    intro fs' hg h
    obtain ⟨n, v⟩ := f
    simp only [List.mem_cons, forall_eq_or_imp] at hg
    simp only [setField] at h
    split at h
    · simp only [Except.ok.injEq] at h; subst h
      simp only [List.mem_cons, forall_eq_or_imp]
      exact ⟨hn, hg.2⟩
    · split at h
      · rename_i fs2 heq
        simp only [Except.ok.injEq] at h; subst h
        simp only [List.mem_cons, forall_eq_or_imp]
        exact ⟨hg.1, ih hg.2 heq⟩
      · simp at h

theorem setFields_shaped {what : Str} : ∀ {ups : List (Str × Value)} {fs fs' : List (Str × Value)},
    (∀ u ∈ ups, Shaped u.2) → (∀ f ∈ fs, Shaped f.2) → setFields what fs ups = .ok fs' → ∀ f ∈ fs', Shaped f.2 := by
  intro ups
  induction ups with
  | nil => intro fs fs' _ hg h; simp only [setFields, Except.ok.injEq] at h; subst h; exact hg
  | cons u ups ih =>
    intro fs fs' hu hg h
    obtain ⟨n, v⟩ := u
    simp only [List.mem_cons, forall_eq_or_imp] at hu
    simp only [setFields] at h
    obtain ⟨fs2, h1, h⟩ := bind_ok h
    exact ih hu.2 (setField_shaped hu.1 _ hg h1) h

theorem modifyField_shaped {what : Str} {f : Value → R Value} (hf : ∀ v v', Shaped v → f v = .ok v' → Shaped v') {name : Str} :
    ∀ {fs fs' : List (Str × Value)}, (∀ f ∈ fs, Shaped f.2) → modifyField what f fs name = .ok fs' → ∀ f ∈ fs', Shaped f.2 := by
  intro fs
  induction fs with
  | nil => intro fs' _ h; simp [modifyField] at h
  | cons p fs ih =>
    intro fs' hg h
    obtain ⟨n, v⟩ := p
    simp only [List.mem_cons, forall_eq_or_imp] at hg
    simp only [modifyField] at h
    split at h
    · obtain ⟨v', h1, h⟩ := bind_ok h
      simp only [Except.ok.injEq] at h; subst h
      simp only [List.mem_cons, forall_eq_or_imp]
      exact ⟨hf _ _ hg.1 h1, hg.2⟩
    · obtain ⟨fs2, h1, h⟩ := bind_ok h
      simp only [Except.ok.injEq] at h; subst h
      simp only [List.mem_cons, forall_eq_or_imp]
      exact ⟨hg.1, ih hg.2 h1⟩

theorem zeroSearchKey_shaped : ∀ f ∈ zeroSearchKey, Shaped f.2 := by
  intro f hf
  simp only [zeroSearchKey, List.mem_cons, List.not_mem_nil, or_false] at hf
  rcases hf with rfl | rfl | rfl | rfl | rfl | rfl | rfl | rfl <;> exact shaped_int _

theorem zeroKey_shaped : ∀ f ∈ zeroKey, Shaped f.2 := by
  intro f hf
  simp only [zeroKey, List.mem_cons, List.not_mem_nil, or_false] at hf
  rcases hf with rfl | rfl | rfl <;> exact shaped_int _

theorem keyFn_shaped (b : Build) (vs : List Value) (hv : ∀ v ∈ vs, Shaped v) (v : Value) (h : keyFn b (vs.map .ok) = .ok v) :
    Shaped v := by
  simp only [keyFn, searchKey_zero] at h
  obtain ⟨_, -, h⟩ := bind_ok h
  obtain ⟨vals, h1, h⟩ := bind_ok h
  obtain ⟨s, h2, h⟩ := bind_ok h
  have gv : ∀ {args : List (R Value)} {vs : List Value}, (∀ r ∈ args, ∀ v, r = .ok v → Shaped v) →
      intArgs args = .ok vs → ∀ v ∈ vs, Shaped v := by
    intro args
    induction args with
    | nil => intro vs _ h; simp only [intArgs, Except.ok.injEq] at h; subst h; simp
    | cons r rs ih =>
      intro vs hg h
      simp only [List.mem_cons, forall_eq_or_imp] at hg
      simp only [intArgs] at h
      obtain ⟨v, h1, h⟩ := bind_ok h
      obtain ⟨i, h2, h⟩ := bind_ok h
      obtain ⟨ws, h3, h⟩ := bind_ok h
      simp only [Except.ok.injEq] at h; subst h
      simp only [List.mem_cons, forall_eq_or_imp]
      exact ⟨hg.1 _ h1, ih hg.2 h3⟩
  have gv := gv (by
    intro r hr
    obtain ⟨w, hw, rfl⟩ := List.mem_map.1 hr
    rintro _ ⟨⟩
    exact hv w hw) h1
  simp only [Except.ok.injEq] at h2
  subst h2
  split at h
  · obtain ⟨fs, h3, h⟩ := bind_ok h
    simp only [Except.ok.injEq] at h; subst h
    simp only [List.mem_cons, forall_eq_or_imp, List.not_mem_nil, false_implies, implies_true, and_true] at gv
    rw [shaped_struct, setFields_names h3]
    refine ⟨.searchKey, setFields_shaped ?_ zeroSearchKey_shaped h3⟩
    simp only [List.mem_cons, forall_eq_or_imp, List.not_mem_nil, false_implies, implies_true, and_true]
    exact ⟨gv.1, shaped_int _, gv.2.1, shaped_int _, gv.2.2.1, shaped_int _, gv.2.2.2, shaped_int _⟩
  · simp at h

theorem keyofFn_shaped (b : Build) (x v : Value) (h : keyofFn b [.ok x] = .ok v) : Shaped v := by
  simp only [keyofFn, key_zero] at h
  obtain ⟨x, h1, h⟩ := bind_ok h
  obtain ⟨s, h2, h⟩ := bind_ok h
  split at h
  · obtain ⟨k, h3, h⟩ := bind_ok h
    obtain ⟨fs, h4, h⟩ := bind_ok h
    simp only [Except.ok.injEq] at h3 h; subst h3 h
    rw [shaped_struct, setFields_names h4]
    refine ⟨known'_sound (by decide +kernel), setFields_shaped ?_ zeroKey_shaped h4⟩
    simp only [List.mem_cons, forall_eq_or_imp, List.not_mem_nil, false_implies, implies_true, and_true]
    exact ⟨shaped_int _, shaped_int _, shaped_int _⟩
  · simp at h

theorem fieldOp_shaped (x : Value) (f : Expr) (hx : Shaped x) (v : Value) (h : fieldOp (.ok x) f = .ok v) : Shaped v := by
  have key : ∀ r : R Value, (∀ v, r = .ok v → Shaped v) → ∀ v, fieldOp r f = .ok v → Shaped v := by
    intro r hr v h
    simp only [fieldOp] at h
    obtain ⟨x, h1, h⟩ := bind_ok h
    obtain ⟨s, h2, h⟩ := bind_ok h
    have g := hr _ h1
    rw [asStruct_inv h2, shaped_struct] at g
    split at h
    · simp only [StructVal.field, orErr] at h
      split at h
      · rename_i w hw
        simp only [Except.ok.injEq] at h; subst h
        exact g.2 _ (fieldLookup_mem hw)
      · simp at h
    · simp at h
  exact key (.ok x) (by rintro _ ⟨⟩; exact hx) v h

theorem shaped_lasting : Lasting (fun _ => True) Shaped where
  fits _ _ := trivial
  int i _ := shaped_int i
  str := shaped_str
  bool := shaped_bool
  func := shaped_func
  array _ _ := shaped_array
  bin := binop_shaped
  un b op x _ v h := unop_shaped b op x v h
  decoded _ _ _ _ _ hs hb _ h := decoded_shaped hs hb h
  key := keyFn_shaped
  keyof b x _ v h := keyofFn_shaped b x v h
  field := fieldOp_shaped
  modify _ _ _ _ _ _ _ h hf hm := by
    rw [shaped_struct] at h ⊢
    exact ⟨by rw [modifyField_names hm]; exact h.1, modifyField_shaped hf h.2 hm⟩

end Btrd
