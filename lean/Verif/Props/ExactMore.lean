/-
Sharper forms of properties that are false of the code: exactly when they hold (C04, C22, C26, C43, C44, C56, C57, C58, C59, C68).
-/
import Verif.Props.Input
import Verif.Props.Arith
import Verif.Props.Hist
import Verif.Props.Dispatch
import Verif.Props.Cast
import Verif.Props.Builtins
import Verif.Lemmas.Forever

namespace Btrd
open Spec

/-- an operation gives this value or fails with a message: it neither panics nor gives anything else -/
def ExactOrError (r : R Value) (v : Value) : Prop := r = .ok v ∨ ∃ er, r = .error (.err er)

/-! ### C04 -/

theorem commentAt_append {p q : Str} {i : Nat} (h : i < p.length) : CommentAt (p ++ q) i ↔ CommentAt p i := by
  unfold CommentAt
  rw [List.getElem?_append_left h, List.take_append_of_le_length (Nat.le_of_lt h)]

/-- what comment stripping leaves of a line and the backslash behind it -/
theorem stripLine_backslash (p : Str) :
    ((∃ i, CommentAt p i) ∧ stripLine false (p ++ ['\\']) = stripLine false p) ∨
    ((¬ ∃ i, CommentAt p i) ∧ stripLine false p = p ∧ stripLine false (p ++ ['\\']) = p ++ ['\\']) := by
  have lt : ∀ i, CommentAt p i → i < p.length := by
    intro i h
    apply Classical.byContradiction
    intro hn
    rw [CommentAt, List.getElem?_eq_none (by omega)] at h
    cases h.1
  obtain ⟨n, h1, h2, h3, h4⟩ := stripLine_uncommented p
  rcases h4 with h4 | h4
  · right
    have hno : ¬ ∃ i, CommentAt p i := fun ⟨i, hi⟩ => h3 i (by have := lt i hi; omega) hi
    refine ⟨hno, by rw [h1, h4, List.take_length], ?_⟩
    refine uncommented_unique (stripLine_uncommented _) ⟨(p ++ ['\\']).length, List.take_length.symm, Nat.le_refl _, ?_, .inl rfl⟩
    intro i hi hc
    rcases Nat.lt_or_ge i p.length with hlt | hge
    · exact hno ⟨i, (commentAt_append hlt).1 hc⟩
    · have : i = p.length := by simp at hi; omega
      subst this
      have := hc.1
      simp at this
  · left
    refine ⟨⟨n, h4⟩, ?_⟩
    have hlt := lt n h4
    refine uncommented_unique (stripLine_uncommented _) ⟨n, ?_, by simp; omega, ?_, .inr ((commentAt_append hlt).2 h4)⟩
    · rw [h1, List.take_append_of_le_length h2]
    · exact fun i hi hc => h3 i hi ((commentAt_append (by omega)).1 hc)

theorem replaceContinuation_line (s : Str) (h : '\n' ∉ s) : replaceContinuation s = s := by
  apply replaceContinuation_self
  intro hc
  exact h (hc.subset (by simp [continuation]))

theorem fixup_count (s : Str) (h : '\n' ∉ s) : (fixupInput s).count '\\' = s.count '\\' := by
  unfold fixupInput
  rw [replaceContinuation_line s h]
  dsimp only
  split
  · rfl
  · simp [List.count_append]

theorem intercalate_count (ls : List Str) : (List.intercalate [' '] ls).count '\\' = (ls.map (·.count '\\')).sum := by
  induction ls with
  | nil => simp
  | cons l ls ih =>
    cases ls with
    | nil => simp
    | cons m ms =>
      rw [List.intercalate_cons_cons, List.count_append, List.count_append, ih]
      simp

/-- the lines of an entry that ends each line but the last in `e` -/
theorem lines_pieces (e : Str) (he : '\n' ∉ e) (init : List Str) (last : Str) (h1 : ∀ p ∈ init, '\n' ∉ p ∧ (p ++ e).getLast? ≠ some '\r')
    (h2 : '\n' ∉ last) : lines (init.flatMap (fun p => p ++ e ++ ['\n']) ++ last) =
      init.map (· ++ e) ++ (if last = [] then [] else [last]) := by
  have hs : SplitsInto (init.flatMap (fun p => p ++ e ++ ['\n']) ++ last) (init.map fun p => (p ++ e, false)) last := by
    refine ⟨by simp [List.flatMap_map, termLine], ?_, h2⟩
    intro q hq
    obtain ⟨p, hp, rfl⟩ := List.mem_map.1 hq
    obtain ⟨h3, h4⟩ := h1 p hp
    exact ⟨by simp [h3, he], fun _ => h4⟩
  rw [lines_splitsInto hs, textLines, List.map_map]
  rfl

/-- **C04, exactly**: an entry of several lines joined by backslashes is given to the parser like the same lines without
them if and only if every line that is continued has a comment in front of its backslash. -/
theorem C04_exact (init : List Str) (last : Str) (h1 : ∀ p ∈ init, '\n' ∉ p ∧ p.getLast? ≠ some '\r') (h2 : '\n' ∉ last) :
    fixupInput (stripComments (init.flatMap (fun p => p ++ continuation) ++ last)) =
      fixupInput (stripComments (init.flatMap (fun p => p ++ ['\n']) ++ last)) ↔ ∀ p ∈ init, ∃ i, CommentAt p i := by
  have ha : lines (init.flatMap (fun p => p ++ continuation) ++ last) =
      init.map (· ++ ['\\']) ++ (if last = [] then [] else [last]) := by
    have := lines_pieces ['\\'] (by decide) init last (fun p hp => ⟨(h1 p hp).1, by simp⟩) h2
    simpa [continuation] using this
  have hb : lines (init.flatMap (fun p => p ++ ['\n']) ++ last) = init ++ (if last = [] then [] else [last]) := by
    have := lines_pieces [] (by simp) init last (fun p hp => ⟨(h1 p hp).1, by simpa using (h1 p hp).2⟩) h2
    simpa using this
  constructor
  · intro h
    have hc := congrArg (List.count '\\') h
    rw [fixup_count _ (C01_no_newline _), fixup_count _ (C01_no_newline _), stripComments_eq, stripComments_eq,
      intercalate_count, intercalate_count, ha, hb] at hc
    simp only [List.map_append, List.sum_append, List.map_map] at hc
    have hs : (init.map fun p => (stripLine false (p ++ ['\\'])).count '\\').sum =
        (init.map fun p => (stripLine false p).count '\\').sum := by
      have := Nat.add_right_cancel hc
      exact this
    clear h ha hb h1 hc
    have hc := hs
    clear hs
    induction init with
    | nil => simp
    | cons p ps ih =>
      have hle : ∀ ps : List Str, (ps.map fun p => (stripLine false p).count '\\').sum ≤
          (ps.map fun p => (stripLine false (p ++ ['\\'])).count '\\').sum := by
        intro ps
        induction ps with
        | nil => simp
        | cons p ps ih =>
          simp only [List.map_cons, List.sum_cons]
          rcases stripLine_backslash p with ⟨-, h⟩ | ⟨-, h, h'⟩
          · rw [h]; omega
          · rw [h, h', List.count_append]; omega
      simp only [List.map_cons, List.sum_cons] at hc
      have := hle ps
      rcases stripLine_backslash p with ⟨hi, h⟩ | ⟨-, h, h'⟩
      · rw [h] at hc
        intro q hq
        rcases List.mem_cons.1 hq with rfl | hq
        · exact hi
        · exact ih (by omega) q hq
      · rw [h, h', List.count_append] at hc
        simp at hc
        omega
  · intro h
    have : (init.map (· ++ ['\\'])).map (stripLine false) = init.map (stripLine false) := by
      rw [List.map_map]
      apply List.map_congr_left
      intro p hp
      rcases stripLine_backslash p with ⟨-, h'⟩ | ⟨hn, -⟩
      · exact h'
      · exact absurd (h p hp) hn
    rw [stripComments_eq, stripComments_eq, ha, hb, List.map_append, List.map_append, this]

/-- witness: the first line has a comment in front of its backslash, the second has none -/
example : (∃ i, CommentAt s!' "x = 1; # one \\" i) ∧ ¬ ∃ i, CommentAt s!' "x = 1 + \\" i :=
  ⟨⟨7, rfl, rfl⟩, by
    rintro ⟨i, h, -⟩
    have : '#' ∈ s!' "x = 1 + \\" := List.mem_of_getElem? h
    exact absurd this (by decide)⟩

/-! ### C22 -/

/-- **C22, exactly**: the binary operators are exact or fail for all operands; unary minus is if and only if its operand
is not the least 128-bit integer, in every build. -/
theorem C22_exact (cfg : Cfg) (st : State) {l r : Expr} {a b : Int} (hl : evalExpr cfg st l = .ok (.int a))
    (hr : evalExpr cfg st r = .ok (.int b)) :
    ExactOrError (evalExpr cfg st (.bin .plus l r)) (.int (a + b)) ∧
    ExactOrError (evalExpr cfg st (.bin .minus l r)) (.int (a - b)) ∧
    ExactOrError (evalExpr cfg st (.bin .mul l r)) (.int (a * b)) ∧
    ExactOrError (evalExpr cfg st (.bin .div l r)) (.int (a.tdiv b)) ∧
    ExactOrError (evalExpr cfg st (.bin .mod l r)) (.int (a.tmod b)) ∧
    (ExactOrError (evalExpr cfg st (.un .minus l)) (.int (-a)) ↔ a ≠ -(2 ^ 127)) := by
  refine ⟨?_, ?_, ?_, ?_, ?_, ?_⟩
  · rw [C22_add cfg st hl hr]; split
    · exact .inl rfl
    · exact .inr ⟨_, rfl⟩
  · rw [C22_sub cfg st hl hr]; split
    · exact .inl rfl
    · exact .inr ⟨_, rfl⟩
  · rw [C22_mul cfg st hl hr]; split
    · exact .inl rfl
    · exact .inr ⟨_, rfl⟩
  · rw [C22_div cfg st hl hr]; split
    · exact .inr ⟨_, rfl⟩
    · split
      · exact .inl rfl
      · exact .inr ⟨_, rfl⟩
  · rw [C22_rem cfg st hl hr]; split
    · exact .inr ⟨_, rfl⟩
    · split
      · exact .inl rfl
      · exact .inr ⟨_, rfl⟩
  · constructor
    · rintro h rfl
      unfold ExactOrError at h
      rw [C22_neg_negation cfg st hl] at h
      split at h
      · rcases h with h | ⟨er, h⟩ <;> cases h
      · rcases h with h | ⟨er, h⟩
        · simp only [Except.ok.injEq, Value.int.injEq] at h; omega
        · cases h
    · exact fun h => .inl (C22_neg_partial cfg st hl h)

/-! ### C26 -/

/-- **C26, exactly**: `a << n` is `a * 2^n` or an error if and only if the amount is refused or the product fits. -/
theorem C26_exact (cfg : Cfg) (st : State) {l r : Expr} {a n : Int} (hl : evalExpr cfg st l = .ok (.int a))
    (hr : evalExpr cfg st r = .ok (.int n)) :
    ExactOrError (evalExpr cfg st (.bin .shl l r)) (.int (a * 2 ^ n.toNat)) ↔
      n < 0 ∨ 128 ≤ n ∨ Fits (a * 2 ^ n.toNat) := by
  by_cases hn : n < 0 ∨ 128 ≤ n
  · exact ⟨fun _ => hn.elim .inl fun h => .inr (.inl h), fun _ => .inr (C26_amount cfg st hl hr hn .shl (.inl rfl))⟩
  · obtain ⟨k, rfl⟩ : ∃ k : Nat, n = k := ⟨n.toNat, by omega⟩
    obtain ⟨c, h1, h2, -, h4⟩ := C26_shl_partial cfg st hl hr (by omega)
    simp only [Int.toNat_natCast]
    unfold ExactOrError
    rw [h1]
    constructor
    · rintro (h | ⟨er, h⟩)
      · simp only [Except.ok.injEq, Value.int.injEq] at h
        exact .inr (.inr (h ▸ h2))
      · cases h
    · rintro (h | h | h)
      · omega
      · omega
      · rw [h4 h]; exact .inl rfl

/-! ### C43, C44 -/

/-- **C43, exactly**: the buckets of a histogram count every value if and only if the largest value is no boundary. -/
theorem C43_exact (fuel : Nat) (v : Int) (vs : List Int) (bs : List Bucket) (hf : ∀ x ∈ v :: vs, Fits x)
    (h : histBuckets fuel v vs = .ok bs) (mx : Int) (hm : IsMax mx (v :: vs)) :
    (bs.map (·.count)).sum = (v :: vs).length ↔ ¬ Boundary mx := by
  constructor
  · intro he hb
    have := (C43_maximum_not_counted fuel v vs bs hf h mx hm hb).2
    omega
  · exact C43_all_counted_partial fuel v vs bs hf h mx hm

/-- **C44, exactly**: rounding a 128-bit integer ends if and only if it is below `2^126`. -/
theorem C44_exact (x : Int) (hx : Fits x) :
    ((∃ fuel p, previousPower2 fuel x = .ok p) ↔ x < 2 ^ 126) ∧ ((∃ fuel p, nextPower2 fuel x = .ok p) ↔ x < 2 ^ 126) := by
  refine ⟨⟨?_, ?_⟩, ⟨?_, ?_⟩⟩
  · rintro ⟨fuel, p, h⟩
    apply Classical.byContradiction
    intro hn
    rw [(C44_rounding_diverges x (by omega) fuel).1] at h
    cases h
  · intro h
    obtain ⟨p, -, h⟩ := C44_round_down_partial x hx h
    exact ⟨128, p, h 128 (Nat.le_refl _)⟩
  · rintro ⟨fuel, p, h⟩
    apply Classical.byContradiction
    intro hn
    rw [(C44_rounding_diverges x (by omega) fuel).2] at h
    cases h
  · intro h
    obtain ⟨p, -, h⟩ := C44_round_up_partial x hx h
    exact ⟨128, p, h 128 (Nat.le_refl _)⟩

/-! ### C56 -/

/-- **C56, exactly**: every field of a decoded struct is reached by its name if and only if the struct is no extent item,
or it is one whose inline references are all the same (there may be none or one). -/
theorem C56_exact (b : Build) (s : StructDef) (hs : s ∈ structs) (key : Option (Int × Int × Int)) (bytes : Bytes)
    (hb : bytes.length < 2 ^ 64) (sv : StructVal) (h : structFromBytes b s key bytes = .ok sv) :
    Accessible (.struct sv.name sv.key sv.fields) ↔
      s.name ≠ s!' "btrfs_extent_item" ∨ ∀ x ∈ sv.fields.drop 3, ∀ y ∈ sv.fields.drop 3, x = y := by
  by_cases hne : s.name ≠ s!' "btrfs_extent_item"
  · exact ⟨fun _ => .inl hne, fun _ => C56_accessible_partial b s hs hne key bytes hb sv h⟩
  · have hs' : s = struct_btrfs_extent_item := by
      have h1 := findStruct_self s hs
      rw [Classical.not_not.1 hne] at h1
      exact (Option.some.inj h1).symm
    subst hs'
    have hp := C56_extent_item_partial b key bytes hb sv h
    obtain ⟨refs, gen, flags, rest, vs, -, -, -, -, h5, rfl⟩ := (C55_extent_item_iff b key bytes hb sv).1 h
    have hn : ∀ f ∈ vs, f.1 = s!' "inline_ref" := by
      clear h hb hp
      induction h5 with
      | nil => simp
      | dataRef _ _ _ _ _ ih => simpa using ih
      | sharedDataRef _ _ _ ih => simpa using ih
      | blockRef _ _ _ ih => simpa using ih
    simp only [Accessible]
    dsimp only at hp ⊢
    simp only [List.cons_append, List.nil_append, List.drop_succ_cons, List.drop_zero] at hp ⊢
    constructor
    · rintro ⟨ha, -⟩
      right
      cases vs with
      | nil => simp
      | cons a as =>
        have key : ∀ x ∈ a :: as, x = a := by
          intro x hx
          have h1 := ha x.1 x.2 (by simp [hx])
          have h2 := hn x hx
          have h3 := hn a (by simp)
          rw [h2] at h1
          simp [lookup, h3] at h1
          exact Prod.ext (h2.trans h3.symm) h1.symm
        intro x hx y hy
        rw [key x hx, key y hy]
    · rintro (h | heq)
      · exact absurd h hne
      · refine ⟨?_, hp.1⟩
        intro n v hm
        rcases hp.2 n v hm with h1 | ⟨rfl, a, as, h1, h2⟩
        · exact h1
        · rw [h2]
          have hav : a ∈ vs := by rw [h1]; simp
          have hvs : (s!' "inline_ref", v) ∈ vs := by
            simp only [List.mem_cons, Prod.mk.injEq] at hm
            rcases hm with ⟨h, -⟩ | ⟨h, -⟩ | ⟨h, -⟩ | hm
            · exact absurd h (by decide)
            · exact absurd h (by decide)
            · exact absurd h (by decide)
            · exact hm
          rw [heq a hav _ hvs]

/-! ### C57 -/

/-- **C57, exactly**: an item is decoded as the documented struct if and only if it is no directory log item and its key
is neither that of the balance item nor the one taken for it. -/
theorem C57_exact (oid ty off : Int) :
    (structForKey oid ty off).map (·.name) = documented oid ty off ↔
      ty ≠ 60 ∧ ¬ (ty = 248 ∧ off = 0 ∧ (oid = 4 ∨ oid = 2 ^ 64 - 4)) := by
  constructor
  · intro h
    constructor
    · rintro rfl
      obtain ⟨h1, h2⟩ := C57_dir_log_item_unknown oid off
      rw [h1, h2] at h
      cases h
    · obtain ⟨h1, h2, h3, h4⟩ := C57_balance_item_unknown
      rintro ⟨rfl, rfl, rfl | rfl⟩
      · rw [h3, h4] at h; cases h
      · rw [h1, h2] at h; cases h
  · rintro ⟨h1, h2⟩
    exact C57_dispatch_partial oid ty off h1 h2

/-! ### C58 -/

/-- a cast does what its position says: it decodes the bytes there if the image has them, and fails otherwise -/
def AtItsPosition (b : Build) (s : StructDef) (img : Bytes) (pos : Int) (r : R Value) : Prop :=
  (∃ p : Nat, pos = p ∧ p + castSpan s ≤ img.length ∧
    r = (structFromBytes b s none (bytesAt img p (castSpan s))).map fun sv => .struct sv.name sv.key sv.fields) ∨
  ((pos < 0 ∨ (img.length : Int) < pos + castSpan s) ∧ ∃ er, r = .error (.err er))

theorem errs_message : Errs fun f => ∃ er, f = .err er := ⟨fun e _ => ⟨e, rfl⟩⟩

/-- in a release build a cast of a known struct gives a value or a message -/
theorem cast_message (cfg : Cfg) (hb : cfg.build.ovfChecks = false) (fs : Option Fs) (s : StructDef) (hs : s ∈ structs) (i : Int) :
    (∃ v, castOp cfg.build fs (.ident s.name) (.ok (.int i)) = .ok v) ∨
      ∃ er, castOp cfg.build fs (.ident s.name) (.ok (.int i)) = .error (.err er) := by
  have h := only_castOp errs_message (.inr hb) fs (.inr ⟨s.name, rfl, s, hs, rfl⟩) (r := .ok (.int i)) (only_ok _)
  cases hc : castOp cfg.build fs (.ident s.name) (.ok (.int i)) with
  | ok v => exact .inl ⟨v, rfl⟩
  | error f => obtain ⟨er, rfl⟩ := h f hc; exact .inr ⟨er, rfl⟩

/-- **C58, exactly**: in a release build a cast on an image does what its position says if and only if the position is
below `2^64` or the position taken modulo `2^64`, which is where it reads, gives no value. -/
theorem C58_exact (cfg : Cfg) (hb : cfg.build.ovfChecks = false) (st : State) (s : StructDef) (hs : s ∈ structs) (e : Expr)
    (pos : Int) (img : Bytes) (hi : img.length < 2 ^ 64) (hfs : st.fs = some (.unmounted img))
    (hp : evalExpr cfg st e = .ok (.int pos)) :
    AtItsPosition cfg.build s img pos (evalExpr cfg st (.cast (.ident s.name) e)) ↔
      pos < 2 ^ 64 ∨ ∀ v, evalExpr cfg st (.cast (.ident s.name) (.int (pos % 2 ^ 64))) ≠ .ok v := by
  by_cases hlt : pos < 2 ^ 64
  · refine ⟨fun _ => .inl hlt, fun _ => ?_⟩
    by_cases hneg : pos < 0
    · exact .inr ⟨.inl hneg, _, C58_negative_position cfg st _ e pos hp hneg⟩
    · obtain ⟨p, rfl⟩ : ∃ p : Nat, pos = p := ⟨pos.toNat, by omega⟩
      have hat := castOp_at cfg.build st.fs s.name p (by exact_mod_cast hlt) s (findStruct_self s hs) img hfs hi
      have he : evalExpr cfg st (.cast (.ident s.name) e) = castOp cfg.build st.fs (.ident s.name) (.ok (.int p)) := by
        simp only [evalExpr, hp]
      rw [he, hat]
      by_cases hle : p + castSpan s ≤ img.length
      · rw [if_pos hle]
        left
        refine ⟨p, rfl, hle, ?_⟩
        cases structFromBytes cfg.build s none (bytesAt img p (castSpan s)) <;> rfl
      · rw [if_neg hle, if_pos (.inr hb)]
        exact .inr ⟨.inr (by omega), _, rfl⟩
  · have hwrap : evalExpr cfg st (.cast (.ident s.name) e) = evalExpr cfg st (.cast (.ident s.name) (.int (pos % 2 ^ 64))) := by
      have hus : asUsize (pos % 2 ^ 64) = asUsize pos := by simp [asUsize]
      simp only [evalExpr, hp, castOp, bind, Except.bind, Value.asInteger, if_neg (show ¬ pos < 0 by omega),
        if_neg (show ¬ pos % 2 ^ 64 < 0 by omega), hus]
    rw [hwrap]
    constructor
    · rintro (⟨p, rfl, hle, -⟩ | ⟨-, er, h⟩)
      · omega
      · right
        intro v hv
        rw [h] at hv
        cases hv
    · rintro (h | h)
      · exact absurd h hlt
      · right
        refine ⟨.inr (by omega), ?_⟩
        simp only [evalExpr] at h ⊢
        rcases cast_message cfg hb st.fs s hs (pos % 2 ^ 64) with ⟨v, hv⟩ | h'
        · exact absurd hv (h v)
        · exact h'

/-! ### C59 -/

/-- no part of the struct depends on its bytes in a way of its own -/
def NoDynamic (fs : List (Option Str × Ty)) : Prop := ∀ f ∈ fs, ∀ cb, f.2 ≠ .dynamic cb

theorem mem_congr {a b : Bytes} {n i : Nat} (h : a.take n = b.take n) (hi : i < n) : mem a i = mem b i := by
  have h1 : a[i]? = b[i]? := by
    have := congrArg (·[i]?) h
    simpa [List.getElem?_take, hi] using this
  simp [mem, List.getD_eq_getElem?_getD, h1]

theorem bytesAt_congr {a b : Bytes} {n p k : Nat} (h : a.take n = b.take n) (hk : p + k ≤ n) : bytesAt a p k = bytesAt b p k := by
  have e : ∀ c : Bytes, bytesAt c p k = ((c.take n).drop p).take k := by
    intro c
    rw [List.drop_take, List.take_take, Nat.min_eq_left (by omega)]
    rfl
  rw [e, e, h]

/-- a struct without such parts is read from the bytes it occupies alone -/
theorem laid_take {a b : Bytes} {n : Nat} (hab : a.take n = b.take n) {fs : List (Option Str × Ty)} {pos : Nat}
    {seen out : List (Str × Value)} {stop : Nat} (h : Laid a fs pos seen out stop) (hd : NoDynamic fs) (hn : stop ≤ n)
    (hb : stop ≤ b.length) : Laid b fs pos seen out stop := by
  induction h with
  | done => exact .done _ _
  | fixed hf hl r ih =>
    have hs := (Laid.bounds r hl).1
    refine .fixed hf (by omega) ?_
    rw [valueAt_congr (mem b) (mem a) _ _ _ (fun i hi => (mem_congr hab (by omega)).symm)]
    exact ih (fun f hf => hd f (by simp [hf])) hn hb
  | string hl' hl r ih =>
    have hs := (Laid.bounds r hl).1
    refine .string hl' (by omega) ?_
    rw [← bytesAt_congr hab (by omega)]
    exact ih (fun f hf => hd f (by simp [hf])) hn hb
  | @types name cf t fs pos k seen out stop hl' hl r ih =>
    have hs := (Laid.bounds r hl).1
    refine .types hl' (by omega) ?_
    have e : (List.range k).map (fun i => valueAt (mem b) (pos + i * width t) t) =
        (List.range k).map (fun i => valueAt (mem a) (pos + i * width t) t) := by
      apply List.map_congr_left
      intro i hi
      rw [List.mem_range] at hi
      have h1 : i * width t + width t ≤ k * width t := by
        rw [← Nat.succ_mul]; exact Nat.mul_le_mul_right _ (by omega)
      exact valueAt_congr _ _ _ _ _ (fun j hj => (mem_congr hab (by omega)).symm)
    rw [e]
    exact ih (fun f hf => hd f (by simp [hf])) hn hb
  | dynamic => exact absurd rfl (hd _ (List.mem_cons_self ..) _)

set_option maxRecDepth 100000 in
theorem structs_noDynamic : ∀ s ∈ structs, s.name ≠ s!' "btrfs_extent_item" → s.name ≠ s!' "btrfs_file_extent_item" →
    NoDynamic s.fields := by
  have h : structs.all (fun s => s.name == s!' "btrfs_extent_item" || s.name == s!' "btrfs_file_extent_item" ||
      s.fields.all fun f => match f.2 with | .dynamic _ => false | _ => true) = true := by decide
  intro s hs h1 h2 f hf cb hc
  have := List.all_eq_true.1 h s hs
  simp only [Bool.or_eq_true, beq_iff_eq, h1, h2, false_or] at this
  have := List.all_eq_true.1 this f hf
  rw [hc] at this
  simp at this

/-- **C59, exactly**: let a struct other than the two extent items lie at a position of an image, its trailing parts
included. The cast gives that struct if it ends within the fixed part (that is, all trailing parts are empty), and fails
otherwise. -/
theorem C59_exact (cfg : Cfg) (st : State) (s : StructDef) (hs : s ∈ structs) (h1 : s.name ≠ s!' "btrfs_extent_item")
    (h2 : s.name ≠ s!' "btrfs_file_extent_item") (e : Expr) (p : Nat) (img : Bytes) (hi : img.length < 2 ^ 64)
    (hfs : st.fs = some (.unmounted img)) (hp : evalExpr cfg st e = .ok (.int p))
    (sv : StructVal) (stop : Nat) (hlaid : Laid (img.drop p) s.fields 0 [] sv.fields stop) (hsp : p + castSpan s ≤ img.length) :
    (stop ≤ castSpan s → evalExpr cfg st (.cast (.ident s.name) e) = .ok (.struct s.name none sv.fields)) ∧
    (castSpan s < stop → ∀ v, evalExpr cfg st (.cast (.ident s.name) e) ≠ .ok v) := by
  have hp64 : (p : Int) < 2 ^ 64 := by
    have := (castSpan_le s hs).1
    have : p < 2 ^ 64 := by omega
    exact_mod_cast this
  have hnd := structs_noDynamic s hs h1 h2
  have hlen : (bytesAt img p (castSpan s)).length = castSpan s := bytesAt_length _ _ _ hsp
  have htake : (img.drop p).take (castSpan s) = (bytesAt img p (castSpan s)).take (castSpan s) := by
    simp [bytesAt, List.take_take]
  have hcs := castSpan_le s hs
  constructor
  · intro hle
    rw [C58_cast_reads_position_partial cfg st s.name e _ p img hi hfs hp hp64]
    refine ⟨s, ⟨s.name, none, sv.fields⟩, p, rfl, hs, rfl, hsp, ?_, rfl⟩
    rw [C52_layout_iff cfg.build s hs none _ (by omega)]
    exact ⟨rfl, rfl, stop, laid_take htake hlaid hnd hle (by omega)⟩
  · intro hlt v hv
    obtain ⟨s', sv', q, hq, hs', hn, -, hd, -⟩ :=
      (C58_cast_reads_position_partial cfg st s.name e v p img hi hfs hp hp64).1 hv
    have hpq : p = q := by exact_mod_cast hq
    subst hpq
    have : s' = s := by
      have h1 := findStruct_self s hs
      rw [← hn, findStruct_self s' hs'] at h1
      simpa using h1
    subst this
    obtain ⟨-, -, stop', hl⟩ := (C52_layout_iff cfg.build s' hs none _ (by omega) sv').1 hd
    have hb := (Laid.bounds hl (by omega)).2
    have hl' := laid_take htake.symm hl hnd (by omega) (by rw [List.length_drop]; omega)
    have hd64 : (img.drop p).length < 2 ^ 64 := by rw [List.length_drop]; omega
    have key := fun o x => fieldsLoop_iff cfg.build (what := s'.name) (img.drop p) hd64 s'.fields (structs_wellFormed s' hs) 0 []
      (by omega) (by simp [AllIntsF]) o x
    have a1 := (key _ _).2 hlaid
    rw [(key _ _).2 hl'] at a1
    simp only [Except.ok.injEq, Prod.mk.injEq] at a1
    omega

/-- witness: an inode reference with an empty name occupies its fixed part only; one with the name `hi` ends two bytes later -/
example : Laid ([7, 0, 0, 0, 0, 0, 0, 0, 2, 0, 104, 105] : Bytes) struct_btrfs_inode_ref.fields 0 []
    [(s!' "index", .int 7), (s!' "name_len", .int 2), (s!' "name", .str [104, 105])] 12 ∧ castSpan struct_btrfs_inode_ref = 10 :=
  ⟨.fixed trivial (by decide) (.fixed trivial (by decide) (.string (n := 2) rfl (by decide) (.done _ _))), rfl⟩

/-! ### C68 -/

set_option maxRecDepth 100000 in
/-- **C68, exactly**: a constant of the kernel header is known at start-up with its value if and only if it is neither
`BTRFS_BALANCE_OBJECTID` nor `BTRFS_BLOCK_FLAG_FULL_BACKREF`. -/
theorem C68_exact (cfg : Cfg) (room : Option Nat) (n : Str) (v : Int) (h : (n, v) ∈ header) :
    (evalExpr cfg (State.new cfg room) (.ident n) = .ok (.int v) ∧ analyzeExpr AState.new.vars (.ident n) = .ok ()) ↔
      n ≠ s!' "BTRFS_BALANCE_OBJECTID" ∧ n ≠ s!' "BTRFS_BLOCK_FLAG_FULL_BACKREF" := by
  constructor
  · rintro ⟨he, -⟩
    constructor
    · rintro rfl
      rw [(C68_negation_balance cfg room).2] at he
      simp only [Except.ok.injEq, Value.int.injEq] at he
      subst he
      exact absurd h (by decide +kernel)
    · rintro rfl
      rw [(C68_negation_full_backref cfg room).2.1] at he
      cases he
  · rintro ⟨h1, h2⟩
    exact C68_constants_partial cfg room n v h h1 h2

/-! ### witnesses -/

/-- shifting 1 by 126 fits, by 127 does not -/
example : Fits (1 * 2 ^ (126 : Int).toNat) ∧ ¬ Fits (1 * 2 ^ (127 : Int).toNat) := by decide

/-- `hist()` of 3 and 5 counts both, of 3 and 4 only the first -/
example : ¬ Boundary 5 ∧ Boundary 4 := by
  refine ⟨?_, .inr ⟨2, .inl rfl⟩⟩
  rintro (h | ⟨k, h | h⟩)
  · omega
  · rcases Nat.lt_or_ge k 3 with hk | hk
    · rcases k with _ | _ | _ | k <;> first | omega | simp at h
    · have h2 : (2 : Int) ^ 3 ≤ 2 ^ k := by
        have := Nat.pow_le_pow_right (show 0 < 2 by omega) hk
        exact_mod_cast this
      omega
  · have : (0 : Int) ≤ 2 ^ k := Int.pow_nonneg (by omega)
    omega

end Btrd
