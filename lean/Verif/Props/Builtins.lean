/-
C46-C49, C68: arrays, `key()`, `keyof()`, the arguments of `search()`, and the names of a fresh
interpreter. Everything is stated about evaluating call expressions: the callee may be any expression
whose value is the builtin function.
-/
import Verif.Spec.Constants
import Verif.Lemmas.Good
import Verif.Props.Scopes
import Verif.Props.Dispatch
import Verif.Props.Analysis

namespace Btrd
open Spec

theorem evalArgs_eq_map (cfg : Cfg) (st : State) (es : List Expr) :
    evalArgs cfg st es = es.map (evalExpr cfg st) := by
  induction es with
  | nil => rfl
  | cons e es ih => simp only [evalArgs, List.map_cons, ih]

/-- a call of a builtin -/
theorem evalExpr_call (cfg : Cfg) (st : State) (f : Expr) (fn : Function) (args : List Expr)
    (hf : evalExpr cfg st f = .ok (.func fn)) :
    evalExpr cfg st (.call f args) = callFn cfg st.fs (.ok (.func fn)) (args.map (evalExpr cfg st)) := by
  rw [evalExpr, hf, evalArgs_eq_map]

theorem callFn_key (cfg : Cfg) (fs : Option Fs) (args : List (R Value)) :
    callFn cfg fs (.ok (.func .key)) args = keyFn cfg.build args := rfl
theorem callFn_search (cfg : Cfg) (fs : Option Fs) (args : List (R Value)) :
    callFn cfg fs (.ok (.func .search)) args = searchFn cfg fs args := rfl
theorem callFn_keyOf (cfg : Cfg) (fs : Option Fs) (args : List (R Value)) :
    callFn cfg fs (.ok (.func .keyOf)) args = keyofFn cfg.build args := rfl
theorem callFn_len (cfg : Cfg) (fs : Option Fs) (args : List (R Value)) :
    callFn cfg fs (.ok (.func .len)) args = lenFn args := rfl

/-! ### C46: arrays -/

section
variable (cfg : Cfg) (st : State)

/-- **C46**: appending puts the new element last, keeps the others where they are, and keeps a histogram a
histogram. -/
theorem C46_append (l r : Expr) (xs : List Value) (hist : Bool) (v : Value)
    (hl : evalExpr cfg st l = .ok (.array xs hist)) (hr : evalExpr cfg st r = .ok v) :
    evalExpr cfg st (.bin .plus l r) = .ok (.array (xs ++ [v]) hist) := by
  rw [evalExpr, hl, hr]
  rfl

/-- **C46**: `len` of an array is the number of its elements (which an address space bounds) -/
theorem C46_len (f a : Expr) (xs : List Value) (hist : Bool) (hf : evalExpr cfg st f = .ok (.func .len))
    (ha : evalExpr cfg st a = .ok (.array xs hist)) (hx : xs.length < 2 ^ 64) :
    evalExpr cfg st (.call f [a]) = .ok (.int xs.length) := by
  rw [evalExpr_call cfg st f .len _ hf, List.map_cons, List.map_nil, ha]
  have : inI128 (xs.length : Int) = true := by
    rw [inI128_iff]; unfold Fits; omega
  change (if inI128 (xs.length : Int) then _ else _) = _
  rw [if_pos this]

/-- **C46**: `len` takes exactly one argument, an array -/
theorem C46_len_iff (f : Expr) (args : List Expr) (hf : evalExpr cfg st f = .ok (.func .len))
    (hx : ∀ a ∈ args, ∀ xs hist, evalExpr cfg st a = .ok (.array xs hist) → xs.length < 2 ^ 64) :
    (∃ v, evalExpr cfg st (.call f args) = .ok v) ↔
      ∃ a xs hist, args = [a] ∧ evalExpr cfg st a = .ok (.array xs hist) := by
  constructor
  · rintro ⟨v, h⟩
    rw [evalExpr_call cfg st f .len _ hf] at h
    rw [callFn_len] at h
    simp only [lenFn] at h
    obtain ⟨w, h1, h⟩ := bind_ok h
    obtain ⟨vec, h2, h⟩ := bind_ok h
    obtain ⟨hist, rfl⟩ := asVec_inv h2
    simp only [arg1] at h1
    obtain ⟨_, hlen, h1⟩ := bind_ok h1
    match args, h1 with
    | [a], h1 => exact ⟨a, vec, hist, rfl, h1⟩
  · rintro ⟨a, xs, hist, rfl, ha⟩
    exact ⟨_, C46_len cfg st f a xs hist hf ha (hx a (List.mem_singleton_self a) xs hist ha)⟩

/-- **C46**: indexing an array succeeds exactly with an integer `i`, `0 ≤ i < len`, and yields element `i`,
counted from 0. -/
theorem C46_index_iff (a i : Expr) (xs : List Value) (hist : Bool) (w : Value)
    (ha : evalExpr cfg st a = .ok (.array xs hist)) (hx : xs.length < 2 ^ 64) :
    evalExpr cfg st (.index a i) = .ok w ↔
      ∃ n : Nat, evalExpr cfg st i = .ok (.int n) ∧ ∃ h : n < xs.length, w = xs[n] := by
  rw [evalExpr, ha]
  constructor
  · intro h
    simp only [indexOp] at h
    obtain ⟨x, h1, h⟩ := bind_ok h
    simp only [Except.ok.injEq] at h1; subst h1
    obtain ⟨vec, h2, h⟩ := bind_ok h
    simp only [Value.asVec, Except.ok.injEq] at h2; subst h2
    obtain ⟨iv, h3, h⟩ := bind_ok h
    obtain ⟨idx, h4, h⟩ := bind_ok h
    obtain ⟨n, h5, h7⟩ := bind_ok h
    obtain ⟨rfl, -⟩ := tryUnsigned_inv h5
    have h6 : iv = .int n := by
      cases iv <;> simp only [Value.asInteger, Except.ok.injEq, reduceCtorEq] at h4
      rw [h4]
    subst h6
    refine ⟨n, h3, ?_⟩
    cases hn : xs[n]? with
    | none => rw [hn] at h7; exact absurd h7 (by simp [orErr])
    | some y =>
      rw [hn] at h7
      simp only [orErr, Except.ok.injEq] at h7
      obtain ⟨hlt, he⟩ := List.getElem?_eq_some_iff.1 hn
      exact ⟨hlt, by rw [he, h7]⟩
  · rintro ⟨n, hi, hlt, rfl⟩
    rw [hi]
    have h5 : tryUnsigned 64 (n : Int) = .ok n := tryUnsigned_nat (by omega)
    have h6 : xs[n]? = some xs[n] := List.getElem?_eq_getElem hlt
    simp only [indexOp, Value.asVec, Value.asInteger, bind, Except.bind, h5, h6, orErr]

/-- **C46**: only arrays can be indexed -/
theorem C46_index_needs_array (a i : Expr) (w : Value) (h : evalExpr cfg st (.index a i) = .ok w) :
    ∃ xs hist, evalExpr cfg st a = .ok (.array xs hist) := by
  rw [evalExpr] at h
  simp only [indexOp] at h
  obtain ⟨x, h1, h⟩ := bind_ok h
  obtain ⟨vec, h2, h⟩ := bind_ok h
  obtain ⟨hist, rfl⟩ := asVec_inv h2
  exact ⟨vec, hist, h1⟩

/-- **C46**, put together: after `a = l + r` in terms of expressions, the elements before the last are those
of `l`, the last is `r`, and `len` is one more. -/
theorem C46_append_observed (f l r : Expr) (xs : List Value) (hist : Bool) (v : Value)
    (hf : evalExpr cfg st f = .ok (.func .len))
    (hl : evalExpr cfg st l = .ok (.array xs hist)) (hr : evalExpr cfg st r = .ok v)
    (hx : xs.length + 1 < 2 ^ 64) :
    evalExpr cfg st (.call f [.bin .plus l r]) = .ok (.int (xs.length + 1)) ∧
    evalExpr cfg st (.index (.bin .plus l r) (.int xs.length)) = .ok v ∧
    ∀ n : Nat, n < xs.length →
      evalExpr cfg st (.index (.bin .plus l r) (.int n)) = evalExpr cfg st (.index l (.int n)) := by
  have ha := C46_append cfg st l r xs hist v hl hr
  have hlen : (xs ++ [v]).length < 2 ^ 64 := by simpa using hx
  refine ⟨?_, ?_, ?_⟩
  · have := C46_len cfg st f _ _ hist hf ha hlen
    simpa using this
  · rw [C46_index_iff cfg st _ _ _ hist v ha hlen]
    exact ⟨xs.length, by rw [evalExpr], by simp, by simp⟩
  · intro n hn
    have h1 := (C46_index_iff cfg st l (.int n) xs hist xs[n] hl (by omega)).2
      ⟨n, by rw [evalExpr], hn, rfl⟩
    rw [h1, C46_index_iff cfg st _ _ _ hist _ ha hlen]
    exact ⟨n, by rw [evalExpr], by simp; omega, by rw [List.getElem_append_left hn]⟩

end

/-- witness: in a fresh interpreter, arrays come from `hist()` and `+`, and an index may be out of range -/
example :
    let st := State.new demo none
    let a := Expr.bin .plus (.call (.ident s!' "hist") []) (.int 7)
    evalExpr demo st a = .ok (.array [.int 7] true) ∧
    evalExpr demo st (.index a (.int 0)) = .ok (.int 7) ∧
    evalExpr demo st (.index a (.int 1)) = .error (.err (.indexRange 1 1)) ∧
    evalExpr demo st (.index a (.un .minus (.int 1))) = .error (.err .conversion) ∧
    evalExpr demo st (.call (.ident s!' "len") [a]) = .ok (.int 1) := by
  refine ⟨?_, ?_, ?_, ?_, ?_⟩ <;> rfl

/-! ### C47: `key()` -/

section
variable (cfg : Cfg) (st : State)

/-- **C47**: `key(a, b, c, d)` is the search key from `(a, b, c, d)` to the largest values. -/
theorem C47_key_fields (f e₁ e₂ e₃ e₄ : Expr) (a b c d : Int)
    (hf : evalExpr cfg st f = .ok (.func .key))
    (h₁ : evalExpr cfg st e₁ = .ok (.int a)) (h₂ : evalExpr cfg st e₂ = .ok (.int b))
    (h₃ : evalExpr cfg st e₃ = .ok (.int c)) (h₄ : evalExpr cfg st e₄ = .ok (.int d)) :
    evalExpr cfg st (.call f [e₁, e₂, e₃, e₄]) =
      .ok (.struct s!' "_btrfs_ioctl_search_key" none
        [(s!' "min_objectid", .int a), (s!' "max_objectid", .int (2 ^ 64 - 1)),
         (s!' "min_type", .int b), (s!' "max_type", .int (2 ^ 8 - 1)),
         (s!' "min_offset", .int c), (s!' "max_offset", .int (2 ^ 64 - 1)),
         (s!' "min_transid", .int d), (s!' "max_transid", .int (2 ^ 64 - 1))]) := by
  rw [evalExpr_call cfg st f .key _ hf]
  simp only [List.map_cons, List.map_nil, h₁, h₂, h₃, h₄]
  rw [callFn_key]
  simp only [keyFn, searchKey_zero, intArgs, Value.asInteger, bind, Except.bind]
  rfl

/-- **C47**: `key` takes exactly four integers -/
theorem C47_key_iff (f : Expr) (args : List Expr) (hf : evalExpr cfg st f = .ok (.func .key)) :
    (∃ v, evalExpr cfg st (.call f args) = .ok v) ↔
      args.length = 4 ∧ ∀ e ∈ args, ∃ i, evalExpr cfg st e = .ok (.int i) := by
  constructor
  · rintro ⟨v, h⟩
    rw [evalExpr_call cfg st f .key _ hf] at h
    rw [callFn_key] at h
    simp only [keyFn] at h
    obtain ⟨_, h0, h⟩ := bind_ok h
    obtain ⟨vals, h1, -⟩ := bind_ok h
    refine ⟨?_, ?_⟩
    · have := ensure_inv h0
      simpa using this
    · have key : ∀ (es : List Expr) (vs : List Value), intArgs (es.map (evalExpr cfg st)) = .ok vs →
          ∀ e ∈ es, ∃ i, evalExpr cfg st e = .ok (.int i) := by
        intro es
        induction es with
        | nil => intro vs _ e he; exact absurd he (List.not_mem_nil)
        | cons x es ih =>
          intro vs h e he
          simp only [List.map_cons, intArgs] at h
          obtain ⟨w, g1, h⟩ := bind_ok h
          obtain ⟨i, g2, h⟩ := bind_ok h
          obtain ⟨ws, g3, h⟩ := bind_ok h
          rcases List.mem_cons.1 he with rfl | he
          · cases w <;> simp only [Value.asInteger, Except.ok.injEq, reduceCtorEq] at g2
            exact ⟨_, g1⟩
          · exact ih ws g3 e he
      exact key args vals h1
  · rintro ⟨hl, hi⟩
    match args, hl with
    | [e₁, e₂, e₃, e₄], _ =>
      simp only [List.mem_cons, forall_eq_or_imp, List.not_mem_nil, false_implies, implies_true, and_true] at hi
      obtain ⟨⟨a, h₁⟩, ⟨b, h₂⟩, ⟨c, h₃⟩, ⟨d, h₄⟩⟩ := hi
      exact ⟨_, C47_key_fields cfg st f e₁ e₂ e₃ e₄ a b c d hf h₁ h₂ h₃ h₄⟩

end

set_option maxRecDepth 100000 in
/-- witness: a key with a negative objectid can be built (it cannot be searched for, C49) -/
example : (match evalExpr demo (State.new demo none)
    (.call (.ident s!' "key") [.un .minus (.int 1), .int 0, .int 0, .int 0]) with
    | .ok (.struct _ _ ((_, .int i) :: _)) => i == -1
    | _ => false) = true := by decide +kernel

/-! ### C48: `keyof()` -/

section
variable (cfg : Cfg) (st : State)

/-- **C48**: `keyof` of a struct with a disk key is that key -/
theorem C48_keyof (f e : Expr) (name : Str) (oid ty off : Int) (fields : List (Str × Value))
    (hf : evalExpr cfg st f = .ok (.func .keyOf))
    (he : evalExpr cfg st e = .ok (.struct name (some (oid, ty, off)) fields)) :
    evalExpr cfg st (.call f [e]) = .ok (.struct s!' "btrfs_key" none
      [(s!' "objectid", .int oid), (s!' "type", .int ty), (s!' "offset", .int off)]) := by
  rw [evalExpr_call cfg st f .keyOf _ hf]
  simp only [List.map_cons, List.map_nil, he]
  rw [callFn_keyOf]
  have : ∀ msg, arg1 msg [Except.ok (Value.struct name (some (oid, ty, off)) fields)] =
    .ok (.struct name (some (oid, ty, off)) fields) := fun _ => rfl
  simp only [keyofFn, this, Value.asStruct, key_zero, bind, Except.bind]
  rfl

/-- **C48**: it succeeds exactly on one struct with a disk key; everything else is an error -/
theorem C48_keyof_iff (f : Expr) (args : List Expr) (hf : evalExpr cfg st f = .ok (.func .keyOf)) :
    (∃ v, evalExpr cfg st (.call f args) = .ok v) ↔
      ∃ e name oid ty off fields, args = [e] ∧
        evalExpr cfg st e = .ok (.struct name (some (oid, ty, off)) fields) := by
  constructor
  · rintro ⟨v, h⟩
    rw [evalExpr_call cfg st f .keyOf _ hf] at h
    rw [callFn_keyOf] at h
    simp only [keyofFn] at h
    obtain ⟨w, h1, h⟩ := bind_ok h
    obtain ⟨s, h2, h3⟩ := bind_ok h
    clear h
    have hw := asStruct_inv h2
    subst hw
    simp only [arg1] at h1
    obtain ⟨_, hlen, h1⟩ := bind_ok h1
    match args, h1 with
    | [e], h1 =>
      split at h3
      · rename_i oid ty off hk
        refine ⟨e, s.name, oid, ty, off, s.fields, rfl, ?_⟩
        rw [← hk]; exact h1
      · simp at h3
  · rintro ⟨e, name, oid, ty, off, fields, rfl, he⟩
    exact ⟨_, C48_keyof cfg st f e name oid ty off fields hf he⟩

/-- **C48**: structs without a disk key have none to show -/
theorem C48_no_key (f e : Expr) (name : Str) (fields : List (Str × Value))
    (hf : evalExpr cfg st f = .ok (.func .keyOf))
    (he : evalExpr cfg st e = .ok (.struct name none fields)) :
    evalExpr cfg st (.call f [e]) = .error (.err .noKey) := by
  rw [evalExpr_call cfg st f .keyOf _ hf]
  simp only [List.map_cons, List.map_nil, he]
  rfl

end

theorem structFromBytes_key {b : Build} {s : StructDef} {key : Option (Int × Int × Int)} {bytes : Bytes}
    {sv : StructVal} (h : structFromBytes b s key bytes = .ok sv) : sv.name = s.name ∧ sv.key = key := by
  unfold structFromBytes at h
  split at h
  · split at h
    · simp only [Except.ok.injEq] at h
      rw [← h]
      exact ⟨rfl, rfl⟩
    · simp at h
  · simp at h

/-- what a successful search has done -/
theorem search_inv (cfg : Cfg) (st : State) (f : Expr) (args : List Expr) (v : Value)
    (hf : evalExpr cfg st f = .ok (.func .search)) (h : evalExpr cfg st (.call f args) = .ok v) :
    ∃ e₀ e₁ tree k fs sa items vs, args = [e₀, e₁] ∧ evalExpr cfg st e₀ = .ok (.int tree) ∧
      evalExpr cfg st e₁ = .ok (.struct s!' "_btrfs_ioctl_search_key" k.key k.fields) ∧
      k.name = s!' "_btrfs_ioctl_search_key" ∧ st.fs = some fs ∧
      searchArgs tree k = .ok sa ∧ fs.search cfg.fuel sa = .ok items ∧ decodeItems cfg.build items = .ok vs ∧
      v = .array vs false := by
  rw [evalExpr_call cfg st f .search _ hf] at h
  rw [callFn_search] at h
  simp only [searchFn] at h
  obtain ⟨_, h0, h⟩ := bind_ok h
  have hl : args.length = 2 := by simpa using ensure_inv h0
  match args, hl with
  | [e₀, e₁], _ =>
    simp only [List.map_cons, List.map_nil] at h
    obtain ⟨v0, h1, h⟩ := bind_ok h
    obtain ⟨tree, h2, h⟩ := bind_ok h
    obtain ⟨v1, h3, h⟩ := bind_ok h
    obtain ⟨k, h4, h⟩ := bind_ok h
    obtain ⟨_, h5, h⟩ := bind_ok h
    have h9 := h
    clear h
    have hv0 : v0 = .int tree := by
      cases v0 <;> simp only [Value.asInteger, Except.ok.injEq, reduceCtorEq] at h2
      rw [h2]
    have hk : k.name = s!' "_btrfs_ioctl_search_key" := by
      have := ensure_inv h5
      rw [beq_iff_eq] at this
      exact this
    have hv1 := asStruct_inv h4
    subst hv0 hv1
    cases hfs : st.fs with
    | none => rw [hfs] at h9; simp at h9
    | some fs =>
      rw [hfs] at h9
      simp only at h9
      obtain ⟨sa, h6, h⟩ := bind_ok h9
      obtain ⟨items, h7, h⟩ := bind_ok h
      obtain ⟨vs, h8, h⟩ := bind_ok h
      simp only [Except.ok.injEq] at h
      exact ⟨e₀, e₁, tree, k, fs, sa, items, vs, rfl, h1, by rw [← hk]; exact h3, hk, rfl, h6, h7, h8, h.symm⟩

theorem Forall₂.imp' {α β : Type} {R S : α → β → Prop} (h : ∀ a b, R a b → S a b) {l : List α} {m : List β}
    (hl : List.Forall₂ R l m) : List.Forall₂ S l m := by
  induction hl with
  | nil => exact .nil
  | cons h1 _ ih => exact .cons (h _ _ h1) ih

/-- **C48**: the values a search yields are, in order, those of the items found whose key is of a known
kind; and in whatever state and by whatever expression a value is reached later, `keyof` of it is the key
the kernel reported for the item. -/
theorem C48_keyof_search_results (cfg : Cfg) (st : State) (f : Expr) (args : List Expr) (v : Value)
    (hf : evalExpr cfg st f = .ok (.func .search)) (h : evalExpr cfg st (.call f args) = .ok v) :
    ∃ fs sa items vs, st.fs = some fs ∧ fs.search cfg.fuel sa = .ok items ∧ v = .array vs false ∧
      List.Forall₂ (fun (it : Item) (w : Value) =>
        ∀ (cfg' : Cfg) (st' : State) (f' e : Expr), evalExpr cfg' st' f' = .ok (.func .keyOf) →
          evalExpr cfg' st' e = .ok w →
          evalExpr cfg' st' (.call f' [e]) = .ok (.struct s!' "btrfs_key" none
            [(s!' "objectid", .int it.1.objectid), (s!' "type", .int it.1.ty), (s!' "offset", .int it.1.offset)]))
        (items.filter known) vs := by
  obtain ⟨e₀, e₁, tree, k, fs, sa, items, vs, -, -, -, -, hfs, -, h7, h8, rfl⟩ := search_inv cfg st f args v hf h
  refine ⟨fs, sa, items, vs, hfs, h7, rfl, ?_⟩
  have := C57_search_values cfg.build items vs h8
  refine Forall₂.imp' ?_ this
  rintro it w ⟨s, sv, -, hs, rfl⟩ cfg' st' f' e hf' he
  rw [(structFromBytes_key hs).2] at he
  exact C48_keyof cfg' st' f' e _ _ _ _ _ hf' he

/-- **C48**: copying a struct keeps its key: after `y = e;`, `keyof(y)` is what `keyof(e)` was. -/
theorem C48_copies_keep_keys (cfg : Cfg) (st : State) (f e : Expr) (y : Str) (hne : st.vars ≠ [])
    (name : Str) (key : Option (Int × Int × Int)) (fields : List (Str × Value))
    (he : evalExpr cfg st e = .ok (.struct name key fields))
    (f' : Expr) (hf : evalExpr cfg st f = .ok (.func .keyOf))
    (hf' : evalExpr cfg (evalStmt cfg (.assign (.ident y) e) st).1 f' = .ok (.func .keyOf)) :
    evalExpr cfg (evalStmt cfg (.assign (.ident y) e) st).1 (.call f' [.ident y]) =
      evalExpr cfg st (.call f [e]) := by
  obtain ⟨vs, hi⟩ := insert_ok st.vars y (.struct name key fields) hne
  have hst : (evalStmt cfg (.assign (.ident y) e) st).1 = { st with vars := vs } := by
    simp only [evalStmt, evalAssign, he, hi]
  have hy : evalExpr cfg { st with vars := vs } (.ident y) = .ok (.struct name key fields) := by
    simp only [evalExpr]
    rw [(get_insert hi).1]
    rfl
  rw [hst] at hf' ⊢
  match key with
  | none => rw [C48_no_key cfg _ f' _ name fields hf' hy, C48_no_key cfg st f e name fields hf he]
  | some (oid, ty, off) =>
    rw [C48_keyof cfg _ f' _ name oid ty off fields hf' hy, C48_keyof cfg st f e name oid ty off fields hf he]

/-! ### C49: the arguments of `search()` -/

/-- **C49**: the bounds in a key have exactly these values -/
structure Spec.KeyValues (k : StructVal) (a A t T o O g G : Int) : Prop where
  minObjectid : k.field s!' "min_objectid" = .ok (.int a)
  maxObjectid : k.field s!' "max_objectid" = .ok (.int A)
  minType : k.field s!' "min_type" = .ok (.int t)
  maxType : k.field s!' "max_type" = .ok (.int T)
  minOffset : k.field s!' "min_offset" = .ok (.int o)
  maxOffset : k.field s!' "max_offset" = .ok (.int O)
  minTransid : k.field s!' "min_transid" = .ok (.int g)
  maxTransid : k.field s!' "max_transid" = .ok (.int G)

theorem field_rename {k : StructVal} {n : Str} {v : Value} (name : Str) (h : k.field n = .ok v) :
    (⟨name, k.key, k.fields⟩ : StructVal).field n = .ok v := by
  simp only [StructVal.field] at h ⊢
  cases hf : fieldLookup k.fields n with
  | none => rw [hf] at h; simp [orErr] at h
  | some w => rw [hf] at h; exact h

theorem Spec.KeyValues.rename {k : StructVal} {a A t T o O g G : Int} (h : KeyValues k a A t T o O g G) (name : Str) :
    KeyValues ⟨name, k.key, k.fields⟩ a A t T o O g G :=
  ⟨field_rename name h.1, field_rename name h.2, field_rename name h.3, field_rename name h.4,
    field_rename name h.5, field_rename name h.6, field_rename name h.7, field_rename name h.8⟩

theorem keyArg_inv {k : StructVal} {name : Str} {bits n : Nat} (h : keyArg k name bits = .ok n) :
    k.field name = .ok (.int n) ∧ n < 2 ^ bits := by
  simp only [keyArg] at h
  obtain ⟨v, h1, h⟩ := bind_ok h
  obtain ⟨i, h2, h⟩ := bind_ok h
  obtain ⟨rfl, h3⟩ := tryUnsigned_inv h
  cases v <;> simp only [Value.asInteger, Except.ok.injEq, reduceCtorEq] at h2
  subst h2
  exact ⟨h1, h3⟩

theorem keyArg_int {k : StructVal} {name : Str} {i : Int} (bits : Nat) (h : k.field name = .ok (.int i)) :
    keyArg k name bits = tryUnsigned bits i := by
  simp only [keyArg, h, Value.asInteger, bind, Except.bind]

/-- **C49**: a search that gets as far as asking the kernel asks for exactly the numbers in its arguments:
the tree id and the eight bounds, each within the width of the kernel's field (8 bits for the types, 64
for the rest). -/
theorem C49_search_asks_for_its_arguments (cfg : Cfg) (st : State) (f : Expr) (args : List Expr) (v : Value)
    (hf : evalExpr cfg st f = .ok (.func .search)) (h : evalExpr cfg st (.call f args) = .ok v) :
    ∃ e₀ e₁ k fs sa items, args = [e₀, e₁] ∧ evalExpr cfg st e₀ = .ok (.int sa.treeId) ∧
      evalExpr cfg st e₁ = .ok (.struct s!' "_btrfs_ioctl_search_key" k.key k.fields) ∧
      st.fs = some fs ∧ fs.search cfg.fuel sa = .ok items ∧
      KeyValues k sa.minObjectid sa.maxObjectid sa.minType sa.maxType sa.minOffset sa.maxOffset
        sa.minTransid sa.maxTransid ∧
      sa.treeId < 2 ^ 64 ∧ sa.minObjectid < 2 ^ 64 ∧ sa.maxObjectid < 2 ^ 64 ∧ sa.minType < 2 ^ 8 ∧
      sa.maxType < 2 ^ 8 ∧ sa.minOffset < 2 ^ 64 ∧ sa.maxOffset < 2 ^ 64 ∧ sa.minTransid < 2 ^ 64 ∧
      sa.maxTransid < 2 ^ 64 := by
  obtain ⟨e₀, e₁, tree, k, fs, sa, items, vs, rfl, h0, h1, hk, hfs, h6, h7, -, -⟩ := search_inv cfg st f args v hf h
  simp only [searchArgs] at h6
  obtain ⟨t, g0, h6⟩ := bind_ok h6
  obtain ⟨a1, g1, h6⟩ := bind_ok h6
  obtain ⟨a2, g2, h6⟩ := bind_ok h6
  obtain ⟨a3, g3, h6⟩ := bind_ok h6
  obtain ⟨a4, g4, h6⟩ := bind_ok h6
  obtain ⟨a5, g5, h6⟩ := bind_ok h6
  obtain ⟨a6, g6, h6⟩ := bind_ok h6
  obtain ⟨a7, g7, h6⟩ := bind_ok h6
  obtain ⟨a8, g8, h6⟩ := bind_ok h6
  simp only [Except.ok.injEq] at h6
  obtain ⟨ht, b0⟩ := tryUnsigned_inv g0
  obtain ⟨c1, b1⟩ := keyArg_inv g1
  obtain ⟨c2, b2⟩ := keyArg_inv g2
  obtain ⟨c3, b3⟩ := keyArg_inv g3
  obtain ⟨c4, b4⟩ := keyArg_inv g4
  obtain ⟨c5, b5⟩ := keyArg_inv g5
  obtain ⟨c6, b6⟩ := keyArg_inv g6
  obtain ⟨c7, b7⟩ := keyArg_inv g7
  obtain ⟨c8, b8⟩ := keyArg_inv g8
  subst h6
  rw [ht] at h0
  exact ⟨e₀, e₁, k, fs, _, items, rfl, h0, h1, hfs, h7, ⟨c1, c2, c3, c4, c5, c6, c7, c8⟩,
    b0, b1, b2, b3, b4, b5, b6, b7, b8⟩

/-- **C49**: with any of them outside its field, the search is an error, whatever the filesystem would
answer. -/
theorem C49_out_of_range (cfg : Cfg) (st : State) (f e₀ e₁ : Expr) (fs : Fs) (tree : Int) (k : StructVal)
    (a A t T o O g G : Int)
    (hf : evalExpr cfg st f = .ok (.func .search)) (hfs : st.fs = some fs)
    (h₀ : evalExpr cfg st e₀ = .ok (.int tree))
    (h₁ : evalExpr cfg st e₁ = .ok (.struct s!' "_btrfs_ioctl_search_key" k.key k.fields))
    (hk : KeyValues k a A t T o O g G)
    (hr : ¬ ((∀ x ∈ [tree, a, A, o, O, g, G], 0 ≤ x ∧ x < 2 ^ 64) ∧ ∀ x ∈ [t, T], 0 ≤ x ∧ x < 2 ^ 8)) :
    evalExpr cfg st (.call f [e₀, e₁]) = .error (.err .conversion) := by
  rw [evalExpr_call cfg st f .search _ hf]
  simp only [List.map_cons, List.map_nil, h₀, h₁]
  rw [callFn_search]
  have hn : (⟨s!' "_btrfs_ioctl_search_key", k.key, k.fields⟩ : StructVal).name == BTRFS_SEARCH_KEY.name :=
    show (s!' "_btrfs_ioctl_search_key" == BTRFS_SEARCH_KEY.name) = true by decide
  have key : searchArgs tree ⟨s!' "_btrfs_ioctl_search_key", k.key, k.fields⟩ = .error (.err .conversion) := by
    have hk := hk.rename s!' "_btrfs_ioctl_search_key"
    have dich : ∀ (bits : Nat) (x : Int), (0 ≤ x ∧ x < 2 ^ bits ∧ tryUnsigned bits x = .ok x.toNat) ∨
        (¬ (0 ≤ x ∧ x < 2 ^ bits) ∧ tryUnsigned bits x = .error (.err .conversion)) := by
      intro bits x
      by_cases hx : 0 ≤ x ∧ x < 2 ^ bits
      · exact .inl ⟨hx.1, hx.2, tryUnsigned_ok hx.1 hx.2⟩
      · exact .inr ⟨hx, tryUnsigned_err hx⟩
    simp only [searchArgs, keyArg, hk.minObjectid, hk.maxObjectid, hk.minType, hk.maxType, hk.minOffset,
      hk.maxOffset, hk.minTransid, hk.maxTransid, Value.asInteger, bind, Except.bind]
    rcases dich 64 tree with ⟨x1, x2, x⟩ | ⟨-, x⟩ <;> simp only [x]
    rcases dich 64 a with ⟨y1, y2, x⟩ | ⟨-, x⟩ <;> simp only [x]
    rcases dich 64 A with ⟨z1, z2, x⟩ | ⟨-, x⟩ <;> simp only [x]
    rcases dich 8 t with ⟨w1, w2, x⟩ | ⟨-, x⟩ <;> simp only [x]
    rcases dich 8 T with ⟨v1, v2, x⟩ | ⟨-, x⟩ <;> simp only [x]
    rcases dich 64 o with ⟨u1, u2, x⟩ | ⟨-, x⟩ <;> simp only [x]
    rcases dich 64 O with ⟨t1, t2, x⟩ | ⟨-, x⟩ <;> simp only [x]
    rcases dich 64 g with ⟨s1, s2, x⟩ | ⟨-, x⟩ <;> simp only [x]
    rcases dich 64 G with ⟨r1, r2, x⟩ | ⟨-, x⟩ <;> simp only [x]
    exfalso
    apply hr
    simp only [List.mem_cons, forall_eq_or_imp, List.not_mem_nil, false_implies, implies_true, and_true]
    exact ⟨⟨⟨x1, x2⟩, ⟨y1, y2⟩, ⟨z1, z2⟩, ⟨u1, u2⟩, ⟨t1, t2⟩, ⟨s1, s2⟩, ⟨r1, r2⟩⟩, ⟨w1, w2⟩, ⟨v1, v2⟩⟩
  simp only [searchFn, hfs, Value.asInteger, Value.asStruct, hn, key, ensure, bind, Except.bind, List.length_cons,
    List.length_nil]
  rfl

/-- **C49**: with all of them in range, the kernel is asked, for exactly these numbers; what it finds is
decoded. -/
theorem C49_in_range (cfg : Cfg) (st : State) (f e₀ e₁ : Expr) (fs : Fs) (tree a A t T o O g G : Nat)
    (k : StructVal)
    (hf : evalExpr cfg st f = .ok (.func .search)) (hfs : st.fs = some fs)
    (h₀ : evalExpr cfg st e₀ = .ok (.int tree))
    (h₁ : evalExpr cfg st e₁ = .ok (.struct s!' "_btrfs_ioctl_search_key" k.key k.fields))
    (hk : KeyValues k a A t T o O g G)
    (hr : (∀ x ∈ [tree, a, A, o, O, g, G], x < 2 ^ 64) ∧ ∀ x ∈ [t, T], x < 2 ^ 8) :
    (∀ e, fs.search cfg.fuel ⟨tree, a, A, t, T, o, O, g, G⟩ = .error e →
      evalExpr cfg st (.call f [e₀, e₁]) = .error e) ∧
    ∀ items, fs.search cfg.fuel ⟨tree, a, A, t, T, o, O, g, G⟩ = .ok items →
      (∀ vs, decodeItems cfg.build items = .ok vs → evalExpr cfg st (.call f [e₀, e₁]) = .ok (.array vs false)) ∧
      ∀ e, decodeItems cfg.build items = .error e → evalExpr cfg st (.call f [e₀, e₁]) = .error e := by
  rw [evalExpr_call cfg st f .search _ hf]
  simp only [List.map_cons, List.map_nil, h₀, h₁]
  have hn : (⟨s!' "_btrfs_ioctl_search_key", k.key, k.fields⟩ : StructVal).name == BTRFS_SEARCH_KEY.name :=
    show (s!' "_btrfs_ioctl_search_key" == BTRFS_SEARCH_KEY.name) = true by decide
  simp only [List.mem_cons, forall_eq_or_imp, List.not_mem_nil, false_implies, implies_true, and_true] at hr
  obtain ⟨⟨r1, r2, r3, r4, r5, r6, r7⟩, r8, r9⟩ := hr
  have key : searchArgs tree ⟨s!' "_btrfs_ioctl_search_key", k.key, k.fields⟩ =
      .ok ⟨tree, a, A, t, T, o, O, g, G⟩ := by
    have hk := hk.rename s!' "_btrfs_ioctl_search_key"
    simp only [searchArgs, keyArg, hk.minObjectid, hk.maxObjectid, hk.minType, hk.maxType, hk.minOffset,
      hk.maxOffset, hk.minTransid, hk.maxTransid, Value.asInteger, bind, Except.bind, tryUnsigned_nat r1,
      tryUnsigned_nat r2, tryUnsigned_nat r3, tryUnsigned_nat r4, tryUnsigned_nat r5, tryUnsigned_nat r6,
      tryUnsigned_nat r7, tryUnsigned_nat r8, tryUnsigned_nat r9]
  have hs : callFn cfg st.fs (.ok (.func .search)) [.ok (.int (tree : Int)),
      .ok (.struct s!' "_btrfs_ioctl_search_key" k.key k.fields)] =
      (do
        let items ← fs.search cfg.fuel ⟨tree, a, A, t, T, o, O, g, G⟩
        let vs ← decodeItems cfg.build items
        .ok (.array vs false)) := by
    rw [callFn_search]
    simp only [searchFn, hfs, Value.asInteger, Value.asStruct, hn, key, ensure, bind, Except.bind, List.length_cons,
      List.length_nil]
    rfl
  rw [hs]
  refine ⟨?_, ?_⟩
  · intro e h; rw [h]; rfl
  · intro items h
    rw [h]
    refine ⟨?_, ?_⟩
    · intro vs h'; simp only [bind, Except.bind, h']
    · intro e h'; simp only [bind, Except.bind, h']

/-- **C49**: other arguments are an error too: not exactly two, a tree id that is not an integer, or a
second argument that is not a search key -/
theorem C49_argument_kinds (cfg : Cfg) (st : State) (f : Expr) (args : List Expr)
    (hf : evalExpr cfg st f = .ok (.func .search))
    (h : ¬ ∃ e₀ e₁ tree key fields, args = [e₀, e₁] ∧ evalExpr cfg st e₀ = .ok (.int tree) ∧
      evalExpr cfg st e₁ = .ok (.struct s!' "_btrfs_ioctl_search_key" key fields)) :
    ∃ e, evalExpr cfg st (.call f args) = .error e := by
  cases hv : evalExpr cfg st (.call f args) with
  | error e => exact ⟨e, rfl⟩
  | ok v =>
    obtain ⟨e₀, e₁, tree, k, fs, sa, items, vs, rfl, h0, h1, -⟩ := search_inv cfg st f args v hf hv
    exact absurd ⟨e₀, e₁, tree, k.key, k.fields, rfl, h0, h1⟩ h

/-! ### C68: the names of a fresh interpreter -/

theorem foldl_set_get {α T : Type} (key : α → Str) (val : α → T) : ∀ (l : List α) (s : Scope T) (a : α),
    (l.map key).Nodup → a ∈ l → (l.foldl (fun s a => s.set (key a) (val a)) s) (key a) = some (val a) := by
  have skip : ∀ (l : List α) (s : Scope T) (x : Str), x ∉ l.map key →
      (l.foldl (fun s a => s.set (key a) (val a)) s) x = s x := by
    intro l
    induction l with
    | nil => intros; rfl
    | cons b l ih =>
      intro s x hx
      simp only [List.map_cons, List.mem_cons, not_or] at hx
      rw [List.foldl_cons, ih _ x hx.2]
      simp only [Scope.set, hx.1, if_false]
  intro l
  induction l with
  | nil => intro s a _ h; exact absurd h List.not_mem_nil
  | cons b l ih =>
    intro s a hd h
    simp only [List.map_cons, List.nodup_cons] at hd
    rw [List.foldl_cons]
    rcases List.mem_cons.1 h with rfl | h
    · rw [skip l _ _ hd.1]
      simp [Scope.set]
    · exact ih _ a hd.2 h

theorem foldl_set_skip {α T : Type} (key : α → Str) (val : α → T) : ∀ (l : List α) (s : Scope T) (x : Str),
    x ∉ l.map key → (l.foldl (fun s a => s.set (key a) (val a)) s) x = s x := by
  intro l
  induction l with
  | nil => intros; rfl
  | cons b l ih =>
    intro s x hx
    simp only [List.map_cons, List.mem_cons, not_or] at hx
    rw [List.foldl_cons, ih _ x hx.2]
    simp only [Scope.set, hx.1, if_false]

set_option maxRecDepth 100000 in
theorem constants_nodup : (constants.map (·.1)).Nodup := by decide +kernel

theorem functions_nodup : (functions.map Function.display).Nodup := by decide

set_option maxRecDepth 100000 in
theorem constants_not_functions : ∀ c ∈ constants, c.1 ∉ functions.map Function.display := by decide +kernel

theorem initialScope_const {T : Type} (oc : Int → T) (of : Function → T) (n : Str) (v : Int)
    (h : (n, v) ∈ constants) : initialScope oc of n = some (oc v) := by
  unfold initialScope
  rw [foldl_set_skip Function.display of functions _ n (constants_not_functions _ h)]
  exact foldl_set_get (fun c : Str × Int => c.1) (fun c => oc c.2) constants Scope.empty (n, v) constants_nodup h

theorem initialScope_func {T : Type} (oc : Int → T) (of : Function → T) (f : Function) :
    initialScope oc of f.display = some (of f) := by
  unfold initialScope
  exact foldl_set_get Function.display of functions _ f functions_nodup (by cases f <;> decide)

theorem single_get {T : Type} (s : Scope T) (x : Str) (v : T) (h : s x = some v) : Vars.get [s] x = some v := by
  simp only [Vars.get, h]

set_option maxRecDepth 100000 in
theorem header_constants : ∀ c ∈ header, c ∈ constants ∨ c.1 = s!' "BTRFS_BALANCE_OBJECTID" ∨
    c.1 = s!' "BTRFS_BLOCK_FLAG_FULL_BACKREF" := by decide +kernel

/-- **C68**, all but two constants of the kernel header: each is a variable of a fresh interpreter, with the
header's value, known to the analyzer. Missing: `BTRFS_BALANCE_OBJECTID`, which has another value, and
`BTRFS_BLOCK_FLAG_FULL_BACKREF`, which has another name (`C68_negation_*`). -/
theorem C68_constants_partial (cfg : Cfg) (room : Option Nat) (n : Str) (v : Int) (h : (n, v) ∈ header)
    (h1 : n ≠ s!' "BTRFS_BALANCE_OBJECTID") (h2 : n ≠ s!' "BTRFS_BLOCK_FLAG_FULL_BACKREF") :
    evalExpr cfg (State.new cfg room) (.ident n) = .ok (.int v) ∧
    analyzeExpr AState.new.vars (.ident n) = .ok () := by
  have hc : (n, v) ∈ constants := by
    rcases header_constants _ h with h | h | h
    · exact h
    · exact absurd h h1
    · exact absurd h h2
  have hg : (State.new cfg room).vars.get n = some (.int v) :=
    single_get _ n _ (initialScope_const Value.int Value.func n v hc)
  have ha : AState.new.vars.get n = some () :=
    single_get _ n _ (initialScope_const (fun _ => ()) (fun _ => ()) n v hc)
  refine ⟨?_, ?_⟩
  · simp only [evalExpr, hg, orErr]
  · simp only [analyzeExpr, ha]

/-- **C68**: the functions of the help text are there, under their names -/
theorem C68_functions (cfg : Cfg) (room : Option Nat) (n : Str) (f : Function)
    (h : (n, f) ∈ documentedFunctions) :
    evalExpr cfg (State.new cfg room) (.ident n) = .ok (.func f) ∧
    analyzeExpr AState.new.vars (.ident n) = .ok () := by
  have hd : ∀ p ∈ documentedFunctions, p.1 = p.2.display := by decide
  have hn : n = f.display := hd _ h
  subst hn
  have hg : (State.new cfg room).vars.get f.display = some (.func f) :=
    single_get _ _ _ (initialScope_func Value.int Value.func f)
  have ha : AState.new.vars.get f.display = some () :=
    single_get _ _ _ (initialScope_func (fun _ => ()) (fun _ => ()) f)
  refine ⟨?_, ?_⟩
  · simp only [evalExpr, hg, orErr]
  · simp only [analyzeExpr, ha]

/-- **C68**: each of the seven functions is documented -/
theorem C68_functions_complete (f : Function) : ∃ n, (n, f) ∈ documentedFunctions := by
  refine ⟨f.display, ?_⟩
  cases f <;> decide

set_option maxRecDepth 100000 in
/-- **C68 is false of the code** for the balance objectid: the header says `-4` (as an unsigned 64-bit
number), the interpreter says 4, so the documented way to look for a balance item looks elsewhere. -/
theorem C68_negation_balance (cfg : Cfg) (room : Option Nat) :
    (s!' "BTRFS_BALANCE_OBJECTID", (2 ^ 64 - 4 : Int)) ∈ header ∧
    evalExpr cfg (State.new cfg room) (.ident s!' "BTRFS_BALANCE_OBJECTID") = .ok (.int 4) := by
  refine ⟨by decide +kernel, ?_⟩
  have hg : (State.new cfg room).vars.get s!' "BTRFS_BALANCE_OBJECTID" = some (.int 4) :=
    single_get _ _ _ (initialScope_const Value.int Value.func _ 4 (by decide +kernel))
  simp only [evalExpr, hg, orErr]

set_option maxRecDepth 100000 in
/-- **C68 is false of the code** for one name: the header's `BTRFS_BLOCK_FLAG_FULL_BACKREF` is unknown; the
interpreter has it as `BTRFS_BLOCK_FLAG_F_BACKREF`. -/
theorem C68_negation_full_backref (cfg : Cfg) (room : Option Nat) :
    (s!' "BTRFS_BLOCK_FLAG_FULL_BACKREF", (2 ^ 8 : Int)) ∈ header ∧
    evalExpr cfg (State.new cfg room) (.ident s!' "BTRFS_BLOCK_FLAG_FULL_BACKREF") =
      .error (.err (.unknownVar s!' "BTRFS_BLOCK_FLAG_FULL_BACKREF")) ∧
    evalExpr cfg (State.new cfg room) (.ident s!' "BTRFS_BLOCK_FLAG_F_BACKREF") = .ok (.int (2 ^ 8)) := by
  refine ⟨by decide +kernel, ?_, ?_⟩
  · have hg : (State.new cfg room).vars.get s!' "BTRFS_BLOCK_FLAG_FULL_BACKREF" = none := by
      have : ¬ defined [initialScope Value.int Value.func] s!' "BTRFS_BLOCK_FLAG_FULL_BACKREF" := by
        rw [defined_single]
        unfold initialScope
        rw [foldl_set_names, foldl_set_names]
        have h1 : ¬ s!' "BTRFS_BLOCK_FLAG_FULL_BACKREF" ∈ constants.map (·.1) := by decide +kernel
        have h2 : ¬ s!' "BTRFS_BLOCK_FLAG_FULL_BACKREF" ∈ functions.map Function.display := by decide
        simp [Scope.empty, h1, h2]
      unfold defined at this
      exact Classical.not_not.1 this
    simp only [evalExpr, hg, orErr]
  · have hg : (State.new cfg room).vars.get s!' "BTRFS_BLOCK_FLAG_F_BACKREF" = some (.int (2 ^ 8)) :=
      single_get _ _ _ (initialScope_const Value.int Value.func _ (2 ^ 8) (by decide +kernel))
    simp only [evalExpr, hg, orErr]

end Btrd
