/-
C75: the bundled scripts do what they are for, on every filesystem.
-/
import Verif.Model.Scripts
import Verif.Spec.Scripts
import Verif.Props.Search
import Verif.Props.Display

namespace Btrd
open Spec

/-- what `example.btrd` parses to -/
def exampleProgram : List Stmt :=
  [.filesystem (.str s!' "/mnt/btrfs"),
   .assign (.ident s!' "k") (.call (.ident s!' "key")
     [.ident s!' "BTRFS_DEV_TREE_OBJECTID", .ident s!' "BTRFS_ROOT_ITEM_KEY", .int 0, .int 0]),
   .assign (.ident s!' "res") (.call (.ident s!' "search") [.ident s!' "BTRFS_ROOT_TREE_OBJECTID", .ident s!' "k"]),
   .assign (.ident s!' "i") (.int 0),
   .for (.ident s!' "v") (.ident s!' "res")
    [.ite (.bin .eq (.ident s!' "i") (.int 3)) [.brk] [],
     .print (.index (.ident s!' "res") (.ident s!' "i")),
     .assign (.ident s!' "i") (.bin .plus (.ident s!' "i") (.int 1))]]

set_option maxRecDepth 1000000 in
theorem example_parses : parse (stripComments exampleScript) = some exampleProgram := by
  with_unfolding_all rfl

set_option maxRecDepth 1000000 in
theorem example_analyzes : (analyzeStmts exampleProgram AState.new).2 = .ok () := by
  with_unfolding_all rfl

/-- the interpreter's first scope -/
abbrev scope0 : Scope Value := initialScope Value.int Value.func

/-- the body of the loop of `example.btrd` -/
def exampleBody : List Stmt :=
  [.ite (.bin .eq (.ident s!' "i") (.int 3)) [.brk] [],
   .print (.index (.ident s!' "res") (.ident s!' "i")),
   .assign (.ident s!' "i") (.bin .plus (.ident s!' "i") (.int 1))]

theorem shown_total : ∀ vs : List Value, ∃ t, Shown vs t
  | [] => ⟨[], .nil⟩
  | v :: vs => by
    obtain ⟨t, h⟩ := C42_display_total v
    obtain ⟨ts, hs⟩ := shown_total vs
    exact ⟨_, .cons h hs⟩

/-- not one of the values that `print` treats in its own way (strings and histograms) -/
def IsStruct : Value → Prop
  | .struct _ _ _ => True
  | _ => False

/-! ### Running statements one by one -/

theorem run_ok {cfg : Cfg} {s : Stmt} {ss : List Stmt} {st st' : State} (h : evalStmt cfg s st = (st', .ok)) :
    evalStmts cfg (s :: ss) st = evalStmts cfg ss st' := by
  simp only [evalStmts, h]

theorem run_stop {cfg : Cfg} {s : Stmt} {ss : List Stmt} {st st' : State} {r : IRes}
    (h : evalStmt cfg s st = (st', r)) (hr : r ≠ .ok) : evalStmts cfg (s :: ss) st = (st', r) := by
  simp only [evalStmts, h]

theorem run_if {cfg : Cfg} {c : Expr} {t f : List Stmt} {st st' : State} {S : Scope Value} {vs : Vars Value} {b : Bool}
    {r : IRes} (hc : evalCond cfg { st with vars := st.vars.push } c = .ok b)
    (hb : evalStmts cfg (if b then t else f) { st with vars := st.vars.push } = (st', r)) (hv : st'.vars = S :: vs) :
    evalStmt cfg (.ite c t f) st = ({ st' with vars := vs }, r) := by
  simp only [evalStmt, inScope, hc]
  cases b
  · simp only [Bool.false_eq_true, if_false] at hb
    simp only [hb, hv, Vars.pop]
  · simp only [if_true] at hb
    simp only [hb, hv, Vars.pop]

theorem run_then {cfg : Cfg} {c : Expr} {t f : List Stmt} {st st' : State} {S : Scope Value} {vs : Vars Value}
    {r : IRes} (hb : evalStmts cfg t { st with vars := st.vars.push } = (st', r)) (hv : st'.vars = S :: vs)
    (hc : evalCond cfg { st with vars := st.vars.push } c = .ok true) :
    evalStmt cfg (.ite c t f) st = ({ st' with vars := vs }, r) := run_if hc hb hv

theorem for_next {x : Str} {body : State → State × IRes} {v : Value} {left : List Value} {st st' : State}
    {vs : Vars Value} {r : IRes} (hi : st.vars.insert x v = .ok vs) (hb : body { st with vars := vs } = (st', r))
    (hr : r = .ok ∨ r = .cont) : forLoop x body (v :: left) st = forLoop x body left st' := by
  simp only [forLoop, hi, hb]
  rcases hr with rfl | rfl <;> rfl

theorem for_break {x : Str} {body : State → State × IRes} {v : Value} {left : List Value} {st st' : State}
    {vs : Vars Value} (hi : st.vars.insert x v = .ok vs) (hb : body { st with vars := vs } = (st', .brk)) :
    forLoop x body (v :: left) st = (st', .ok) := by
  simp only [forLoop, hi, hb]

theorem for_fail {x : Str} {body : State → State × IRes} {v : Value} {left : List Value} {st st' : State}
    {vs : Vars Value} {f : Fail} (hi : st.vars.insert x v = .ok vs)
    (hb : body { st with vars := vs } = (st', .fail f)) :
    forLoop x body (v :: left) st = (st', .fail f) := by
  simp only [forLoop, hi, hb]

theorem run_assign {cfg : Cfg} {x : Str} {e : Expr} {st : State} {v : Value} {vs : Vars Value}
    (he : evalExpr cfg st e = .ok v) (hi : st.vars.insert x v = .ok vs) :
    evalStmt cfg (.assign (.ident x) e) st = ({ st with vars := vs }, .ok) := by
  simp only [evalStmt, evalAssign, he, hi]

/-- a variable of the innermost scope, or of none, is assigned in the innermost scope -/
theorem insert_inner {T : Type} {A : Scope T} {rest : Vars T} {x : Str} (v : T) (h : rest.overwrite x v = none) :
    Vars.insert (A :: rest) x v = .ok (A.set x v :: rest) := by
  simp only [Vars.insert, Vars.overwrite, h]
  cases A x <;> rfl

theorem indexOp_nat {vec : List Value} {k : Bool} {n : Nat} {v : Value} (h : vec[n]? = some v) (hn : n < 2 ^ 64) :
    indexOp (.ok (.array vec k)) (.ok (.int n)) = .ok v := by
  have := tryUnsigned_nat hn
  simp only [indexOp, bind, Except.bind, Value.asVec, Value.asInteger, this, h, orErr]

theorem checkedI128_ok {e : Err} {i : Int} (h : inI128 i = true) : checkedI128 e i = .ok (.int i) := by
  rw [checkedI128, if_pos h]

theorem plus_ints (i j : Int) : binop .plus (.ok (.int i)) (.ok (.int j)) =
    checkedI128 (.overflow i s!' "+" j) (i + j) := rfl

theorem example_body (cfg : Cfg) (vs : List Value) (n : Nat) (v : Value) (hv : vs[n]? = some v) (hs : IsStruct v)
    (t : Str) (ht : v.display = .ok t) (hn : n < 3) (A B : Scope Value) (out : Str) (fs : Option Fs)
    (hAi : A s!' "i" = none) (hAr : A s!' "res" = none) (hBi : B s!' "i" = some (.int n))
    (hBr : B s!' "res" = some (.array vs false)) :
    evalStmts cfg exampleBody ⟨⟨out, none⟩, [A, B], fs⟩ =
      (⟨⟨out ++ (t ++ ['\n']), none⟩, [A, B.set s!' "i" (.int (n + 1 : Nat))], fs⟩, .ok) := by
  have hget : Vars.get [A, B] s!' "i" = some (.int n) := by simp only [Vars.get, hAi, hBi]
  have hget' : Vars.get (Vars.push [A, B]) s!' "i" = some (.int n) := hget
  have hgetr : Vars.get [A, B] s!' "res" = some (.array vs false) := by simp only [Vars.get, hAr, hBr]
  have hif : evalStmt cfg (.ite (.bin .eq (.ident s!' "i") (.int 3)) [.brk] []) ⟨⟨out, none⟩, [A, B], fs⟩ =
      (⟨⟨out, none⟩, [A, B], fs⟩, .ok) := by
    refine run_if (b := false) ?_ rfl rfl
    have : ((n : Int) == 3) = false := by simp; omega
    simp only [evalCond, evalExpr, hget', orErr, binop, bind, Except.bind, Value.beq, Value.asBoolean, this]
  have hprint : evalStmt cfg (.print (.index (.ident s!' "res") (.ident s!' "i"))) ⟨⟨out, none⟩, [A, B], fs⟩ =
      (⟨⟨out ++ (t ++ ['\n']), none⟩, [A, B], fs⟩, .ok) := by
    have hidx : evalExpr cfg ⟨⟨out, none⟩, [A, B], fs⟩ (.index (.ident s!' "res") (.ident s!' "i")) = .ok v := by
      simp only [evalExpr, hget, hgetr, orErr]
      exact indexOp_nat hv (Nat.lt_trans hn (by decide))
    have hp : printText cfg v = .ok t := by
      cases v <;> simp only [IsStruct] at hs
      exact ht
    simp only [evalStmt, evalPrint, hidx, hp, State.write, Sink.write]
  have hinc : ∀ out, evalStmt cfg (.assign (.ident s!' "i") (.bin .plus (.ident s!' "i") (.int 1)))
      ⟨⟨out, none⟩, [A, B], fs⟩ = (⟨⟨out, none⟩, [A, B.set s!' "i" (.int (n + 1 : Nat))], fs⟩, .ok) := by
    intro out
    have hr : inI128 ((n : Int) + 1) := by
      have : n = 0 ∨ n = 1 ∨ n = 2 := by omega
      rcases this with rfl | rfl | rfl <;> decide
    refine run_assign (v := .int (n + 1 : Nat)) ?_ ?_
    · simp only [evalExpr, hget, orErr]
      rw [plus_ints, checkedI128_ok hr]
      rfl
    · simp only [Vars.insert, Vars.overwrite, hAi, hBi]
  rw [exampleBody, run_ok hif, run_ok hprint, run_ok (hinc _), evalStmts]

theorem example_break (cfg : Cfg) (A B : Scope Value) (out : Str) (fs : Option Fs)
    (hAi : A s!' "i" = none) (hBi : B s!' "i" = some (.int 3)) :
    evalStmts cfg exampleBody ⟨⟨out, none⟩, [A, B], fs⟩ = (⟨⟨out, none⟩, [A, B], fs⟩, .brk) := by
  have hget' : Vars.get (Vars.push [A, B]) s!' "i" = some (.int 3) := by
    simp only [Vars.push, Vars.get, Scope.empty, hAi, hBi]
  refine run_stop ?_ (by decide)
  refine run_if (b := true) ?_ rfl rfl
  simp only [evalCond, evalExpr, hget', orErr, binop, bind, Except.bind, Value.beq, Value.asBoolean]
  rfl

theorem example_loop (cfg : Cfg) (vs : List Value) (hvs : ∀ v ∈ vs, IsStruct v) :
    ∀ (left : List Value) (n : Nat) (A B : Scope Value) (out : Str) (fs : Option Fs) (t : Str), n ≤ 3 →
      vs.drop n = left →
      A s!' "i" = none → A s!' "res" = none → B s!' "i" = some (.int n) → B s!' "res" = some (.array vs false) →
      B s!' "v" = none → Shown (left.take (3 - n)) t →
      ∃ A' B', forLoop s!' "v" (evalStmts cfg exampleBody) left ⟨⟨out, none⟩, [A, B], fs⟩ =
        (⟨⟨out ++ t, none⟩, [A', B'], fs⟩, .ok) := by
  intro left
  induction left with
  | nil =>
    intro n A B out fs t _ _ _ _ _ _ _ ht
    simp only [List.take_nil] at ht
    cases ht
    exact ⟨A, B, by simp [forLoop]⟩
  | cons v left ih =>
    intro n A B out fs t hn hd hAi hAr hBi hBr hBv ht
    have hins : Vars.insert [A, B] s!' "v" v = .ok [A.set s!' "v" v, B] :=
      insert_inner v (by simp only [Vars.overwrite, hBv])
    have hA'i : A.set s!' "v" v s!' "i" = none := by rw [set_other _ _ (by decide)]; exact hAi
    have hA'r : A.set s!' "v" v s!' "res" = none := by rw [set_other _ _ (by decide)]; exact hAr
    by_cases h3 : n = 3
    · subst h3
      simp only [Nat.sub_self, List.take_zero] at ht
      cases ht
      exact ⟨_, _, by rw [for_break hins (example_break cfg _ _ _ _ hA'i hBi), List.append_nil]⟩
    · have h3' : 3 - n = (3 - (n + 1)) + 1 := by omega
      rw [h3', List.take_succ_cons] at ht
      cases ht with
      | cons hv hs =>
        rename_i tv ts
        have hnth : vs[n]? = some v := by
          have := congrArg (·[0]?) hd
          simpa using this
        rw [for_next hins (example_body cfg vs n v hnth (hvs v (List.mem_of_getElem? hnth)) tv hv (by omega) _ _ _ _
          hA'i hA'r hBi hBr) (.inl rfl)]
        obtain ⟨A'', B'', h⟩ := ih (n + 1) _ (B.set s!' "i" (.int (n + 1 : Nat))) (out ++ (tv ++ ['\n'])) fs ts
          (by omega) (by rw [← List.drop_drop, hd]; rfl) hA'i hA'r (set_same _ _ _)
          (by rw [set_other _ _ (by decide)]; exact hBr) (by rw [set_other _ _ (by decide)]; exact hBv) hs
        exact ⟨A'', B'', by rw [h]; simp⟩

theorem decodeItems_structs (b : Build) : ∀ (items : List Item) (vs : List Value), decodeItems b items = .ok vs →
    ∀ v ∈ vs, IsStruct v
  | [], vs, h, v, hv => by
    simp only [decodeItems, Except.ok.injEq] at h
    subst h
    exact absurd hv List.not_mem_nil
  | (hd, bytes) :: its, vs, h, v, hv => by
    simp only [decodeItems] at h
    split at h
    · obtain ⟨sv, h1, hh⟩ := bind_ok h
      obtain ⟨ws, h2, hh⟩ := bind_ok hh
      simp only [Except.ok.injEq] at hh
      subst hh
      rcases List.mem_cons.1 hv with rfl | hv
      · trivial
      · exact decodeItems_structs b its ws h2 v hv
    · exact decodeItems_structs b its vs h v hv

/-- the search of `example.btrd`: the root tree (1), from the root item (132) of the device tree (4) on -/
def exampleSearch : SearchArgs := ⟨1, 4, 2 ^ 64 - 1, 132, 2 ^ 8 - 1, 0, 2 ^ 64 - 1, 0, 2 ^ 64 - 1⟩

theorem scope0_const {n : Str} {v : Int} (h : (n, v) ∈ constants) : scope0 n = some (.int v) :=
  initialScope_const Value.int Value.func n v h

theorem scope0_func (f : Function) : scope0 f.display = some (.func f) := initialScope_func Value.int Value.func f

set_option maxRecDepth 100000 in
/-- a name that is neither a constant nor a function -/
theorem scope0_none {x : Str} (h1 : x ∉ constants.map (·.1)) (h2 : x ∉ functions.map Function.display) :
    scope0 x = none := by
  unfold scope0 initialScope
  rw [foldl_set_skip Function.display Value.func functions _ x h2]
  rw [foldl_set_skip (fun c : Str × Int => c.1) (fun c => Value.int c.2) constants _ x h1]
  rfl

theorem mount_path : (Value.str (utf8 s!' "/mnt/btrfs")).asString true = .ok s!' "/mnt/btrfs" := by rfl

/-- the search key of `example.btrd` -/
def exampleKey : StructVal where
  name := s!' "_btrfs_ioctl_search_key"
  key := none
  fields :=
    [(s!' "min_objectid", .int 4), (s!' "max_objectid", .int (2 ^ 64 - 1)),
     (s!' "min_type", .int 132), (s!' "max_type", .int (2 ^ 8 - 1)),
     (s!' "min_offset", .int 0), (s!' "max_offset", .int (2 ^ 64 - 1)),
     (s!' "min_transid", .int 0), (s!' "max_transid", .int (2 ^ 64 - 1))]

theorem exampleKey_values : KeyValues exampleKey 4 (2 ^ 64 - 1 : Nat) 132 (2 ^ 8 - 1 : Nat) 0 (2 ^ 64 - 1 : Nat) 0 (2 ^ 64 - 1 : Nat) := by
  constructor <;> rfl

set_option maxRecDepth 100000 in
/-- `example.btrd` up to its search -/
theorem example_start (cfg : Cfg) (k : Kernel) (fs0 : Option Fs)
    (hd : cfg.host.openDir s!' "/mnt/btrfs" = some ⟨some 0x9123683e, k⟩) (ss : List Stmt) :
    evalStmts cfg (exampleProgram.take 2 ++ ss) ⟨⟨[], none⟩, [scope0], fs0⟩ =
      evalStmts cfg ss ⟨⟨[], none⟩,
        [scope0.set s!' "k" (.struct s!' "_btrfs_ioctl_search_key" none exampleKey.fields)], some (.mounted k)⟩ := by
  have h1 : evalStmt cfg (.filesystem (.str s!' "/mnt/btrfs")) ⟨⟨[], none⟩, [scope0], fs0⟩ =
      (⟨⟨[], none⟩, [scope0], some (.mounted k)⟩, .ok) := by
    have := (C63_directory_iff cfg.host _ _ hd (.mounted k)).2 ⟨rfl, rfl⟩
    simp only [evalStmt, evalFilesystem, evalExpr, mount_path, this]
  have h2 : evalStmt cfg (.assign (.ident s!' "k") (.call (.ident s!' "key")
      [.ident s!' "BTRFS_DEV_TREE_OBJECTID", .ident s!' "BTRFS_ROOT_ITEM_KEY", .int 0, .int 0]))
      ⟨⟨[], none⟩, [scope0], some (.mounted k)⟩ = (⟨⟨[], none⟩, [scope0.set s!' "k"
        (.struct s!' "_btrfs_ioctl_search_key" none exampleKey.fields)], some (.mounted k)⟩, .ok) := by
    have hk : Vars.get [scope0] s!' "key" = some (.func .key) := single_get _ _ _ (scope0_func .key)
    have hdv : Vars.get [scope0] s!' "BTRFS_DEV_TREE_OBJECTID" = some (.int 4) :=
      single_get _ _ _ (scope0_const (by decide +kernel))
    have hri : Vars.get [scope0] s!' "BTRFS_ROOT_ITEM_KEY" = some (.int 132) :=
      single_get _ _ _ (scope0_const (by decide +kernel))
    refine run_assign ?_ (insert_inner _ rfl)
    refine C47_key_fields cfg _ _ _ _ _ _ 4 132 0 0 ?_ ?_ ?_ ?_ ?_
    · simp only [evalExpr, hk, orErr]
    · simp only [evalExpr, hdv, orErr]
    · simp only [evalExpr, hri, orErr]
    · simp only [evalExpr]
    · simp only [evalExpr]
  change evalStmts cfg (_ :: _ :: ss) _ = _
  rw [run_ok h1, run_ok h2]

set_option maxRecDepth 100000 in
theorem name_not_builtin (x : Str) (h : (x ∉ constants.map (·.1) ∧ x ∉ functions.map Function.display)) :
    scope0 x = none := scope0_none h.1 h.2

set_option maxRecDepth 100000 in
theorem example_names : scope0 s!' "i" = none ∧ scope0 s!' "res" = none ∧ scope0 s!' "v" = none := by
  refine ⟨name_not_builtin _ ?_, name_not_builtin _ ?_, name_not_builtin _ ?_⟩ <;> decide +kernel

set_option maxRecDepth 100000 in
/-- the search of `example.btrd` -/
theorem example_search (cfg : Cfg) (k : Kernel) (st : State) (hst : st = ⟨⟨[], none⟩,
        [scope0.set s!' "k" (.struct s!' "_btrfs_ioctl_search_key" none exampleKey.fields)], some (.mounted k)⟩) :
    (∀ e, Fs.search cfg.fuel (.mounted k) exampleSearch = .error e →
      evalExpr cfg st (.call (.ident s!' "search") [.ident s!' "BTRFS_ROOT_TREE_OBJECTID", .ident s!' "k"]) = .error e) ∧
    ∀ items, Fs.search cfg.fuel (.mounted k) exampleSearch = .ok items →
      (∀ vs, decodeItems cfg.build items = .ok vs →
        evalExpr cfg st (.call (.ident s!' "search") [.ident s!' "BTRFS_ROOT_TREE_OBJECTID", .ident s!' "k"]) =
          .ok (.array vs false)) ∧
      ∀ e, decodeItems cfg.build items = .error e →
        evalExpr cfg st (.call (.ident s!' "search") [.ident s!' "BTRFS_ROOT_TREE_OBJECTID", .ident s!' "k"]) =
          .error e := by
  subst hst
  have hs : scope0 s!' "search" = some (.func .search) := scope0_func .search
  have ht : scope0 s!' "BTRFS_ROOT_TREE_OBJECTID" = some (.int 1) := scope0_const (by decide +kernel)
  refine C49_in_range cfg _ _ _ _ (.mounted k) 1 4 (2 ^ 64 - 1) 132 (2 ^ 8 - 1) 0 (2 ^ 64 - 1) 0 (2 ^ 64 - 1) exampleKey
    ?_ rfl ?_ ?_ exampleKey_values (by decide)
  · simp only [evalExpr, Vars.get, set_other _ _ (show s!' "search" ≠ s!' "k" by decide), hs, orErr]
  · simp only [evalExpr, Vars.get, set_other _ _ (show s!' "BTRFS_ROOT_TREE_OBJECTID" ≠ s!' "k" by decide), ht, orErr]
    rfl
  · simp only [evalExpr, Vars.get, set_same, orErr]
    rfl

/-- `example.btrd` after its search -/
theorem example_finish (cfg : Cfg) (k : Kernel) (keyv : Value) (vs : List Value) (hvs : ∀ v ∈ vs, IsStruct v) (t : Str)
    (ht : Shown (vs.take 3) t) :
    ∃ vars, evalStmts cfg (exampleProgram.drop 3) ⟨⟨[], none⟩, [(scope0.set s!' "k" keyv).set s!' "res"
      (.array vs false)], some (.mounted k)⟩ = (⟨⟨t, none⟩, vars, some (.mounted k)⟩, .ok) := by
  obtain ⟨ni, nr, nv⟩ := example_names
  have h1 : evalStmt cfg (.assign (.ident s!' "i") (.int 0)) ⟨⟨[], none⟩, [(scope0.set s!' "k" keyv).set s!' "res"
      (.array vs false)], some (.mounted k)⟩ = (⟨⟨[], none⟩, [((scope0.set s!' "k" keyv).set s!' "res"
      (.array vs false)).set s!' "i" (.int 0)], some (.mounted k)⟩, .ok) :=
    run_assign (by simp only [evalExpr]) (insert_inner _ rfl)
  generalize hB : ((scope0.set s!' "k" keyv).set s!' "res" (.array vs false)).set s!' "i" (.int 0) = B at h1
  have hBi : B s!' "i" = some (.int (0 : Nat)) := by rw [← hB]; exact set_same _ _ _
  have hBr : B s!' "res" = some (.array vs false) := by
    rw [← hB, set_other _ _ (by decide)]; exact set_same _ _ _
  have hBv : B s!' "v" = none := by
    rw [← hB, set_other _ _ (by decide), set_other _ _ (by decide), set_other _ _ (by decide)]
    exact nv
  obtain ⟨A', B', hl⟩ := example_loop cfg vs hvs vs 0 Scope.empty B [] (some (.mounted k)) t (by decide) rfl rfl rfl
    hBi hBr hBv ht
  refine ⟨[B'], ?_⟩
  change evalStmts cfg (_ :: _) _ = _
  rw [run_ok h1]
  have hr : evalExpr cfg ⟨⟨[], none⟩, [Scope.empty, B], some (.mounted k)⟩ (.ident s!' "res") =
      .ok (.array vs false) := by
    simp only [evalExpr, Vars.get, Scope.empty, hBr, orErr]
  have h2 : evalStmt cfg (.for (.ident s!' "v") (.ident s!' "res") exampleBody)
      ⟨⟨[], none⟩, [B], some (.mounted k)⟩ = (⟨⟨t, none⟩, [B'], some (.mounted k)⟩, .ok) := by
    simp only [evalStmt, inScope, Vars.push, evalFor, hr, Value.asVec, hl, Vars.pop, List.nil_append]
  exact (run_ok h2).trans (by rw [evalStmts])

theorem example_run (cfg : Cfg) (room : Option Nat) : scriptRun cfg room exampleScript =
    (⟨(analyzeStmts exampleProgram AState.new).1,
      (evalStmts { cfg with interactive := false } exampleProgram (State.new cfg room)).1⟩,
     (evalStmts { cfg with interactive := false } exampleProgram (State.new cfg room)).2.toEvalResult) := by
  have ha := example_analyzes
  simp only [scriptRun, runtimeEval, example_parses, RState.new]
  revert ha
  generalize analyzeStmts exampleProgram AState.new = a
  obtain ⟨sem, r⟩ := a
  intro ha
  simp only at ha
  subst ha
  simp only [evalProgram]

theorem example_run_search (cfg : Cfg) (k : Kernel)
    (hd : cfg.host.openDir s!' "/mnt/btrfs" = some ⟨some 0x9123683e, k⟩) :
    evalStmts cfg exampleProgram (State.new cfg none) =
      evalStmts cfg (exampleProgram.drop 2) ⟨⟨[], none⟩,
        [scope0.set s!' "k" (.struct s!' "_btrfs_ioctl_search_key" none exampleKey.fields)], some (.mounted k)⟩ :=
  example_start cfg k _ hd (exampleProgram.drop 2)

/-- **C75**: with a btrfs filesystem mounted at `/mnt/btrfs`, the bundled example looks up the root tree from
the device tree's root item on, prints the first three results, one after another, and succeeds. -/
theorem C75_example_prints_three (cfg : Cfg) (k : Kernel)
    (hd : cfg.host.openDir s!' "/mnt/btrfs" = some ⟨some 0x9123683e, k⟩) (items : List Item) (vs : List Value)
    (hs : Fs.search cfg.fuel (.mounted k) exampleSearch = .ok items) (hv : decodeItems cfg.build items = .ok vs) :
    (scriptRun cfg none exampleScript).2 = .ok ∧
    Shown (vs.take 3) (scriptRun cfg none exampleScript).1.ev.sink.out := by
  obtain ⟨t, ht⟩ := shown_total (vs.take 3)
  obtain ⟨vars, hf⟩ := example_finish { cfg with interactive := false } k
    (.struct s!' "_btrfs_ioctl_search_key" none exampleKey.fields) vs (decodeItems_structs _ _ _ hv) t ht
  have key : evalStmts { cfg with interactive := false } exampleProgram (State.new cfg none) =
      (⟨⟨t, none⟩, vars, some (.mounted k)⟩, .ok) := by
    rw [← hf]
    refine (example_run_search { cfg with interactive := false } k hd).trans ?_
    exact run_ok (run_assign (((example_search { cfg with interactive := false } k _ rfl).2 items hs).1 vs hv)
      (insert_inner _ rfl))
  rw [example_run, key]
  exact ⟨rfl, ht⟩

/-- **C75**: when the search or the decoding of its results fails, the example prints nothing and fails with
that error. -/
theorem C75_example_search_fails (cfg : Cfg) (k : Kernel)
    (hd : cfg.host.openDir s!' "/mnt/btrfs" = some ⟨some 0x9123683e, k⟩) (e : Fail)
    (hs : (Fs.search cfg.fuel (.mounted k) exampleSearch >>= decodeItems cfg.build) = .error e) :
    (scriptRun cfg none exampleScript).2 = .fail e ∧ (scriptRun cfg none exampleScript).1.ev.sink.out = [] := by
  have he : evalExpr { cfg with interactive := false } ⟨⟨[], none⟩,
      [scope0.set s!' "k" (.struct s!' "_btrfs_ioctl_search_key" none exampleKey.fields)], some (.mounted k)⟩
      (.call (.ident s!' "search") [.ident s!' "BTRFS_ROOT_TREE_OBJECTID", .ident s!' "k"]) = .error e := by
    obtain ⟨h1, h2⟩ := example_search { cfg with interactive := false } k _ rfl
    cases hsr : Fs.search cfg.fuel (.mounted k) exampleSearch with
    | error e' =>
      rw [hsr] at hs
      have : e' = e := by simpa [bind, Except.bind] using hs
      subst this
      exact h1 _ hsr
    | ok items =>
      rw [hsr] at hs
      exact (h2 items hsr).2 e hs
  have key : evalStmts { cfg with interactive := false } exampleProgram (State.new cfg none) =
      (⟨⟨[], none⟩, [scope0.set s!' "k" (.struct s!' "_btrfs_ioctl_search_key" none exampleKey.fields)],
        some (.mounted k)⟩, .fail e) := by
    refine (example_run_search { cfg with interactive := false } k hd).trans ?_
    refine run_stop ?_ (by simp)
    simp only [evalStmt, evalAssign, he]
  rw [example_run, key]
  exact ⟨rfl, rfl⟩

/-- **C75**: without a btrfs filesystem at `/mnt/btrfs` the example prints nothing and fails. -/
theorem C75_example_no_filesystem (cfg : Cfg) (e : Fail) (hd : Fs.new cfg.host s!' "/mnt/btrfs" = .error e) :
    (scriptRun cfg none exampleScript).2 = .fail e ∧ (scriptRun cfg none exampleScript).1.ev.sink.out = [] := by
  have key : evalStmts { cfg with interactive := false } exampleProgram (State.new cfg none) =
      (State.new cfg none, .fail e) := by
    refine run_stop ?_ (by simp)
    simp only [evalStmt, evalFilesystem, evalExpr, mount_path, hd]
  rw [example_run, key]
  exact ⟨rfl, rfl⟩

/-- **C75**: against a kernel that keeps its promise about the items of its trees: the example reads the items
of the root tree from the device tree's root item on (those in the kernel's first answer), and if it can decode
them prints the first three of them. -/
theorem C75_example_on_a_filesystem (cfg : Cfg) (k : Kernel) (trees : Trees) (hw : WellOrdered trees)
    (hk : Honours k trees) (hd : cfg.host.openDir s!' "/mnt/btrfs" = some ⟨some 0x9123683e, k⟩) (hf : 0 < cfg.fuel) :
    ∃ q, q <+: matching trees ⟨1, 4, 2 ^ 64 - 1, 132, 255, 0, 2 ^ 64 - 1, 0, 2 ^ 64 - 1⟩ ∧
      (q = [] → matching trees ⟨1, 4, 2 ^ 64 - 1, 132, 255, 0, 2 ^ 64 - 1, 0, 2 ^ 64 - 1⟩ = []) ∧
      ((∃ vs, decodeItems cfg.build q = .ok vs ∧ (scriptRun cfg none exampleScript).2 = .ok ∧
          Shown (vs.take 3) (scriptRun cfg none exampleScript).1.ev.sink.out) ∨
       ∃ e, decodeItems cfg.build q = .error e ∧ (scriptRun cfg none exampleScript).2 = .fail e ∧
          (scriptRun cfg none exampleScript).1.ev.sink.out = []) := by
  obtain ⟨buf, q', rest, hr, -, hm, hne⟩ := hk 0 exampleSearch
  obtain ⟨q, buf', h1, -, hp, hs, -⟩ := C60_unbounded_partial k trees hw hk exampleSearch (by unfold Bounded; decide)
    cfg.fuel hf
  have hl : q.length = q'.length := by
    rw [h1] at hr
    simp only [Reply.data.injEq] at hr
    exact hr.1
  have hq : q = q' := by
    obtain ⟨r, hr'⟩ := hp
    rw [hm] at hr'
    exact (List.append_inj hr' hl).1
  subst hq
  refine ⟨q, hp, ?_, ?_⟩
  · intro h
    have : matching trees exampleSearch = [] := by rw [hm, h, hne h]; rfl
    exact this
  · cases hdec : decodeItems cfg.build q with
    | ok vs =>
      have := C75_example_prints_three cfg k hd q vs hs hdec
      exact .inl ⟨vs, rfl, this⟩
    | error e =>
      have := C75_example_search_fails cfg k hd e (by rw [hs]; exact hdec)
      exact .inr ⟨e, rfl, this⟩

/-- four block group items, 24 bytes each, in key order, in the root tree -/
def exampleItems : List Item :=
  (List.range 4).map fun n => (⟨7, 5, n, 192, 24⟩, List.replicate 24 (UInt8.ofNat n))

def exampleTrees : Trees := fun t => if t = 1 then exampleItems else []

theorem exampleTrees_ok : WellOrdered exampleTrees ∧ ∀ t, ∀ it ∈ exampleTrees t, Storable it := by
  refine ⟨?_, ?_⟩
  · intro t
    by_cases h : t = 1
    · simp only [exampleTrees, if_pos h]; decide
    · simp only [exampleTrees, if_neg h]; simp
  · intro t
    by_cases h : t = 1
    · simp only [exampleTrees, if_pos h]; decide
    · simp only [exampleTrees, if_neg h]; simp

/-- a machine with that filesystem mounted -/
def exampleCfg : Cfg where
  build := ⟨false⟩
  host := ⟨fun p => if p = s!' "/mnt/btrfs" then some ⟨some 0x9123683e, batchKernel exampleTrees (fun _ => 9)⟩ else none,
    fun _ => none, none⟩
  interactive := false
  fuel := 5

set_option maxRecDepth 100000 in
/-- witness: there the hypotheses hold, all four items are decoded, and so three are printed -/
example : Honours (batchKernel exampleTrees (fun _ => 9)) exampleTrees ∧
    exampleCfg.host.openDir s!' "/mnt/btrfs" = some ⟨some 0x9123683e, batchKernel exampleTrees (fun _ => 9)⟩ ∧
    matching exampleTrees ⟨1, 4, 2 ^ 64 - 1, 132, 255, 0, 2 ^ 64 - 1, 0, 2 ^ 64 - 1⟩ = exampleItems ∧
    (match decodeItems ⟨false⟩ exampleItems with
      | .ok vs => vs.length == 4
      | .error _ => false) = true :=
  ⟨batchKernel_honours _ exampleTrees_ok.2 _, rfl, by decide, by decide +kernel⟩

end Btrd
