/-
C76: the bundled `block_group_dist.btrd`.
-/
import Verif.Props.Scripts
import Verif.Props.Hist
import Verif.Props.Dispatch
import Verif.Props.Decode

namespace Btrd
open Spec

/-- the first statements of `block_group_dist.btrd` -/
def distSetup : List Stmt :=
  [.filesystem (.str s!' "/mnt/btrfs"),
   .assign (.ident s!' "k") (.call (.ident s!' "key")
     [.int 0, .ident s!' "BTRFS_BLOCK_GROUP_ITEM_KEY", .int 0, .int 0]),
   .assign (.field (.ident s!' "k") (.ident s!' "max_type")) (.ident s!' "BTRFS_BLOCK_GROUP_ITEM_KEY"),
   .assign (.ident s!' "bgs") (.call (.ident s!' "search") [.ident s!' "BTRFS_EXTENT_TREE_OBJECTID", .ident s!' "k"]),
   .assign (.ident s!' "blk_group_usage") (.call (.ident s!' "hist") []),
   .assign (.ident s!' "extent_free_space") (.call (.ident s!' "hist") [])]

/-- the body of its inner loop -/
def distInner : List Stmt :=
  [.assign (.ident s!' "extent_key") (.call (.ident s!' "keyof") [.ident s!' "extent"]),
   .ite (.bin .ne (.field (.ident s!' "extent_key") (.ident s!' "type")) (.ident s!' "BTRFS_EXTENT_ITEM_KEY")) [.cont] [],
   .ite (.bin .ge (.field (.ident s!' "extent_key") (.ident s!' "objectid"))
      (.bin .plus (.ident s!' "bg_start") (.ident s!' "bg_len"))) [.brk] [],
   .ite (.bin .lt (.ident s!' "last_end") (.field (.ident s!' "extent_key") (.ident s!' "objectid")))
     [.assign (.ident s!' "free_bytes")
        (.bin .minus (.field (.ident s!' "extent_key") (.ident s!' "objectid")) (.ident s!' "last_end")),
      .assign (.ident s!' "extent_free_space") (.bin .plus (.ident s!' "extent_free_space") (.ident s!' "free_bytes"))] [],
   .assign (.ident s!' "last_end") (.bin .plus (.field (.ident s!' "extent_key") (.ident s!' "objectid"))
     (.field (.ident s!' "extent_key") (.ident s!' "offset")))]

/-- the body of its outer loop -/
def distBody : List Stmt :=
  [.assign (.ident s!' "bg_key") (.call (.ident s!' "keyof") [.ident s!' "bg"]),
   .ite (.bin .ne (.field (.ident s!' "bg_key") (.ident s!' "type")) (.ident s!' "BTRFS_BLOCK_GROUP_ITEM_KEY")) [.cont] [],
   .ite (.un .not (.paren (.bin .band (.field (.ident s!' "bg") (.ident s!' "flags")) (.ident s!' "BTRFS_BLOCK_GROUP_DATA"))))
     [.cont] [],
   .assign (.ident s!' "percent_used") (.bin .div (.bin .mul (.int 100) (.field (.ident s!' "bg") (.ident s!' "used")))
     (.field (.ident s!' "bg_key") (.ident s!' "offset"))),
   .assign (.ident s!' "blk_group_usage") (.bin .plus (.ident s!' "blk_group_usage") (.ident s!' "percent_used")),
   .assign (.ident s!' "bg_start") (.field (.ident s!' "bg_key") (.ident s!' "objectid")),
   .assign (.ident s!' "bg_len") (.field (.ident s!' "bg_key") (.ident s!' "offset")),
   .assign (.ident s!' "last_end") (.ident s!' "bg_start"),
   .assign (.ident s!' "k2") (.call (.ident s!' "key") [.ident s!' "bg_start", .ident s!' "BTRFS_EXTENT_ITEM_KEY", .int 0, .int 0]),
   .assign (.field (.ident s!' "k2") (.ident s!' "max_objectid"))
     (.bin .minus (.bin .plus (.ident s!' "bg_start") (.ident s!' "bg_len")) (.int 1)),
   .assign (.field (.ident s!' "k2") (.ident s!' "max_type")) (.ident s!' "BTRFS_EXTENT_ITEM_KEY"),
   .assign (.ident s!' "extents") (.call (.ident s!' "search") [.ident s!' "BTRFS_EXTENT_TREE_OBJECTID", .ident s!' "k2"]),
   .for (.ident s!' "extent") (.ident s!' "extents") distInner]

/-- its report -/
def distReport : List Stmt :=
  [.print (.str s!' "block group usage:"), .print (.str s!' "------------------"), .print (.ident s!' "blk_group_usage"),
   .print (.str []), .print (.str s!' "extent free space:"), .print (.str s!' "------------------"),
   .print (.ident s!' "extent_free_space")]

/-- what `block_group_dist.btrd` parses to -/
def distProgram : List Stmt := distSetup ++ .for (.ident s!' "bg") (.ident s!' "bgs") distBody :: distReport

set_option maxRecDepth 1000000 in
theorem dist_parses : parse (stripComments distScript) = some distProgram := by
  with_unfolding_all rfl

set_option maxRecDepth 1000000 in
theorem dist_analyzes : (analyzeStmts distProgram AState.new).2 = .ok () := by
  with_unfolding_all rfl

/-! ### Evaluating its expressions -/

theorem look {cfg : Cfg} {st : State} {x : Str} {v : Value} (h : st.vars.get x = some v) :
    evalExpr cfg st (.ident x) = .ok v := by
  simp only [evalExpr, h, orErr]

theorem get_skip {T : Type} {A : Scope T} {vs : Vars T} {x : Str} {r : Option T} (h : A x = none) (h' : vs.get x = r) :
    Vars.get (A :: vs) x = r := by
  simp only [Vars.get, h, h']

theorem get_here {T : Type} {A : Scope T} {vs : Vars T} {x : Str} {v : T} (h : A x = some v) :
    Vars.get (A :: vs) x = some v := by
  simp only [Vars.get, h]

/-- the value of `keyof()` of a search result -/
def keyStruct (oid ty off : Int) : Value :=
  .struct s!' "btrfs_key" none [(s!' "objectid", .int oid), (s!' "type", .int ty), (s!' "offset", .int off)]

theorem key_field {cfg : Cfg} {st : State} {x : Str} {oid ty off : Int} (h : st.vars.get x = some (keyStruct oid ty off)) :
    evalExpr cfg st (.field (.ident x) (.ident s!' "objectid")) = .ok (.int oid) ∧
    evalExpr cfg st (.field (.ident x) (.ident s!' "type")) = .ok (.int ty) ∧
    evalExpr cfg st (.field (.ident x) (.ident s!' "offset")) = .ok (.int off) := by
  refine ⟨?_, ?_, ?_⟩ <;> · rw [evalExpr, look h]; rfl

theorem ne_ints (i j : Int) : binop .ne (.ok (.int i)) (.ok (.int j)) = .ok (.bool (!(i == j))) := rfl
theorem ge_ints (i j : Int) : binop .ge (.ok (.int i)) (.ok (.int j)) = .ok (.bool (decide (i ≥ j))) := rfl
theorem lt_ints (i j : Int) : binop .lt (.ok (.int i)) (.ok (.int j)) = .ok (.bool (decide (i < j))) := rfl
theorem minus_ints (i j : Int) : binop .minus (.ok (.int i)) (.ok (.int j)) =
    checkedI128 (.overflow i s!' "-" j) (i - j) := rfl
theorem mul_ints (i j : Int) : binop .mul (.ok (.int i)) (.ok (.int j)) =
    checkedI128 (.overflow i s!' "*" j) (i * j) := rfl
theorem div_ints (i j : Int) : binop .div (.ok (.int i)) (.ok (.int j)) = divI128 i j := rfl
theorem push_value (vec : List Value) (k : Bool) (v : Value) :
    binop .plus (.ok (.array vec k)) (.ok v) = .ok (.array (vec ++ [v]) k) := rfl

theorem stmts_nil (cfg : Cfg) (st : State) : evalStmts cfg [] st = (st, .ok) := by rw [evalStmts]

theorem small_in {n : Nat} (h : n < 2 ^ 80) : inI128 (n : Int) = true := by
  rw [inI128_iff]
  have h1 : (2 : Int) ^ 80 < 2 ^ 127 := by decide
  have h2 : (n : Int) < 2 ^ 80 := by exact_mod_cast h
  refine ⟨?_, Int.lt_trans h2 h1⟩
  have : -(2 : Int) ^ 127 ≤ 0 := by decide
  omega

theorem small_ok {e : Err} {n : Nat} {i : Int} (h : i = n) (hn : n < 2 ^ 80) : checkedI128 e i = .ok (.int (n : Int)) := by
  subst h
  exact checkedI128_ok (small_in hn)

/-- only these names are defined in the scope -/
def Defines (names : List Str) (A : Scope Value) : Prop := ∀ x, x ∉ names → A x = none

theorem Defines.set {names : List Str} {A : Scope Value} (h : Defines names A) {x : Str} (v : Value) (hx : x ∈ names) :
    Defines names (A.set x v) := by
  intro y hy
  have hne : y ≠ x := by rintro rfl; exact hy hx
  rw [set_other _ _ hne]
  exact h y hy

theorem Defines.empty (names : List Str) : Defines names Scope.empty := fun _ _ => rfl

/-- the variables of the outer loop's scope -/
def outerNames : List Str :=
  [s!' "bg", s!' "bg_key", s!' "percent_used", s!' "bg_start", s!' "bg_len", s!' "last_end", s!' "k2", s!' "extents"]

/-- the variables of the inner loop's scope -/
def innerNames : List Str := [s!' "extent", s!' "extent_key"]

/-- the global variables of the script -/
def globalNames : List Str := [s!' "k", s!' "bgs", s!' "blk_group_usage", s!' "extent_free_space"]

/-- the global scope: the builtins, and the two histograms so far -/
structure Globals (G : Scope Value) (us fr : List Int) : Prop where
  builtin : ∀ x, x ∉ globalNames → G x = scope0 x
  usage : G s!' "blk_group_usage" = some (.array (us.map Value.int) true)
  free : G s!' "extent_free_space" = some (.array (fr.map Value.int) true)

set_option maxRecDepth 100000 in
theorem local_names : ∀ x ∈ s!' "free_bytes" :: (outerNames ++ innerNames ++ globalNames), scope0 x = none := by
  intro x hx
  apply name_not_builtin
  revert x
  decide +kernel

theorem Globals.local {G : Scope Value} {us fr : List Int} (h : Globals G us fr) {x : Str}
    (hx : x ∈ s!' "free_bytes" :: (outerNames ++ innerNames)) : G x = none := by
  have h1 : x ∉ globalNames := by
    revert x; decide
  rw [h.builtin x h1]
  apply local_names
  simp only [List.mem_cons, List.mem_append] at hx ⊢
  rcases hx with h | h | h
  · exact .inl h
  · exact .inr (.inl (.inl h))
  · exact .inr (.inl (.inr h))

theorem Globals.set_usage {G : Scope Value} {us fr : List Int} (h : Globals G us fr) (i : Int) :
    Globals (G.set s!' "blk_group_usage" (.array (us.map Value.int ++ [.int i]) true)) (us ++ [i]) fr where
  builtin := fun x hx => by
    rw [set_other _ _ (fun e => hx (by rw [e]; decide))]; exact h.builtin x hx
  usage := by rw [set_same]; simp
  free := by rw [set_other _ _ (by decide)]; exact h.free

theorem Globals.set_free {G : Scope Value} {us fr : List Int} (h : Globals G us fr) (i : Int) :
    Globals (G.set s!' "extent_free_space" (.array (fr.map Value.int ++ [.int i]) true)) us (fr ++ [i]) where
  builtin := fun x hx => by
    rw [set_other _ _ (fun e => hx (by rw [e]; decide))]; exact h.builtin x hx
  usage := by rw [set_other _ _ (by decide)]; exact h.usage
  free := by rw [set_same]; simp

/-- an assignment whose variable lives in the outermost of three scopes, etc.: one scope further out -/
theorem overwrite_skip {T : Type} {A : Scope T} {rest rest' : Vars T} {x : Str} {v : T} (h : A x = none)
    (h' : rest.overwrite x v = some rest') : Vars.overwrite (A :: rest) x v = some (A :: rest') := by
  simp only [Vars.overwrite, h, h']

theorem overwrite_here {T : Type} {A : Scope T} {rest : Vars T} {x : Str} {v w : T} (h : A x = some w) :
    Vars.overwrite (A :: rest) x v = some (A.set x v :: rest) := by
  simp only [Vars.overwrite, h]

theorem overwrite_absent {T : Type} {A : Scope T} {rest : Vars T} {x : Str} {v : T} (h : A x = none)
    (h' : rest.overwrite x v = none) : Vars.overwrite (A :: rest) x v = none := by
  simp only [Vars.overwrite, h, h']

theorem insert_over {T : Type} {vs vs' : Vars T} {x : Str} {v : T} (h : vs.overwrite x v = some vs') :
    vs.insert x v = .ok vs' := by
  simp only [Vars.insert, h]

set_option maxRecDepth 100000 in
theorem used_builtins : scope0 s!' "keyof" = some (.func .keyOf) ∧ scope0 s!' "key" = some (.func .key) ∧
    scope0 s!' "search" = some (.func .search) ∧ scope0 s!' "hist" = some (.func .hist) ∧
    scope0 s!' "BTRFS_BLOCK_GROUP_ITEM_KEY" = some (.int 192) ∧ scope0 s!' "BTRFS_EXTENT_ITEM_KEY" = some (.int 168) ∧
    scope0 s!' "BTRFS_BLOCK_GROUP_DATA" = some (.int 1) ∧ scope0 s!' "BTRFS_EXTENT_TREE_OBJECTID" = some (.int 2) := by
  refine ⟨scope0_func .keyOf, scope0_func .key, scope0_func .search, scope0_func .hist, ?_, ?_, ?_, ?_⟩ <;>
    exact scope0_const (by decide +kernel)

/-! ### The inner loop -/

section
variable (cfg : Cfg) (out : Str) (fs : Option Fs)

theorem inner_skip (A2 A G : Scope Value) (us fr : List Int) (hG : Globals G us fr) (hA : Defines outerNames A)
    (hA2 : Defines innerNames A2) (nm : Str) (flds : List (Str × Value)) (eo et ef : Int)
    (he : A2 s!' "extent" = some (.struct nm (some (eo, et, ef)) flds)) (ht : et ≠ 168) :
    evalStmts cfg distInner ⟨⟨out, none⟩, [A2, A, G], fs⟩ =
      (⟨⟨out, none⟩, [A2.set s!' "extent_key" (keyStruct eo et ef), A, G], fs⟩, .cont) := by
  obtain ⟨b1, b2, b3, b4, b5, b6, b7, b8⟩ := used_builtins
  have h1 : evalStmt cfg (.assign (.ident s!' "extent_key") (.call (.ident s!' "keyof") [.ident s!' "extent"]))
      ⟨⟨out, none⟩, [A2, A, G], fs⟩ =
      (⟨⟨out, none⟩, [A2.set s!' "extent_key" (keyStruct eo et ef), A, G], fs⟩, .ok) := by
    refine run_assign ?_ (insert_inner _ ?_)
    · refine C48_keyof cfg _ _ _ nm eo et ef flds (look ?_) (look (get_here he))
      refine get_skip (hA2 _ (by decide)) (get_skip (hA _ (by decide)) (get_here ?_))
      rw [hG.builtin _ (by decide), b1]
    · exact overwrite_absent (hA _ (by decide)) (overwrite_absent (hG.local (by decide)) rfl)
  have hA2' : Defines innerNames (A2.set s!' "extent_key" (keyStruct eo et ef)) := hA2.set _ (by decide)
  have hk : (A2.set s!' "extent_key" (keyStruct eo et ef)) s!' "extent_key" = some (keyStruct eo et ef) := set_same _ _ _
  generalize A2.set s!' "extent_key" (keyStruct eo et ef) = B at *
  have h2 : evalStmt cfg (.ite (.bin .ne (.field (.ident s!' "extent_key") (.ident s!' "type"))
      (.ident s!' "BTRFS_EXTENT_ITEM_KEY")) [.cont] []) ⟨⟨out, none⟩, [B, A, G], fs⟩ =
      (⟨⟨out, none⟩, [B, A, G], fs⟩, .cont) := by
    refine run_if (b := true) ?_ rfl rfl
    have e1 := (key_field (cfg := cfg) (st := ⟨⟨out, none⟩, Vars.push [B, A, G], fs⟩) (get_skip rfl (get_here hk))).2.1
    have e2 : evalExpr cfg ⟨⟨out, none⟩, Vars.push [B, A, G], fs⟩ (.ident s!' "BTRFS_EXTENT_ITEM_KEY") = .ok (.int 168) := by
      refine look (get_skip rfl (get_skip (hA2' _ (by decide)) (get_skip (hA _ (by decide)) (get_here ?_))))
      rw [hG.builtin _ (by decide), b6]
    have : (et == 168) = false := by simpa using ht
    rw [evalCond, evalExpr, e1, e2, ne_ints, this]
    rfl
  rw [distInner, run_ok h1, run_stop h2 (by decide)]

/-- the conditions of the inner loop, in the scope of an `if` -/
theorem inner_conds (B A G : Scope Value) (us fr : List Int) (hG : Globals G us fr) (hA : Defines outerNames A)
    (hB : Defines innerNames B) (eo et ef s l last : Int) (hk : B s!' "extent_key" = some (keyStruct eo et ef))
    (hs : A s!' "bg_start" = some (.int s)) (hl : A s!' "bg_len" = some (.int l))
    (hla : A s!' "last_end" = some (.int last)) (hsl : inI128 (s + l) = true) :
    let st : State := ⟨⟨out, none⟩, Vars.push [B, A, G], fs⟩
    evalCond cfg st (.bin .ne (.field (.ident s!' "extent_key") (.ident s!' "type")) (.ident s!' "BTRFS_EXTENT_ITEM_KEY")) =
      .ok (!(et == 168)) ∧
    evalCond cfg st (.bin .ge (.field (.ident s!' "extent_key") (.ident s!' "objectid"))
      (.bin .plus (.ident s!' "bg_start") (.ident s!' "bg_len"))) = .ok (decide (eo ≥ s + l)) ∧
    evalCond cfg st (.bin .lt (.ident s!' "last_end") (.field (.ident s!' "extent_key") (.ident s!' "objectid"))) =
      .ok (decide (last < eo)) := by
  intro st
  obtain ⟨b1, b2, b3, b4, b5, b6, b7, b8⟩ := used_builtins
  obtain ⟨e0, e1, -⟩ := key_field (cfg := cfg) (st := st) (get_skip rfl (get_here hk))
  have e2 : evalExpr cfg st (.ident s!' "BTRFS_EXTENT_ITEM_KEY") = .ok (.int 168) := by
    refine look (get_skip rfl (get_skip (hB _ (by decide)) (get_skip (hA _ (by decide)) (get_here ?_))))
    rw [hG.builtin _ (by decide), b6]
  have e3 : evalExpr cfg st (.ident s!' "bg_start") = .ok (.int s) :=
    look (get_skip rfl (get_skip (hB _ (by decide)) (get_here hs)))
  have e4 : evalExpr cfg st (.ident s!' "bg_len") = .ok (.int l) :=
    look (get_skip rfl (get_skip (hB _ (by decide)) (get_here hl)))
  have e5 : evalExpr cfg st (.ident s!' "last_end") = .ok (.int last) :=
    look (get_skip rfl (get_skip (hB _ (by decide)) (get_here hla)))
  refine ⟨?_, ?_, ?_⟩
  · rw [evalCond, evalExpr, e1, e2, ne_ints]; rfl
  · rw [evalCond, evalExpr, e0, evalExpr, e3, e4, plus_ints, checkedI128_ok hsl, ge_ints]; rfl
  · rw [evalCond, evalExpr, e0, e5, lt_ints]; rfl

theorem inner_count (A2 A G : Scope Value) (us fr : List Int) (hG : Globals G us fr) (hA : Defines outerNames A)
    (hA2 : Defines innerNames A2) (nm : Str) (flds : List (Str × Value)) (eo ef s l last : Nat)
    (heo : eo < 2 ^ 64) (hef : ef < 2 ^ 64) (hin : eo < s + l) (hsl : s + l < 2 ^ 80)
    (he : A2 s!' "extent" = some (.struct nm (some ((eo : Int), ((168 : Nat) : Int), (ef : Int))) flds))
    (hs : A s!' "bg_start" = some (.int s)) (hl : A s!' "bg_len" = some (.int l))
    (hla : A s!' "last_end" = some (.int last)) :
    ∃ G', Globals G' us (fr ++ if last < eo then [((eo - last : Nat) : Int)] else []) ∧
    evalStmts cfg distInner ⟨⟨out, none⟩, [A2, A, G], fs⟩ =
      (⟨⟨out, none⟩, [A2.set s!' "extent_key" (keyStruct eo (168 : Nat) ef),
        A.set s!' "last_end" (.int (eo + ef : Nat)), G'], fs⟩, .ok) := by
  obtain ⟨b1, b2, b3, b4, b5, b6, b7, b8⟩ := used_builtins
  have h1 : evalStmt cfg (.assign (.ident s!' "extent_key") (.call (.ident s!' "keyof") [.ident s!' "extent"]))
      ⟨⟨out, none⟩, [A2, A, G], fs⟩ =
      (⟨⟨out, none⟩, [A2.set s!' "extent_key" (keyStruct eo (168 : Nat) ef), A, G], fs⟩, .ok) := by
    refine run_assign ?_ (insert_inner _ ?_)
    · refine C48_keyof cfg _ _ _ nm eo (168 : Nat) ef flds (look ?_) (look (get_here he))
      refine get_skip (hA2 _ (by decide)) (get_skip (hA _ (by decide)) (get_here ?_))
      rw [hG.builtin _ (by decide), b1]
    · exact overwrite_absent (hA _ (by decide)) (overwrite_absent (hG.local (by decide)) rfl)
  have hB : Defines innerNames (A2.set s!' "extent_key" (keyStruct eo (168 : Nat) ef)) := hA2.set _ (by decide)
  have hk : (A2.set s!' "extent_key" (keyStruct eo (168 : Nat) ef)) s!' "extent_key" =
    some (keyStruct eo (168 : Nat) ef) := set_same _ _ _
  generalize A2.set s!' "extent_key" (keyStruct eo (168 : Nat) ef) = B at *
  have hsl' : inI128 ((s : Int) + (l : Int)) = true := by
    rw [← Int.natCast_add]; exact small_in hsl
  obtain ⟨c1, c2, c3⟩ := inner_conds cfg out fs B A G us fr hG hA hB eo (168 : Nat) ef s l last hk hs hl hla hsl'
  have h2 : evalStmt cfg (.ite (.bin .ne (.field (.ident s!' "extent_key") (.ident s!' "type"))
      (.ident s!' "BTRFS_EXTENT_ITEM_KEY")) [.cont] []) ⟨⟨out, none⟩, [B, A, G], fs⟩ =
      (⟨⟨out, none⟩, [B, A, G], fs⟩, .ok) := by
    refine run_if (b := false) ?_ rfl rfl
    rw [c1]; rfl
  have h3 : evalStmt cfg (.ite (.bin .ge (.field (.ident s!' "extent_key") (.ident s!' "objectid"))
      (.bin .plus (.ident s!' "bg_start") (.ident s!' "bg_len"))) [.brk] []) ⟨⟨out, none⟩, [B, A, G], fs⟩ =
      (⟨⟨out, none⟩, [B, A, G], fs⟩, .ok) := by
    refine run_if (b := false) ?_ rfl rfl
    rw [c2, decide_eq_false (by omega)]
  have h4 : ∃ G', Globals G' us (fr ++ if last < eo then [((eo - last : Nat) : Int)] else []) ∧
      evalStmt cfg (.ite (.bin .lt (.ident s!' "last_end") (.field (.ident s!' "extent_key") (.ident s!' "objectid")))
     [.assign (.ident s!' "free_bytes")
        (.bin .minus (.field (.ident s!' "extent_key") (.ident s!' "objectid")) (.ident s!' "last_end")),
      .assign (.ident s!' "extent_free_space") (.bin .plus (.ident s!' "extent_free_space") (.ident s!' "free_bytes"))] [])
      ⟨⟨out, none⟩, [B, A, G], fs⟩ = (⟨⟨out, none⟩, [B, A, G'], fs⟩, .ok) := by
    by_cases hlt : last < eo
    · rw [if_pos hlt]
      refine ⟨_, hG.set_free _, ?_⟩
      have e0 := (key_field (cfg := cfg) (st := ⟨⟨out, none⟩, Vars.push [B, A, G], fs⟩) (get_skip rfl (get_here hk))).1
      have e5 : evalExpr cfg ⟨⟨out, none⟩, Vars.push [B, A, G], fs⟩ (.ident s!' "last_end") = .ok (.int last) :=
        look (get_skip rfl (get_skip (hB _ (by decide)) (get_here hla)))
      have a1 : evalStmt cfg (.assign (.ident s!' "free_bytes")
          (.bin .minus (.field (.ident s!' "extent_key") (.ident s!' "objectid")) (.ident s!' "last_end")))
          ⟨⟨out, none⟩, Vars.push [B, A, G], fs⟩ = (⟨⟨out, none⟩,
            [Scope.empty.set s!' "free_bytes" (.int (eo - last : Nat)), B, A, G], fs⟩, .ok) := by
        refine run_assign (v := .int (eo - last : Nat)) ?_ (insert_inner _ ?_)
        · rw [evalExpr, e0, e5, minus_ints]
          exact small_ok (by omega) (by omega)
        · exact overwrite_absent (hB _ (by decide)) (overwrite_absent (hA _ (by decide))
            (overwrite_absent (hG.local (by decide)) rfl))
      have a2 : evalStmt cfg (.assign (.ident s!' "extent_free_space")
          (.bin .plus (.ident s!' "extent_free_space") (.ident s!' "free_bytes")))
          ⟨⟨out, none⟩, [Scope.empty.set s!' "free_bytes" (.int (eo - last : Nat)), B, A, G], fs⟩ = (⟨⟨out, none⟩,
            [Scope.empty.set s!' "free_bytes" (.int (eo - last : Nat)), B, A, G.set s!' "extent_free_space"
              (.array (fr.map Value.int ++ [.int (eo - last : Nat)]) true)], fs⟩, .ok) := by
        have hS : (Scope.empty.set s!' "free_bytes" (Value.int (eo - last : Nat))) s!' "extent_free_space" = none := by
          rw [set_other _ _ (by decide)]; rfl
        refine run_assign (v := .array (fr.map Value.int ++ [.int (eo - last : Nat)]) true) ?_ (insert_over ?_)
        · have x1 : evalExpr cfg ⟨⟨out, none⟩, [Scope.empty.set s!' "free_bytes" (.int (eo - last : Nat)), B, A, G], fs⟩
              (.ident s!' "extent_free_space") = .ok (.array (fr.map Value.int) true) :=
            look (get_skip hS (get_skip (hB _ (by decide)) (get_skip (hA _ (by decide)) (get_here hG.free))))
          have x2 : evalExpr cfg ⟨⟨out, none⟩, [Scope.empty.set s!' "free_bytes" (.int (eo - last : Nat)), B, A, G], fs⟩
              (.ident s!' "free_bytes") = .ok (.int (eo - last : Nat)) := look (get_here (set_same _ _ _))
          rw [evalExpr, x1, x2, push_value]
        · exact overwrite_skip hS (overwrite_skip (hB _ (by decide)) (overwrite_skip (hA _ (by decide))
            (overwrite_here hG.free)))
      have hb := (run_ok (ss := [_]) a1).trans ((run_ok (ss := []) a2).trans (stmts_nil cfg _))
      have c3' := c3.trans (congrArg Except.ok (decide_eq_true (by omega)))
      exact run_then (f := []) (st := ⟨⟨out, none⟩, [B, A, G], fs⟩) hb rfl c3'
    · rw [if_neg hlt]
      refine ⟨G, by rw [List.append_nil]; exact hG, ?_⟩
      refine run_if (b := false) ?_ rfl rfl
      exact c3.trans (congrArg Except.ok (decide_eq_false (by omega)))
  obtain ⟨G', hG', h4⟩ := h4
  have h5 : evalStmt cfg (.assign (.ident s!' "last_end") (.bin .plus (.field (.ident s!' "extent_key")
     (.ident s!' "objectid")) (.field (.ident s!' "extent_key") (.ident s!' "offset")))) ⟨⟨out, none⟩, [B, A, G'], fs⟩ =
      (⟨⟨out, none⟩, [B, A.set s!' "last_end" (.int (eo + ef : Nat)), G'], fs⟩, .ok) := by
    obtain ⟨e0, -, e2⟩ := key_field (cfg := cfg) (st := ⟨⟨out, none⟩, [B, A, G'], fs⟩) (get_here hk)
    refine run_assign (v := .int (eo + ef : Nat)) ?_ (insert_over ?_)
    · rw [evalExpr, e0, e2, plus_ints]
      exact small_ok (by omega) (by omega)
    · exact overwrite_skip (hB _ (by decide)) (overwrite_here hla)
  refine ⟨G', hG', ?_⟩
  rw [distInner, run_ok h1, run_ok h2, run_ok h3, run_ok h4, run_ok h5, evalStmts]

/-- the value is the decoded item, with its key -/
def OfItem (b : Build) (it : Item) (v : Value) : Prop :=
  ∃ s sv, structForKey it.1.objectid it.1.ty it.1.offset = some s ∧
    structFromBytes b s (some (it.1.objectid, it.1.ty, it.1.offset)) it.2 = .ok sv ∧
    v = .struct sv.name sv.key sv.fields

theorem OfItem.keyed {b : Build} {it : Item} {v : Value} (h : OfItem b it v) :
    ∃ nm flds, v = .struct nm (some ((it.1.objectid : Int), (it.1.ty : Int), (it.1.offset : Int))) flds := by
  obtain ⟨s, sv, -, h, rfl⟩ := h
  exact ⟨_, _, by rw [(structFromBytes_key h).2]⟩

theorem inner_loop (b : Build) (s l : Nat) (hsl : s + l < 2 ^ 80) (us : List Int) (items : List Item) (vs : List Value)
    (hv : List.Forall₂ (OfItem b) items vs)
    (hin : ∀ it ∈ items, it.1.objectid < s + l ∧ it.1.objectid < 2 ^ 64 ∧ it.1.offset < 2 ^ 64) :
    ∀ (A2 A G : Scope Value) (fr : List Int) (last : Nat), Globals G us fr → Defines outerNames A →
      Defines innerNames A2 → A s!' "bg_start" = some (.int s) → A s!' "bg_len" = some (.int l) →
      A s!' "last_end" = some (.int last) →
      ∃ A2' A' G', Globals G' us (fr ++ (gaps last (items.filter fun it => it.1.ty == 168)).map Int.ofNat) ∧
        Defines outerNames A' ∧
        forLoop s!' "extent" (evalStmts cfg distInner) vs ⟨⟨out, none⟩, [A2, A, G], fs⟩ =
          (⟨⟨out, none⟩, [A2', A', G'], fs⟩, .ok) := by
  induction hv with
  | nil =>
    intro A2 A G fr last hG hA hA2 hs hl hla
    exact ⟨A2, A, G, by simpa [gaps] using hG, hA, by simp [forLoop]⟩
  | @cons it v items vs hiv _ ih =>
    intro A2 A G fr last hG hA hA2 hs hl hla
    obtain ⟨nm, flds, rfl⟩ := hiv.keyed
    obtain ⟨hi1, hi2, hi3⟩ := hin it (by simp)
    have hins : Vars.insert [A2, A, G] s!' "extent" (.struct nm (some ((it.1.objectid : Int), (it.1.ty : Int),
        (it.1.offset : Int))) flds) = .ok [A2.set s!' "extent" (.struct nm (some ((it.1.objectid : Int),
          (it.1.ty : Int), (it.1.offset : Int))) flds), A, G] :=
      insert_inner _ (overwrite_absent (hA _ (by decide)) (overwrite_absent (hG.local (by decide)) rfl))
    have hA2' := hA2.set (.struct nm (some ((it.1.objectid : Int), (it.1.ty : Int), (it.1.offset : Int))) flds)
      (show s!' "extent" ∈ innerNames by decide)
    by_cases ht : it.1.ty = 168
    · rw [ht] at hins hA2'
      obtain ⟨G', hG', hbody⟩ := inner_count cfg out fs (A2.set s!' "extent" (.struct nm (some ((it.1.objectid : Int),
          ((168 : Nat) : Int), (it.1.offset : Int))) flds)) A G us fr hG hA hA2' nm flds it.1.objectid it.1.offset s l last hi2 hi3 hi1
          hsl (set_same _ _ _) hs hl hla
      obtain ⟨A2', A', G'', h1, h2, h3⟩ := ih (fun it h => hin it (by simp [h])) _
        (A.set s!' "last_end" (.int (it.1.objectid + it.1.offset : Nat))) G' _ (it.1.objectid + it.1.offset) hG'
        (hA.set _ (by decide)) (hA2'.set (keyStruct it.1.objectid (168 : Nat) it.1.offset) (show s!' "extent_key" ∈ innerNames by decide))
        (by rw [set_other _ _ (by decide)]; exact hs) (by rw [set_other _ _ (by decide)]; exact hl) (set_same _ _ _)
      refine ⟨A2', A', G'', ?_, h2, ?_⟩
      · rw [List.filter_cons_of_pos (by simp [ht]), gaps, List.map_append, ← List.append_assoc]
        have : List.map Int.ofNat (if last < it.1.objectid then [it.1.objectid - last] else []) =
            if last < it.1.objectid then [((it.1.objectid - last : Nat) : Int)] else [] := by
          split <;> rfl
        rw [this]
        exact h1
      · rw [for_next (by rw [ht]; exact hins) hbody (.inl rfl), h3]
    · have hbody := inner_skip cfg out fs _ A G us fr hG hA hA2' nm flds it.1.objectid it.1.ty it.1.offset
        (set_same _ _ _) (by omega)
      obtain ⟨A2', A', G'', h1, h2, h3⟩ := ih (fun it h => hin it (by simp [h])) _ A G fr last hG hA
        (hA2'.set (keyStruct it.1.objectid it.1.ty it.1.offset) (show s!' "extent_key" ∈ innerNames by decide)) hs hl hla
      refine ⟨A2', A', G'', ?_, h2, ?_⟩
      · rw [List.filter_cons_of_neg (by simp [ht])]
        exact h1
      · rw [for_next hins hbody (.inr rfl), h3]

end

/-! ### The outer loop -/

/-- a block group, decoded -/
theorem OfItem.group {b : Build} {it : Item} {v : Value} (h : OfItem b it v) (ht : it.1.ty = 192) :
    v = .struct s!' "btrfs_block_group_item" (some ((it.1.objectid : Int), ((192 : Nat) : Int), (it.1.offset : Int)))
      [(s!' "used", .int (leAt (mem it.2) 0 8)), (s!' "chunk_objectid", .int (leAt (mem it.2) 8 8)),
       (s!' "flags", .int (leAt (mem it.2) 16 8))] := by
  obtain ⟨s, sv, h1, h2, rfl⟩ := h
  have hn := structForKey_name it.1.objectid it.1.ty it.1.offset
  rw [h1, ht] at hn
  simp only [Option.map_some] at hn
  have hs : s ∈ structs := List.mem_of_find?_eq_some h1
  have hname : s.name = s!' "btrfs_block_group_item" := by simpa using hn
  have hs' : s = struct_btrfs_block_group_item := by
    clear hn h1 h2
    revert hname
    simp only [structs, List.mem_cons, List.not_mem_nil, or_false] at hs
    rcases hs with h | h | h | h | h | h | h | h | h | h | h | h | h | h | h | h | h | h | h | h | h | h | h |
      h | h | h | h | h | h | h | h | h | h | h <;> subst h <;> intro hname <;>
      first | rfl | exact absurd hname (by decide)
  subst hs'
  have hf := C51_table struct_btrfs_block_group_item (List.mem_of_find?_eq_some h1)
  rcases hf with hf | ⟨hf, ha⟩
  · exact absurd hf (by decide)
  · obtain ⟨a1, a2, a3⟩ := C52_fixed_layout b _ hf ha _ _ _ h2
    rw [a1, a2, a3, ht]
    rfl

theorem and_one (f : Nat) (hf : f < 2 ^ 64) :
    (BitVec.ofInt 128 (f : Int) &&& BitVec.ofInt 128 1).toInt = ((f % 2 : Nat) : Int) := by
  have h1 : (BitVec.ofInt 128 (f : Int) &&& BitVec.ofInt 128 1).toNat = f % 2 := by
    rw [BitVec.toNat_and]
    have : (BitVec.ofInt 128 (f : Int)).toNat = f := by
      rw [BitVec.ofInt_natCast, BitVec.toNat_ofNat, Nat.mod_eq_of_lt (Nat.lt_trans hf (by decide))]
    rw [this]
    exact Nat.and_one_is_mod f
  rw [BitVec.toInt_eq_toNat_of_lt, h1]
  rw [h1]
  omega

section
variable (cfg : Cfg) (out : Str) (fs : Option Fs)

theorem step_local (A G : Scope Value) (us fr : List Int) (hG : Globals G us fr) (x : Str) (e : Expr) (v : Value)
    (ss : List Stmt) (hx : x ∈ outerNames) (he : evalExpr cfg ⟨⟨out, none⟩, [A, G], fs⟩ e = .ok v) :
    evalStmts cfg (.assign (.ident x) e :: ss) ⟨⟨out, none⟩, [A, G], fs⟩ =
      evalStmts cfg ss ⟨⟨out, none⟩, [A.set x v, G], fs⟩ := by
  refine run_ok (run_assign he (insert_inner _ ?_))
  refine overwrite_absent (hG.local ?_) rfl
  simp [hx]

theorem outer_keyof (A G : Scope Value) (us fr : List Int) (hG : Globals G us fr) (hA : Defines outerNames A)
    (nm : Str) (flds : List (Str × Value)) (oid ty off : Int)
    (hb : A s!' "bg" = some (.struct nm (some (oid, ty, off)) flds)) (ss : List Stmt) :
    evalStmts cfg (.assign (.ident s!' "bg_key") (.call (.ident s!' "keyof") [.ident s!' "bg"]) :: ss)
      ⟨⟨out, none⟩, [A, G], fs⟩ =
      evalStmts cfg ss ⟨⟨out, none⟩, [A.set s!' "bg_key" (keyStruct oid ty off), G], fs⟩ := by
  obtain ⟨b1, -⟩ := used_builtins
  refine step_local cfg out fs A G us fr hG _ _ _ ss (by decide) ?_
  refine C48_keyof cfg _ _ _ nm oid ty off flds (look ?_) (look (get_here hb))
  refine get_skip (hA _ (by decide)) (get_here ?_)
  rw [hG.builtin _ (by decide), b1]

theorem outer_type (B G : Scope Value) (us fr : List Int) (hG : Globals G us fr) (hB : Defines outerNames B)
    (oid ty off : Int) (hk : B s!' "bg_key" = some (keyStruct oid ty off)) :
    evalStmt cfg (.ite (.bin .ne (.field (.ident s!' "bg_key") (.ident s!' "type"))
      (.ident s!' "BTRFS_BLOCK_GROUP_ITEM_KEY")) [.cont] []) ⟨⟨out, none⟩, [B, G], fs⟩ =
      (⟨⟨out, none⟩, [B, G], fs⟩, if ty = 192 then .ok else .cont) := by
  obtain ⟨b1, b2, b3, b4, b5, b6, b7, b8⟩ := used_builtins
  have e1 := (key_field (cfg := cfg) (st := ⟨⟨out, none⟩, Vars.push [B, G], fs⟩) (get_skip rfl (get_here hk))).2.1
  have e2 : evalExpr cfg ⟨⟨out, none⟩, Vars.push [B, G], fs⟩ (.ident s!' "BTRFS_BLOCK_GROUP_ITEM_KEY") = .ok (.int 192) := by
    refine look (get_skip rfl (get_skip (hB _ (by decide)) (get_here ?_)))
    rw [hG.builtin _ (by decide), b5]
  have hc : evalCond cfg ⟨⟨out, none⟩, Vars.push [B, G], fs⟩ (.bin .ne (.field (.ident s!' "bg_key") (.ident s!' "type"))
      (.ident s!' "BTRFS_BLOCK_GROUP_ITEM_KEY")) = .ok (!(ty == 192)) := by
    rw [evalCond, evalExpr, e1, e2, ne_ints]; rfl
  by_cases ht : ty = 192
  · rw [if_pos ht]
    refine run_if (b := false) ?_ rfl rfl
    refine hc.trans ?_
    simp [ht]
  · rw [if_neg ht]
    refine run_if (b := true) ?_ rfl rfl
    refine hc.trans ?_
    simp [ht]

theorem outer_flags (B G : Scope Value) (us fr : List Int) (hG : Globals G us fr) (hB : Defines outerNames B)
    (nm : Str) (key : Option (Int × Int × Int)) (u c f : Nat) (hf : f < 2 ^ 64)
    (hb : B s!' "bg" = some (.struct nm key
      [(s!' "used", .int u), (s!' "chunk_objectid", .int c), (s!' "flags", .int f)])) :
    evalStmt cfg (.ite (.un .not (.paren (.bin .band (.field (.ident s!' "bg") (.ident s!' "flags"))
      (.ident s!' "BTRFS_BLOCK_GROUP_DATA")))) [.cont] []) ⟨⟨out, none⟩, [B, G], fs⟩ =
      (⟨⟨out, none⟩, [B, G], fs⟩, if f % 2 = 1 then .ok else .cont) := by
  obtain ⟨b1, b2, b3, b4, b5, b6, b7, b8⟩ := used_builtins
  have e0 : evalExpr cfg ⟨⟨out, none⟩, Vars.push [B, G], fs⟩ (.ident s!' "bg") = .ok (.struct nm key
      [(s!' "used", .int u), (s!' "chunk_objectid", .int c), (s!' "flags", .int f)]) :=
    look (get_skip rfl (get_here hb))
  have e1 : evalExpr cfg ⟨⟨out, none⟩, Vars.push [B, G], fs⟩ (.field (.ident s!' "bg") (.ident s!' "flags")) =
      .ok (.int f) := by
    rw [evalExpr, e0]; rfl
  have e2 : evalExpr cfg ⟨⟨out, none⟩, Vars.push [B, G], fs⟩ (.ident s!' "BTRFS_BLOCK_GROUP_DATA") = .ok (.int 1) := by
    refine look (get_skip rfl (get_skip (hB _ (by decide)) (get_here ?_)))
    rw [hG.builtin _ (by decide), b7]
  have e3 : binop .band (.ok (.int f)) (.ok (.int 1)) = .ok (.int (f % 2 : Nat)) := by
    rw [← and_one f hf]; rfl
  have e4 : ∀ i : Int, unop cfg.build .not (.ok (.int i)) = .ok (.bool (decide (i = 0))) := fun i => rfl
  have hc : evalCond cfg ⟨⟨out, none⟩, Vars.push [B, G], fs⟩ (.un .not (.paren (.bin .band
      (.field (.ident s!' "bg") (.ident s!' "flags")) (.ident s!' "BTRFS_BLOCK_GROUP_DATA")))) =
      .ok (decide (((f % 2 : Nat) : Int) = 0)) := by
    rw [evalCond, evalExpr, evalExpr, evalExpr, e1, e2, e3, e4]; rfl
  by_cases ht : f % 2 = 1
  · rw [if_pos ht]
    refine run_if (b := false) ?_ rfl rfl
    refine hc.trans ?_
    rw [ht]; rfl
  · rw [if_neg ht]
    refine run_if (b := true) ?_ rfl rfl
    refine hc.trans ?_
    rw [show f % 2 = 0 by omega]; rfl

theorem run_field (A : Scope Value) (rest : Vars Value) (x fld : Str) (e : Expr) (v : Value) (n : Str)
    (key : Option (Int × Int × Int)) (flds flds' : List (Str × Value)) (hx : A x = some (.struct n key flds))
    (he : evalExpr cfg ⟨⟨out, none⟩, A :: rest, fs⟩ e = .ok v) (hm : modifyField n (fun _ => .ok v) flds fld = .ok flds') :
    evalStmt cfg (.assign (.field (.ident x) (.ident fld)) e) ⟨⟨out, none⟩, A :: rest, fs⟩ =
      (⟨⟨out, none⟩, A.set x (.struct n key flds') :: rest, fs⟩, .ok) := by
  simp only [evalStmt, evalAssign, he, modifyLhs, Vars.modify, hx, hm, bind, Except.bind]

/-- a search key -/
def keyFields (a A t T : Int) : List (Str × Value) :=
  [(s!' "min_objectid", .int a), (s!' "max_objectid", .int A), (s!' "min_type", .int t), (s!' "max_type", .int T),
   (s!' "min_offset", .int 0), (s!' "max_offset", .int (2 ^ 64 - 1)),
   (s!' "min_transid", .int 0), (s!' "max_transid", .int (2 ^ 64 - 1))]

theorem keyFields_values (a A t T : Int) : KeyValues ⟨s!' "_btrfs_ioctl_search_key", none, keyFields a A t T⟩
    a A t T 0 (2 ^ 64 - 1 : Nat) 0 (2 ^ 64 - 1 : Nat) := by
  constructor <;> rfl

/-- the search of the inner loop -/
def extentSearch (s l : Nat) : SearchArgs := ⟨2, s, s + l - 1, 168, 168, 0, 2 ^ 64 - 1, 0, 2 ^ 64 - 1⟩

theorem dist_search (vars : Vars Value) (kv : Str) (kn : Kernel) (a A t T : Nat) (items : List Item) (vs : List Value)
    (hs : vars.get s!' "search" = some (.func .search)) (ht : vars.get s!' "BTRFS_EXTENT_TREE_OBJECTID" = some (.int 2))
    (hk : vars.get kv = some (.struct s!' "_btrfs_ioctl_search_key" none (keyFields a A t T)))
    (ha : a < 2 ^ 64) (hA : A < 2 ^ 64) (htt : t < 2 ^ 8) (hT : T < 2 ^ 8)
    (hsearch : Fs.search cfg.fuel (.mounted kn) ⟨2, a, A, t, T, 0, 2 ^ 64 - 1, 0, 2 ^ 64 - 1⟩ = .ok items)
    (hdec : decodeItems cfg.build items = .ok vs) :
    evalExpr cfg ⟨⟨out, none⟩, vars, some (.mounted kn)⟩
      (.call (.ident s!' "search") [.ident s!' "BTRFS_EXTENT_TREE_OBJECTID", .ident kv]) = .ok (.array vs false) := by
  have hr : (∀ x ∈ [2, a, A, 0, 2 ^ 64 - 1, 0, 2 ^ 64 - 1], x < 2 ^ 64) ∧ ∀ x ∈ [t, T], x < 2 ^ 8 := by
    simp only [List.mem_cons, forall_eq_or_imp, List.not_mem_nil, false_implies, implies_true, and_true]
    exact ⟨⟨by decide, ha, hA, by decide, by decide, by decide, by decide⟩, htt, hT⟩
  exact ((C49_in_range cfg ⟨⟨out, none⟩, vars, some (.mounted kn)⟩ _ _ _ (.mounted kn) 2 a A t T 0 (2 ^ 64 - 1) 0
    (2 ^ 64 - 1) _ (look hs) rfl (look ht) (look hk) (keyFields_values a A t T) hr).2 items hsearch).1 vs hdec

theorem outer_count (kn : Kernel) (A G : Scope Value) (us fr : List Int) (hG : Globals G us fr) (hA : Defines outerNames A)
    (nm : Str) (u c f s l : Nat) (hu : u < 2 ^ 64) (hf : f < 2 ^ 64) (hodd : f % 2 = 1) (hl0 : 0 < l)
    (hsl : s + l ≤ 2 ^ 64)
    (hb : A s!' "bg" = some (.struct nm (some ((s : Int), ((192 : Nat) : Int), (l : Int)))
      [(s!' "used", .int u), (s!' "chunk_objectid", .int c), (s!' "flags", .int f)]))
    (items : List Item) (vs : List Value) (hsearch : Fs.search cfg.fuel (.mounted kn) (extentSearch s l) = .ok items)
    (hdec : decodeItems cfg.build items = .ok vs)
    (hin : ∀ it ∈ items, it.1.objectid < s + l ∧ it.1.objectid < 2 ^ 64 ∧ it.1.offset < 2 ^ 64) :
    ∃ A' G', Globals G' (us ++ [((100 * u / l : Nat) : Int)])
        (fr ++ (gaps s ((items.filter known).filter fun it => it.1.ty == 168)).map Int.ofNat) ∧
      Defines outerNames A' ∧
      evalStmts cfg distBody ⟨⟨out, none⟩, [A, G], some (.mounted kn)⟩ =
        (⟨⟨out, none⟩, [A', G'], some (.mounted kn)⟩, .ok) := by
  obtain ⟨b1, b2, b3, b4, b5, b6, b7, b8⟩ := used_builtins
  rw [distBody, outer_keyof cfg out _ A G us fr hG hA _ _ _ _ _ hb]
  have hA1 := hA.set (keyStruct s (192 : Nat) l) (show s!' "bg_key" ∈ outerNames by decide)
  have hk1 : (A.set s!' "bg_key" (keyStruct s (192 : Nat) l)) s!' "bg_key" = some (keyStruct s (192 : Nat) l) :=
    set_same _ _ _
  have hb1 : (A.set s!' "bg_key" (keyStruct s (192 : Nat) l)) s!' "bg" = _ :=
    (set_other _ _ (by decide)).trans hb
  generalize A.set s!' "bg_key" (keyStruct s (192 : Nat) l) = A1 at hA1 hk1 hb1 ⊢
  have h2 := outer_type cfg out (some (.mounted kn)) A1 G us fr hG hA1 s (192 : Nat) l hk1
  have h3 := outer_flags cfg out (some (.mounted kn)) A1 G us fr hG hA1 nm _ u c f hf hb1
  rw [if_pos (by rfl)] at h2
  rw [if_pos hodd] at h3
  rw [run_ok h2, run_ok h3]
  have x1 : evalExpr cfg ⟨⟨out, none⟩, [A1, G], some (.mounted kn)⟩ (.field (.ident s!' "bg") (.ident s!' "used")) =
      .ok (.int u) := by
    rw [evalExpr, look (get_here hb1)]; rfl
  obtain ⟨y1, y2, y3⟩ := key_field (cfg := cfg) (st := ⟨⟨out, none⟩, [A1, G], some (.mounted kn)⟩) (get_here hk1)
  have hpct : evalExpr cfg ⟨⟨out, none⟩, [A1, G], some (.mounted kn)⟩ (.bin .div (.bin .mul (.int 100)
      (.field (.ident s!' "bg") (.ident s!' "used"))) (.field (.ident s!' "bg_key") (.ident s!' "offset"))) =
      .ok (.int (100 * u / l : Nat)) := by
    have hm : evalExpr cfg ⟨⟨out, none⟩, [A1, G], some (.mounted kn)⟩ (.bin .mul (.int 100)
        (.field (.ident s!' "bg") (.ident s!' "used"))) = .ok (.int (100 * u : Nat)) := by
      rw [evalExpr, x1, evalExpr, mul_ints]
      exact small_ok (by omega) (by omega)
    rw [evalExpr, hm, y3, div_ints, divI128, if_neg (by omega)]
    have hle : 100 * u / l ≤ 100 * u := Nat.div_le_self _ _
    exact small_ok (by rfl) (by omega)
  rw [step_local cfg out _ A1 G us fr hG _ _ _ _ (by decide) hpct]
  have hA2 := hA1.set (.int (100 * u / l : Nat)) (show s!' "percent_used" ∈ outerNames by decide)
  have hp2 : (A1.set s!' "percent_used" (.int (100 * u / l : Nat))) s!' "percent_used" = some (.int (100 * u / l : Nat)) :=
    set_same _ _ _
  have hk2 : (A1.set s!' "percent_used" (.int (100 * u / l : Nat))) s!' "bg_key" = _ :=
    (set_other _ _ (by decide)).trans hk1
  generalize A1.set s!' "percent_used" (.int (100 * u / l : Nat)) = A2 at hA2 hp2 hk2 ⊢
  have h5 : evalStmt cfg (.assign (.ident s!' "blk_group_usage") (.bin .plus (.ident s!' "blk_group_usage")
      (.ident s!' "percent_used"))) ⟨⟨out, none⟩, [A2, G], some (.mounted kn)⟩ = (⟨⟨out, none⟩, [A2,
        G.set s!' "blk_group_usage" (.array (us.map Value.int ++ [.int (100 * u / l : Nat)]) true)],
        some (.mounted kn)⟩, .ok) := by
    refine run_assign ?_ (insert_over (overwrite_skip (hA2 _ (by decide)) (overwrite_here hG.usage)))
    rw [evalExpr, look (get_skip (hA2 _ (by decide)) (get_here hG.usage)), look (get_here hp2), push_value]
  rw [run_ok h5]
  have hG2 := hG.set_usage (100 * u / l : Nat)
  generalize G.set s!' "blk_group_usage" (.array (us.map Value.int ++ [.int (100 * u / l : Nat)]) true) = G2 at hG2 ⊢
  obtain ⟨z1, -, z3⟩ := key_field (cfg := cfg) (st := ⟨⟨out, none⟩, [A2, G2], some (.mounted kn)⟩) (get_here hk2)
  rw [step_local cfg out _ A2 G2 _ fr hG2 _ _ _ _ (by decide) z1]
  have hA3 := hA2.set (.int s) (show s!' "bg_start" ∈ outerNames by decide)
  have hs3 : (A2.set s!' "bg_start" (.int s)) s!' "bg_start" = some (.int s) := set_same _ _ _
  have hk3 : (A2.set s!' "bg_start" (.int s)) s!' "bg_key" = _ := (set_other _ _ (by decide)).trans hk2
  generalize A2.set s!' "bg_start" (.int s) = A3 at hA3 hs3 hk3 ⊢
  obtain ⟨-, -, w3⟩ := key_field (cfg := cfg) (st := ⟨⟨out, none⟩, [A3, G2], some (.mounted kn)⟩) (get_here hk3)
  rw [step_local cfg out _ A3 G2 _ fr hG2 _ _ _ _ (by decide) w3]
  have hA4 := hA3.set (.int l) (show s!' "bg_len" ∈ outerNames by decide)
  have hl4 : (A3.set s!' "bg_len" (.int l)) s!' "bg_len" = some (.int l) := set_same _ _ _
  have hs4 : (A3.set s!' "bg_len" (.int l)) s!' "bg_start" = some (.int s) := (set_other _ _ (by decide)).trans hs3
  generalize A3.set s!' "bg_len" (.int l) = A4 at hA4 hl4 hs4 ⊢
  rw [step_local cfg out _ A4 G2 _ fr hG2 _ _ _ _ (by decide) (look (get_here hs4))]
  have hA5 := hA4.set (.int s) (show s!' "last_end" ∈ outerNames by decide)
  have hla5 : (A4.set s!' "last_end" (.int s)) s!' "last_end" = some (.int s) := set_same _ _ _
  have hl5 : (A4.set s!' "last_end" (.int s)) s!' "bg_len" = some (.int l) := (set_other _ _ (by decide)).trans hl4
  have hs5 : (A4.set s!' "last_end" (.int s)) s!' "bg_start" = some (.int s) := (set_other _ _ (by decide)).trans hs4
  generalize A4.set s!' "last_end" (.int s) = A5 at hA5 hla5 hl5 hs5 ⊢
  have builtin : ∀ (B : Scope Value), Defines outerNames B → ∀ (x : Str) (v : Value), scope0 x = some v → x ∉ outerNames →
      x ∉ globalNames → Vars.get [B, G2] x = some v := by
    intro B hB x v hv h1 h2
    exact get_skip (hB x h1) (get_here (by rw [hG2.builtin x h2, hv]))
  have hkey : evalExpr cfg ⟨⟨out, none⟩, [A5, G2], some (.mounted kn)⟩ (.call (.ident s!' "key")
      [.ident s!' "bg_start", .ident s!' "BTRFS_EXTENT_ITEM_KEY", .int 0, .int 0]) =
      .ok (.struct s!' "_btrfs_ioctl_search_key" none (keyFields s (2 ^ 64 - 1) 168 (2 ^ 8 - 1))) := by
    refine C47_key_fields cfg _ _ _ _ _ _ s 168 0 0 (look (builtin A5 hA5 _ _ b2 (by decide) (by decide)))
      (look (get_here hs5)) (look (builtin A5 hA5 _ _ b6 (by decide) (by decide))) ?_ ?_ <;> simp only [evalExpr]
  rw [step_local cfg out _ A5 G2 _ fr hG2 _ _ _ _ (by decide) hkey]
  have hA6 := hA5.set (.struct s!' "_btrfs_ioctl_search_key" none (keyFields s (2 ^ 64 - 1) 168 (2 ^ 8 - 1)))
    (show s!' "k2" ∈ outerNames by decide)
  have hk6 : (A5.set s!' "k2" (.struct s!' "_btrfs_ioctl_search_key" none (keyFields s (2 ^ 64 - 1) 168 (2 ^ 8 - 1))))
    s!' "k2" = _ := set_same _ _ _
  have hla6 : (A5.set s!' "k2" (.struct s!' "_btrfs_ioctl_search_key" none (keyFields s (2 ^ 64 - 1) 168 (2 ^ 8 - 1))))
    s!' "last_end" = _ := (set_other _ _ (by decide)).trans hla5
  have hl6 : (A5.set s!' "k2" (.struct s!' "_btrfs_ioctl_search_key" none (keyFields s (2 ^ 64 - 1) 168 (2 ^ 8 - 1))))
    s!' "bg_len" = _ := (set_other _ _ (by decide)).trans hl5
  have hs6 : (A5.set s!' "k2" (.struct s!' "_btrfs_ioctl_search_key" none (keyFields s (2 ^ 64 - 1) 168 (2 ^ 8 - 1))))
    s!' "bg_start" = _ := (set_other _ _ (by decide)).trans hs5
  generalize A5.set s!' "k2" (.struct s!' "_btrfs_ioctl_search_key" none (keyFields s (2 ^ 64 - 1) 168 (2 ^ 8 - 1))) = A6
    at hA6 hk6 hla6 hl6 hs6 ⊢
  have hmax : evalExpr cfg ⟨⟨out, none⟩, [A6, G2], some (.mounted kn)⟩ (.bin .minus (.bin .plus (.ident s!' "bg_start")
      (.ident s!' "bg_len")) (.int 1)) = .ok (.int (s + l - 1 : Nat)) := by
    have hp : evalExpr cfg ⟨⟨out, none⟩, [A6, G2], some (.mounted kn)⟩ (.bin .plus (.ident s!' "bg_start")
        (.ident s!' "bg_len")) = .ok (.int (s + l : Nat)) := by
      rw [evalExpr, look (get_here hs6), look (get_here hl6), plus_ints]
      exact small_ok (by omega) (by omega)
    rw [evalExpr, hp, evalExpr, minus_ints]
    exact small_ok (by omega) (by omega)
  have h10 := run_field cfg out (some (.mounted kn)) A6 [G2] s!' "k2" s!' "max_objectid" _ _ _ _ _
    (keyFields s (s + l - 1 : Nat) 168 (2 ^ 8 - 1)) hk6 hmax rfl
  rw [run_ok h10]
  have hA7 := hA6.set (.struct s!' "_btrfs_ioctl_search_key" none (keyFields s (s + l - 1 : Nat) 168 (2 ^ 8 - 1)))
    (show s!' "k2" ∈ outerNames by decide)
  have hk7 : (A6.set s!' "k2" (.struct s!' "_btrfs_ioctl_search_key" none (keyFields s (s + l - 1 : Nat) 168 (2 ^ 8 - 1))))
    s!' "k2" = _ := set_same _ _ _
  have hla7 : (A6.set s!' "k2" (.struct s!' "_btrfs_ioctl_search_key" none (keyFields s (s + l - 1 : Nat) 168 (2 ^ 8 - 1))))
    s!' "last_end" = _ := (set_other _ _ (by decide)).trans hla6
  have hl7 : (A6.set s!' "k2" (.struct s!' "_btrfs_ioctl_search_key" none (keyFields s (s + l - 1 : Nat) 168 (2 ^ 8 - 1))))
    s!' "bg_len" = _ := (set_other _ _ (by decide)).trans hl6
  have hs7 : (A6.set s!' "k2" (.struct s!' "_btrfs_ioctl_search_key" none (keyFields s (s + l - 1 : Nat) 168 (2 ^ 8 - 1))))
    s!' "bg_start" = _ := (set_other _ _ (by decide)).trans hs6
  generalize A6.set s!' "k2" (.struct s!' "_btrfs_ioctl_search_key" none (keyFields s (s + l - 1 : Nat) 168 (2 ^ 8 - 1))) = A7
    at hA7 hk7 hla7 hl7 hs7 ⊢
  have h11 := run_field cfg out (some (.mounted kn)) A7 [G2] s!' "k2" s!' "max_type" (.ident s!' "BTRFS_EXTENT_ITEM_KEY")
    _ _ _ _ (keyFields s (s + l - 1 : Nat) 168 168) hk7 (look (builtin A7 hA7 _ _ b6 (by decide) (by decide))) rfl
  rw [run_ok h11]
  have hA8 := hA7.set (.struct s!' "_btrfs_ioctl_search_key" none (keyFields s (s + l - 1 : Nat) 168 168))
    (show s!' "k2" ∈ outerNames by decide)
  have hk8 : (A7.set s!' "k2" (.struct s!' "_btrfs_ioctl_search_key" none (keyFields s (s + l - 1 : Nat) 168 168)))
    s!' "k2" = _ := set_same _ _ _
  have hla8 : (A7.set s!' "k2" (.struct s!' "_btrfs_ioctl_search_key" none (keyFields s (s + l - 1 : Nat) 168 168)))
    s!' "last_end" = _ := (set_other _ _ (by decide)).trans hla7
  have hl8 : (A7.set s!' "k2" (.struct s!' "_btrfs_ioctl_search_key" none (keyFields s (s + l - 1 : Nat) 168 168)))
    s!' "bg_len" = _ := (set_other _ _ (by decide)).trans hl7
  have hs8 : (A7.set s!' "k2" (.struct s!' "_btrfs_ioctl_search_key" none (keyFields s (s + l - 1 : Nat) 168 168)))
    s!' "bg_start" = _ := (set_other _ _ (by decide)).trans hs7
  generalize A7.set s!' "k2" (.struct s!' "_btrfs_ioctl_search_key" none (keyFields s (s + l - 1 : Nat) 168 168)) = A8
    at hA8 hk8 hla8 hl8 hs8 ⊢
  have hsea := dist_search cfg out [A8, G2] s!' "k2" kn s (s + l - 1) 168 168 items vs
    (builtin A8 hA8 _ _ b3 (by decide) (by decide)) (builtin A8 hA8 _ _ b8 (by decide) (by decide)) (get_here hk8)
    (by omega) (by omega) (by decide) (by decide) hsearch hdec
  rw [step_local cfg out _ A8 G2 _ fr hG2 _ _ _ _ (by decide) hsea]
  have hA9 := hA8.set (.array vs false) (show s!' "extents" ∈ outerNames by decide)
  have hx9 : (A8.set s!' "extents" (.array vs false)) s!' "extents" = _ := set_same _ _ _
  have hla9 : (A8.set s!' "extents" (.array vs false)) s!' "last_end" = _ := (set_other _ _ (by decide)).trans hla8
  have hl9 : (A8.set s!' "extents" (.array vs false)) s!' "bg_len" = _ := (set_other _ _ (by decide)).trans hl8
  have hs9 : (A8.set s!' "extents" (.array vs false)) s!' "bg_start" = _ := (set_other _ _ (by decide)).trans hs8
  generalize A8.set s!' "extents" (.array vs false) = A9 at hA9 hx9 hla9 hl9 hs9 ⊢
  obtain ⟨A2', A', G', r1, r2, r3⟩ := inner_loop cfg out (some (.mounted kn)) cfg.build s l (by omega) _
    (items.filter known) vs (C57_search_values cfg.build items vs hdec)
    (fun it h => hin it (List.mem_filter.1 h).1) Scope.empty A9 G2 fr s hG2 hA9 (Defines.empty _) hs9 hl9 hla9
  refine ⟨A', G', r1, r2, ?_⟩
  have hr : evalExpr cfg ⟨⟨out, none⟩, [Scope.empty, A9, G2], some (.mounted kn)⟩ (.ident s!' "extents") =
      .ok (.array vs false) := look (get_skip rfl (get_here hx9))
  have h12 : evalStmt cfg (.for (.ident s!' "extent") (.ident s!' "extents") distInner)
      ⟨⟨out, none⟩, [A9, G2], some (.mounted kn)⟩ = (⟨⟨out, none⟩, [A', G'], some (.mounted kn)⟩, .ok) := by
    simp only [evalStmt, inScope, Vars.push, evalFor, hr, Value.asVec, r3, Vars.pop]
  rw [run_ok h12, evalStmts]

theorem leAt_eight (m : Mem) (pos : Nat) : leAt m pos 8 < 2 ^ 64 := by
  have := leAt_lt m 8 pos
  have h : (256 : Nat) ^ 8 = 2 ^ 64 := by decide
  rwa [h] at this

/-- an item of another type, or a block group that is not for data, is passed over -/
theorem outer_skip (A G : Scope Value) (us fr : List Int) (hG : Globals G us fr) (hA : Defines outerNames A)
    (b : Build) (it : Item) (v : Value) (hv : OfItem b it v) (hb : A s!' "bg" = some v)
    (hno : ¬ (it.1.ty = 192 ∧ leAt (mem it.2) 16 8 % 2 = 1)) :
    ∃ A', Defines outerNames A' ∧ evalStmts cfg distBody ⟨⟨out, none⟩, [A, G], fs⟩ =
      (⟨⟨out, none⟩, [A', G], fs⟩, .cont) := by
  obtain ⟨nm, flds, hk⟩ := hv.keyed
  have hb' := hb
  rw [hk] at hb
  rw [distBody, outer_keyof cfg out fs A G us fr hG hA nm flds _ _ _ hb]
  have hA1 := hA.set (keyStruct it.1.objectid it.1.ty it.1.offset) (show s!' "bg_key" ∈ outerNames by decide)
  have h2 := outer_type cfg out fs _ G us fr hG hA1 it.1.objectid it.1.ty it.1.offset (set_same _ _ _)
  by_cases ht : it.1.ty = 192
  · rw [if_pos (by omega)] at h2
    rw [run_ok h2]
    have hf : ¬ leAt (mem it.2) 16 8 % 2 = 1 := fun h => hno ⟨ht, h⟩
    have h3 := outer_flags cfg out fs (A.set s!' "bg_key" (keyStruct it.1.objectid it.1.ty it.1.offset)) G us fr hG hA1
      _ _ _ _ (leAt (mem it.2) 16 8) (leAt_eight _ _) ((set_other _ _ (by decide)).trans (hb'.trans (by rw [hv.group ht])))
    rw [if_neg hf] at h3
    exact ⟨_, hA1, run_stop h3 (by decide)⟩
  · rw [if_neg (by omega)] at h2
    exact ⟨_, hA1, run_stop h2 (by decide)⟩

theorem outer_loop (b : Build) (kn : Kernel) (trees : Trees) (items : List Item) (vs : List Value)
    (hv : List.Forall₂ (OfItem b) items vs)
    (hx : ∀ it ∈ items, it.1.ty = 192 → leAt (mem it.2) 16 8 % 2 = 1 →
      0 < it.1.offset ∧ it.1.objectid + it.1.offset ≤ 2 ^ 64 ∧ ∃ ei ev,
        Fs.search cfg.fuel (.mounted kn) (extentSearch it.1.objectid it.1.offset) = .ok ei ∧
        decodeItems cfg.build ei = .ok ev ∧
        (∀ e ∈ ei, e.1.objectid < it.1.objectid + it.1.offset ∧ e.1.objectid < 2 ^ 64 ∧ e.1.offset < 2 ^ 64) ∧
        (ei.filter known).filter (fun e => e.1.ty == 168) = extentsOf trees it) :
    ∀ (A G : Scope Value) (us fr : List Int), Globals G us fr → Defines outerNames A →
      ∃ A' G', Globals G'
          (us ++ ((items.filter fun it => it.1.ty == 192 && leAt (mem it.2) 16 8 % 2 == 1).map percentUsed).map Int.ofNat)
          (fr ++ ((items.filter fun it => it.1.ty == 192 && leAt (mem it.2) 16 8 % 2 == 1).flatMap fun g =>
            gaps g.1.objectid (extentsOf trees g)).map Int.ofNat) ∧
        forLoop s!' "bg" (evalStmts cfg distBody) vs ⟨⟨out, none⟩, [A, G], some (.mounted kn)⟩ =
          (⟨⟨out, none⟩, [A', G'], some (.mounted kn)⟩, .ok) := by
  induction hv with
  | nil =>
    intro A G us fr hG hA
    exact ⟨A, G, by simpa using hG, by simp [forLoop]⟩
  | @cons it v items vs hiv _ ih =>
    intro A G us fr hG hA
    have ih' := ih (fun it h => hx it (by simp [h]))
    have hins : Vars.insert [A, G] s!' "bg" v = .ok [A.set s!' "bg" v, G] :=
      insert_inner _ (overwrite_absent (hG.local (by decide)) rfl)
    have hA1 := hA.set v (show s!' "bg" ∈ outerNames by decide)
    by_cases hg : it.1.ty = 192 ∧ leAt (mem it.2) 16 8 % 2 = 1
    · obtain ⟨h0, h1, ei, ev, h2, h3, h4, h5⟩ := hx it (by simp) hg.1 hg.2
      obtain ⟨A2, G2, k1, k2, k3⟩ := outer_count cfg out kn (A.set s!' "bg" v) G us fr hG hA1 _ _ _ _ it.1.objectid it.1.offset
        (leAt_eight _ _) (leAt_eight _ _) hg.2 h0 h1 ((set_same _ _ _).trans (by rw [hiv.group hg.1])) ei ev h2 h3 h4
      obtain ⟨A', G', r1, r2⟩ := ih' A2 G2 _ _ k1 k2
      refine ⟨A', G', ?_, ?_⟩
      · rw [List.filter_cons_of_pos (by simp [hg.1, hg.2])]
        rw [h5] at r1
        simp only [List.append_assoc, List.cons_append, List.nil_append] at r1
        simp only [List.map_cons, List.flatMap_cons, List.map_append]
        exact r1
      · rw [for_next hins k3 (.inl rfl), r2]
    · obtain ⟨A2, k2, k3⟩ := outer_skip cfg out (some (.mounted kn)) (A.set s!' "bg" v) G us fr hG hA1 b it v hiv
        (set_same _ _ _) hg
      obtain ⟨A', G', r1, r2⟩ := ih' A2 G us fr hG k2
      refine ⟨A', G', ?_, ?_⟩
      · rw [List.filter_cons_of_neg (by simp at hg ⊢; exact hg)]
        exact r1
      · rw [for_next hins k3 (.inr rfl), r2]

/-! ### Setting up -/

/-- the first search -/
def groupSearch : SearchArgs := ⟨2, 0, 2 ^ 64 - 1, 192, 192, 0, 2 ^ 64 - 1, 0, 2 ^ 64 - 1⟩

theorem hist_new (st : State) (f : Expr) (hf : evalExpr cfg st f = .ok (.func .hist)) :
    evalExpr cfg st (.call f []) = .ok (.array [] true) := by
  rw [evalExpr_call cfg st f .hist _ hf]
  rfl

theorem dist_setup (kn : Kernel) (fs0 : Option Fs)
    (hd : cfg.host.openDir s!' "/mnt/btrfs" = some ⟨some 0x9123683e, kn⟩) (items : List Item) (vs : List Value)
    (hsearch : Fs.search cfg.fuel (.mounted kn) groupSearch = .ok items) (hdec : decodeItems cfg.build items = .ok vs)
    (ss : List Stmt) :
    ∃ G, Globals G [] [] ∧ G s!' "bgs" = some (.array vs false) ∧
      evalStmts cfg (distSetup ++ ss) ⟨⟨out, none⟩, [scope0], fs0⟩ =
        evalStmts cfg ss ⟨⟨out, none⟩, [G], some (.mounted kn)⟩ := by
  obtain ⟨b1, b2, b3, b4, b5, b6, b7, b8⟩ := used_builtins
  have h1 : evalStmt cfg (.filesystem (.str s!' "/mnt/btrfs")) ⟨⟨out, none⟩, [scope0], fs0⟩ =
      (⟨⟨out, none⟩, [scope0], some (.mounted kn)⟩, .ok) := by
    have := (C63_directory_iff cfg.host _ _ hd (.mounted kn)).2 ⟨rfl, rfl⟩
    simp only [evalStmt, evalFilesystem, evalExpr, mount_path, this]
  have step : ∀ (G : Scope Value) (x : Str) (e : Expr) (v : Value) (ss : List Stmt),
      evalExpr cfg ⟨⟨out, none⟩, [G], some (.mounted kn)⟩ e = .ok v →
      evalStmts cfg (.assign (.ident x) e :: ss) ⟨⟨out, none⟩, [G], some (.mounted kn)⟩ =
        evalStmts cfg ss ⟨⟨out, none⟩, [G.set x v], some (.mounted kn)⟩ :=
    fun G x e v ss he => run_ok (run_assign he (insert_inner _ rfl))
  have stay : ∀ (G : Scope Value) (x y : Str) (v w : Value), G y = some w → y ≠ x → (G.set x v) y = some w :=
    fun G x y v w h hne => (set_other _ _ hne).trans h
  have free : ∀ (G : Scope Value) (x : Str) (v : Value), x ∈ globalNames → (∀ y, y ∉ globalNames → G y = scope0 y) →
      ∀ y, y ∉ globalNames → (G.set x v) y = scope0 y :=
    fun G x v hx h y hy => (set_other _ _ (fun e : y = x => hy (e ▸ hx))).trans (h y hy)
  have get : ∀ (G : Scope Value), (∀ y, y ∉ globalNames → G y = scope0 y) → ∀ (x : Str) (v : Value), scope0 x = some v →
      x ∉ globalNames → evalExpr cfg ⟨⟨out, none⟩, [G], some (.mounted kn)⟩ (.ident x) = .ok v :=
    fun G h x v hv hx => look (get_here ((h x hx).trans hv))
  have hkey : evalExpr cfg ⟨⟨out, none⟩, [scope0], some (.mounted kn)⟩ (.call (.ident s!' "key")
      [.int 0, .ident s!' "BTRFS_BLOCK_GROUP_ITEM_KEY", .int 0, .int 0]) =
      .ok (.struct s!' "_btrfs_ioctl_search_key" none (keyFields 0 (2 ^ 64 - 1) 192 (2 ^ 8 - 1))) := by
    refine C47_key_fields cfg _ _ _ _ _ _ 0 192 0 0 (get _ (fun _ _ => rfl) _ _ b2 (by decide)) ?_
      (get _ (fun _ _ => rfl) _ _ b5 (by decide)) ?_ ?_ <;> simp only [evalExpr]
  rw [distSetup]
  simp only [List.cons_append, List.nil_append]
  rw [run_ok h1, step _ _ _ _ _ hkey]
  have f1 := free scope0 s!' "k" (.struct s!' "_btrfs_ioctl_search_key" none (keyFields 0 (2 ^ 64 - 1) 192 (2 ^ 8 - 1)))
    (by decide) (fun _ _ => rfl)
  have k1 : (scope0.set s!' "k" (.struct s!' "_btrfs_ioctl_search_key" none (keyFields 0 (2 ^ 64 - 1) 192 (2 ^ 8 - 1))))
    s!' "k" = _ := set_same _ _ _
  generalize scope0.set s!' "k" (.struct s!' "_btrfs_ioctl_search_key" none (keyFields 0 (2 ^ 64 - 1) 192 (2 ^ 8 - 1))) = G1
    at f1 k1 ⊢
  have h3 := run_field cfg out (some (.mounted kn)) G1 [] s!' "k" s!' "max_type" (.ident s!' "BTRFS_BLOCK_GROUP_ITEM_KEY")
    _ _ _ _ (keyFields 0 (2 ^ 64 - 1) 192 192) k1 (get G1 f1 _ _ b5 (by decide)) rfl
  rw [run_ok h3]
  have f2 := free G1 s!' "k" (.struct s!' "_btrfs_ioctl_search_key" none (keyFields 0 (2 ^ 64 - 1) 192 192))
    (by decide) f1
  have k2 : (G1.set s!' "k" (.struct s!' "_btrfs_ioctl_search_key" none (keyFields 0 (2 ^ 64 - 1) 192 192)))
    s!' "k" = _ := set_same _ _ _
  generalize G1.set s!' "k" (.struct s!' "_btrfs_ioctl_search_key" none (keyFields 0 (2 ^ 64 - 1) 192 192)) = G2
    at f2 k2 ⊢
  have hsea := dist_search cfg out [G2] s!' "k" kn 0 (2 ^ 64 - 1) 192 192 items vs
    (get_here ((f2 _ (by decide)).trans b3)) (get_here ((f2 _ (by decide)).trans b8)) (get_here k2)
    (by decide) (by decide) (by decide) (by decide) hsearch hdec
  rw [step _ _ _ _ _ hsea]
  have f3 := free G2 s!' "bgs" (.array vs false) (by decide) f2
  have k3 : (G2.set s!' "bgs" (.array vs false)) s!' "bgs" = _ := set_same _ _ _
  generalize G2.set s!' "bgs" (.array vs false) = G3 at f3 k3 ⊢
  rw [step _ _ _ _ _ (hist_new cfg _ _ (get G3 f3 _ _ b4 (by decide)))]
  have f4 := free G3 s!' "blk_group_usage" (.array [] true) (by decide) f3
  have k4 := stay G3 s!' "blk_group_usage" _ (.array [] true) _ k3 (by decide)
  have u4 : (G3.set s!' "blk_group_usage" (.array [] true)) s!' "blk_group_usage" = _ := set_same _ _ _
  generalize G3.set s!' "blk_group_usage" (.array [] true) = G4 at f4 k4 u4 ⊢
  rw [step _ _ _ _ _ (hist_new cfg _ _ (get G4 f4 _ _ b4 (by decide)))]
  exact ⟨_, ⟨free G4 _ _ (by decide) f4, stay G4 _ _ _ _ u4 (by decide), set_same _ _ _⟩,
    stay G4 _ _ _ _ k4 (by decide), rfl⟩

end

/-! ### The report -/

theorem print_histText (cfg : Cfg) (vars : Vars Value) (out : Str) (fs : Option Fs) (e : Expr) (vals : List Int)
    (h : ∀ out, evalExpr cfg ⟨⟨out, none⟩, vars, fs⟩ e = .ok (.array (vals.map Value.int) true))
    (hlo : ∀ x ∈ vals, 0 ≤ x) (hhi : ∀ x ∈ vals, x ≤ 2 ^ 125) (hfu : 258 ≤ cfg.fuel) :
    ∃ t, HistText vals t ∧ printText cfg (.array (vals.map Value.int) true) = .ok t := by
  match vals, h, hlo, hhi with
  | [], h, _, _ => exact ⟨[], .inl ⟨rfl, rfl⟩, rfl⟩
  | v :: vs, h, hlo, hhi =>
    obtain ⟨bs, ls, h1, h2, h3, h4⟩ := C43_print_histogram cfg ⟨⟨out, none⟩, vars, fs⟩ e v vs (h out)
      (fun x hx => Int.le_trans (by decide) (hlo x hx)) hhi rfl hfu
    have c2 : (2:Int) ^ 125 < 2 ^ 127 := by decide
    have c1 : -(2:Int) ^ 127 ≤ 0 := by decide
    have hf : ∀ x ∈ v :: vs, Fits x :=
      fun x hx => ⟨Int.le_trans c1 (hlo x hx), Int.lt_of_le_of_lt (hhi x hx) c2⟩
    obtain ⟨mn, mx, lo, hi, g1, g2, g3, g4, g5, g6, g7, g8⟩ := histBuckets_spec hf h1
    refine ⟨ls.flatten, .inr ⟨mn, mx, lo, hi, bs, ls, g1, g2, g3, g6, g4, g7, g5, h2, rfl⟩, ?_⟩
    rw [evalStmt, evalPrint, h out] at h3 h4
    cases hp : printText cfg (.array ((v :: vs).map Value.int) true) with
    | error e =>
      simp only [hp] at h3
      cases h3
    | ok t =>
      simp only [hp, State.write, Sink.write] at h4
      have : t = ls.flatten := by simpa using h4
      rw [this]

theorem print_step {cfg : Cfg} {e : Expr} {v : Value} {t out : Str} {vars : Vars Value} {fs : Option Fs} {ss : List Stmt}
    (he : evalExpr cfg ⟨⟨out, none⟩, vars, fs⟩ e = .ok v) (hp : printText cfg v = .ok t) :
    evalStmts cfg (.print e :: ss) ⟨⟨out, none⟩, vars, fs⟩ =
      evalStmts cfg ss ⟨⟨out ++ (t ++ ['\n']), none⟩, vars, fs⟩ := by
  refine run_ok ?_
  simp only [evalStmt, evalPrint, he, hp, State.write, Sink.write]

/-- what `block_group_dist.btrd` reports -/
def distText (U F : Str) : Str :=
  s!' "block group usage:\n------------------\n" ++ U ++ s!' "\n\nextent free space:\n------------------\n" ++ F ++ ['\n']

theorem dist_report (cfg : Cfg) (fs : Option Fs) (G : Scope Value) (us fr : List Int) (hG : Globals G us fr)
    (U F : Str) (hU : printText cfg (.array (us.map Value.int) true) = .ok U)
    (hF : printText cfg (.array (fr.map Value.int) true) = .ok F) :
    evalStmts cfg distReport ⟨⟨[], none⟩, [G], fs⟩ = (⟨⟨distText U F, none⟩, [G], fs⟩, .ok) := by
  have p1 : printText cfg (.str (utf8 s!' "block group usage:")) = .ok s!' "block group usage:" := rfl
  have p2 : printText cfg (.str (utf8 s!' "------------------")) = .ok s!' "------------------" := rfl
  have p3 : printText cfg (.str (utf8 [])) = .ok [] := rfl
  have p4 : printText cfg (.str (utf8 s!' "extent free space:")) = .ok s!' "extent free space:" := rfl
  rw [distReport, print_step (by rw [evalExpr]) p1, print_step (by rw [evalExpr]) p2,
    print_step (look (get_here hG.usage)) hU, print_step (by rw [evalExpr]) p3, print_step (by rw [evalExpr]) p4,
    print_step (by rw [evalExpr]) p2, print_step (look (get_here hG.free)) hF, stmts_nil]
  simp [distText]

/-! ### The whole script -/

/-- the items of known types in the list decode -/
def Decodes (b : Build) (items : List Item) : Prop :=
  ∀ it ∈ items, ∀ s, structForKey it.1.objectid it.1.ty it.1.offset = some s →
    ∃ sv, structFromBytes b s (some (it.1.objectid, it.1.ty, it.1.offset)) it.2 = .ok sv

theorem decodeItems_ok (b : Build) : ∀ items, Decodes b items → ∃ vs, decodeItems b items = .ok vs
  | [], _ => ⟨[], rfl⟩
  | (h, bytes) :: its, hd => by
    obtain ⟨vs, hvs⟩ := decodeItems_ok b its (fun it hm => hd it (by simp [hm]))
    cases hs : structForKey h.objectid h.ty h.offset with
    | none => exact ⟨vs, by simp only [decodeItems, hs, hvs]⟩
    | some s =>
      obtain ⟨sv, hsv⟩ := hd (h, bytes) (by simp) s hs
      refine ⟨.struct sv.name sv.key sv.fields :: vs, ?_⟩
      simp only at hsv
      simp only [decodeItems, hs, hsv, hvs, bind, Except.bind]

theorem known_of_type {it : Item} (h : it.1.ty = 168 ∨ it.1.ty = 192) : known it = true := by
  have hn := structForKey_name it.1.objectid it.1.ty it.1.offset
  unfold known
  cases hs : structForKey it.1.objectid it.1.ty it.1.offset with
  | some s => rfl
  | none =>
    rw [hs] at hn
    rcases h with h | h <;> · rw [h] at hn; simp at hn

/-- a filesystem on which the report can be made: the extent tree (tree 2) holds items with 64-bit numbers, no
offset being the largest number; those of known types decode; each data block group is not empty and ends within the
64-bit address space -/
structure Reportable (b : Build) (trees : Trees) : Prop where
  fields : ∀ it ∈ trees 2, it.1.transid < 2 ^ 64 ∧ it.1.objectid < 2 ^ 64 ∧ it.1.offset < 2 ^ 64 - 1
  decodes : Decodes b (trees 2)
  groups : ∀ g ∈ dataGroups trees, 0 < g.1.offset ∧ g.1.objectid + g.1.offset ≤ 2 ^ 64

theorem dist_run (cfg : Cfg) : scriptRun cfg none distScript =
    (⟨(analyzeStmts distProgram AState.new).1,
      (evalStmts { cfg with interactive := false } distProgram (State.new cfg none)).1⟩,
     (evalStmts { cfg with interactive := false } distProgram (State.new cfg none)).2.toEvalResult) := by
  have ha := dist_analyzes
  simp only [scriptRun, runtimeEval, dist_parses, RState.new]
  revert ha
  generalize analyzeStmts distProgram AState.new = a
  obtain ⟨sem, r⟩ := a
  intro ha
  simp only at ha
  subst ha
  simp only [evalProgram]

theorem gaps_bound : ∀ (items : List Item) (pos B : Nat), (∀ it ∈ items, it.1.objectid < B) → ∀ x ∈ gaps pos items, x < B
  | [], _, _, _, x, hx => by simp [gaps] at hx
  | it :: its, pos, B, h, x, hx => by
    simp only [gaps, List.mem_append] at hx
    rcases hx with hx | hx
    · have := h it (by simp)
      split at hx
      · simp only [List.mem_singleton] at hx; omega
      · simp at hx
    · exact gaps_bound its _ B (fun it hm => h it (by simp [hm])) x hx

theorem small_hist {n : Nat} (h : n < 2 ^ 80) : 0 ≤ Int.ofNat n ∧ Int.ofNat n ≤ 2 ^ 125 := by
  have h1 : (2 : Int) ^ 80 ≤ 2 ^ 125 := by decide
  have h2 : (n : Int) < 2 ^ 80 := by exact_mod_cast h
  refine ⟨?_, ?_⟩
  · simp
  · change (n : Int) ≤ _; omega

/-- **C76**: with a btrfs filesystem mounted at `/mnt/btrfs` whose kernel keeps its promise about the items of
its trees, the bundled `block_group_dist.btrd` succeeds and prints two histograms: how full each data block group
is, in percent, and the lengths of the gaps in front of the extents of each. However the kernel splits its
answers. -/
theorem C76_report (cfg : Cfg) (k : Kernel) (trees : Trees) (hw : WellOrdered trees) (hk : Honours k trees)
    (hd : cfg.host.openDir s!' "/mnt/btrfs" = some ⟨some 0x9123683e, k⟩) (hr : Reportable cfg.build trees)
    (hfu : 258 ≤ cfg.fuel) (hlen : (trees 2).length < cfg.fuel) :
    (scriptRun cfg none distScript).2 = .ok ∧
    ∃ U F, HistText ((usageOf trees).map Int.ofNat) U ∧ HistText ((freeSpaceOf trees).map Int.ofNat) F ∧
      (scriptRun cfg none distScript).1.ev.sink.out =
        s!' "block group usage:\n------------------\n" ++ U ++
        s!' "\n\nextent free space:\n------------------\n" ++ F ++ ['\n'] := by
  obtain ⟨hfields, hdec, hgr⟩ := hr
  have hsearch : ∀ a : SearchArgs, a.treeId = 2 → a.maxType ≠ 255 →
      Fs.search cfg.fuel (.mounted k) a = .ok (matching trees a) ∧
      ∃ vs, decodeItems cfg.build (matching trees a) = .ok vs := by
    intro a ha ht
    have hsub : ∀ it ∈ matching trees a, it ∈ trees 2 := by
      intro it hm
      have := (List.mem_filter.1 hm).1
      rwa [ha] at this
    refine ⟨C60_bounded_complete_partial k trees hw hk a (fun h => ht h.2.1) (fun it hm => (hfields it (hsub it hm)).2.2) _ ?_, ?_⟩
    · refine Nat.lt_of_le_of_lt (List.length_filter_le _ _) ?_
      rw [ha]; exact hlen
    · exact decodeItems_ok _ _ (fun it hm => hdec it (hsub it hm))
  obtain ⟨s1, vs, d1⟩ := hsearch groupSearch rfl (by decide)
  have hgroups : ((matching trees groupSearch).filter known).filter
      (fun it => it.1.ty == 192 && leAt (mem it.2) 16 8 % 2 == 1) = dataGroups trees := by
    rw [List.filter_filter, matching, List.filter_filter]
    refine List.filter_congr ?_
    intro it hm
    obtain ⟨f1, f2, f3⟩ := hfields it hm
    by_cases ht : it.1.ty = 192
    · have ha : Asked groupSearch it := by
        refine ⟨?_, ?_, ?_, ?_⟩ <;> simp only [groupSearch, KeyLt, keyOf] <;> omega
      have hkn := known_of_type (it := it) (.inr ht)
      rw [hkn, decide_eq_true ha, Bool.and_true, Bool.and_true]
    · rw [beq_false_of_ne ht, Bool.false_and, Bool.false_and, Bool.false_and]
  obtain ⟨G, hG, hbgs, hset⟩ := dist_setup { cfg with interactive := false } [] k (State.new cfg none).fs hd _ vs s1 d1
    (.for (.ident s!' "bg") (.ident s!' "bgs") distBody :: distReport)
  obtain ⟨A', G', hG', hloop⟩ := outer_loop { cfg with interactive := false } [] cfg.build k trees
    ((matching trees groupSearch).filter known) vs (C57_search_values cfg.build _ vs d1) (by
      intro it hm h1 h2
      have hmem : it ∈ dataGroups trees := by
        rw [← hgroups]
        exact List.mem_filter.2 ⟨hm, by simp [h1, h2]⟩
      obtain ⟨g1, g2⟩ := hgr it hmem
      obtain ⟨s2, ev, d2⟩ := hsearch (extentSearch it.1.objectid it.1.offset) rfl
        (show (168 : Nat) ≠ 255 by decide)
      refine ⟨g1, g2, _, ev, s2, d2, ?_, ?_⟩
      · intro e he
        obtain ⟨he1, he2⟩ := List.mem_filter.1 he
        obtain ⟨f1, f2, f3⟩ := hfields e he1
        rw [decide_eq_true_eq] at he2
        have := he2.2.1
        simp only [extentSearch, KeyLt, keyOf] at this
        omega
      · rw [List.filter_filter, matching, List.filter_filter]
        refine List.filter_congr ?_
        intro e he
        obtain ⟨f1, f2, f3⟩ := hfields e he
        by_cases ht : e.1.ty = 168
        · have ha : Asked (extentSearch it.1.objectid it.1.offset) e ↔
              it.1.objectid ≤ e.1.objectid ∧ e.1.objectid < it.1.objectid + it.1.offset := by
            simp only [Asked, extentSearch, KeyLt, keyOf]
            omega
          have hkn := known_of_type (it := e) (.inl ht)
          rw [hkn, decide_eq_decide.2 ha, Bool.and_true, Bool.decide_and, Bool.and_assoc]
        · rw [beq_false_of_ne ht, Bool.false_and, Bool.false_and, Bool.false_and, Bool.false_and])
    Scope.empty G [] [] hG (Defines.empty _)
  rw [hgroups, List.nil_append, List.nil_append] at hG'
  have hu : ∀ x ∈ (usageOf trees).map Int.ofNat, 0 ≤ x ∧ x ≤ 2 ^ 125 := by
    intro x hx
    obtain ⟨n, hn, rfl⟩ := List.mem_map.1 hx
    obtain ⟨g, hg, rfl⟩ := List.mem_map.1 hn
    refine small_hist ?_
    have h1 := leAt_eight (mem g.2) 0
    have h2 : percentUsed g ≤ 100 * leAt (mem g.2) 0 8 := Nat.div_le_self _ _
    omega
  have hf : ∀ x ∈ (freeSpaceOf trees).map Int.ofNat, 0 ≤ x ∧ x ≤ 2 ^ 125 := by
    intro x hx
    obtain ⟨n, hn, rfl⟩ := List.mem_map.1 hx
    obtain ⟨g, hg, hx⟩ := List.mem_flatMap.1 hn
    refine small_hist ?_
    have := gaps_bound _ _ (2 ^ 64) (fun it hm => (hfields it (List.mem_filter.1 hm).1).2.1) n hx
    omega
  obtain ⟨U, hU, pU⟩ := print_histText { cfg with interactive := false } [G'] [] (some (.mounted k)) (.ident s!' "blk_group_usage")
    ((usageOf trees).map Int.ofNat) (fun out => look (get_here hG'.usage)) (fun x hx => (hu x hx).1) (fun x hx => (hu x hx).2)
    hfu
  obtain ⟨F, hF, pF⟩ := print_histText { cfg with interactive := false } [G'] [] (some (.mounted k)) (.ident s!' "extent_free_space")
    ((freeSpaceOf trees).map Int.ofNat) (fun out => look (get_here hG'.free)) (fun x hx => (hf x hx).1) (fun x hx => (hf x hx).2)
    hfu
  have hrep := dist_report { cfg with interactive := false } (some (.mounted k)) G' _ _ hG' U F pU pF
  have hfor : evalStmt { cfg with interactive := false } (.for (.ident s!' "bg") (.ident s!' "bgs") distBody)
      ⟨⟨[], none⟩, [G], some (.mounted k)⟩ = (⟨⟨[], none⟩, [G'], some (.mounted k)⟩, .ok) := by
    have he : evalExpr { cfg with interactive := false } ⟨⟨[], none⟩, [Scope.empty, G], some (.mounted k)⟩ (.ident s!' "bgs") =
      .ok (.array vs false) := look (get_skip rfl (get_here hbgs))
    simp only [evalStmt, inScope, Vars.push, evalFor, he, Value.asVec, hloop, Vars.pop]
  have hall : evalStmts { cfg with interactive := false } distProgram (State.new cfg none) =
      (⟨⟨distText U F, none⟩, [G'], some (.mounted k)⟩, .ok) := by
    refine hset.trans ?_
    rw [run_ok hfor, hrep]
  rw [dist_run, hall]
  exact ⟨rfl, U, F, hU, hF, rfl⟩

/-- **C76**: without a btrfs filesystem at `/mnt/btrfs` it prints nothing and fails. -/
theorem C76_no_filesystem (cfg : Cfg) (e : Fail) (hd : Fs.new cfg.host s!' "/mnt/btrfs" = .error e) :
    (scriptRun cfg none distScript).2 = .fail e ∧ (scriptRun cfg none distScript).1.ev.sink.out = [] := by
  have key : evalStmts { cfg with interactive := false } distProgram (State.new cfg none) =
      (State.new cfg none, .fail e) := by
    refine run_stop ?_ (by simp)
    simp only [evalStmt, evalFilesystem, evalExpr, mount_path, hd]
  rw [dist_run, key]
  exact ⟨rfl, rfl⟩

/-! ### A filesystem to report on -/

/-- a block group item: used, chunk objectid, flags -/
def groupBytes (used flags : UInt8) : Bytes := [0, 0, used, 0, 0, 0, 0, 0] ++ List.replicate 8 0 ++ flags :: List.replicate 7 0

/-- an extent item for data, without references: refs, generation, flags -/
def extentBytes : Bytes := 1 :: List.replicate 23 0

/-- a data block group of 1 MiB from 1 MiB on, with two extents; and one of metadata -/
def distItems : List Item :=
  [(⟨7, 0x100000, 0x1000, 168, 24⟩, extentBytes),
   (⟨7, 0x100000, 0x100000, 192, 24⟩, groupBytes 3 1),
   (⟨7, 0x104000, 0x2000, 168, 24⟩, extentBytes),
   (⟨7, 0x200000, 0x100000, 192, 24⟩, groupBytes 1 4)]

def distTrees : Trees := fun t => if t = 2 then distItems else []

theorem distTrees_ok : WellOrdered distTrees ∧ ∀ t, ∀ it ∈ distTrees t, Storable it := by
  refine ⟨?_, ?_⟩
  · intro t
    by_cases h : t = 2
    · simp only [distTrees, if_pos h]; decide
    · simp only [distTrees, if_neg h]; simp
  · intro t
    by_cases h : t = 2
    · simp only [distTrees, if_pos h]; decide
    · simp only [distTrees, if_neg h]; simp

set_option maxRecDepth 100000 in
theorem distItems_decode (b : Build) : Decodes b distItems := by
  have ext : ∀ (key : Option (Int × Int × Int)), ∃ sv, structFromBytes b struct_btrfs_extent_item key extentBytes = .ok sv :=
    fun key => ⟨_, (C55_extent_item_iff b key _ (by decide) _).2
      ⟨[1, 0, 0, 0, 0, 0, 0, 0], List.replicate 8 0, List.replicate 8 0, [], _, rfl, rfl, rfl, rfl, .nil, rfl⟩⟩
  intro it hm s hs
  simp only [distItems, List.mem_cons, List.not_mem_nil, or_false] at hm
  rcases hm with rfl | rfl | rfl | rfl
  · have : structForKey 0x100000 168 0x1000 = some struct_btrfs_extent_item := rfl
    rw [show s = struct_btrfs_extent_item from (Option.some.inj (this.symm.trans hs)).symm]
    exact ext _
  · have : structForKey 0x100000 192 0x100000 = some struct_btrfs_block_group_item := rfl
    rw [show s = struct_btrfs_block_group_item from (Option.some.inj (this.symm.trans hs)).symm]
    exact ⟨_, rfl⟩
  · have : structForKey 0x104000 168 0x2000 = some struct_btrfs_extent_item := rfl
    rw [show s = struct_btrfs_extent_item from (Option.some.inj (this.symm.trans hs)).symm]
    exact ext _
  · have : structForKey 0x200000 192 0x100000 = some struct_btrfs_block_group_item := rfl
    rw [show s = struct_btrfs_block_group_item from (Option.some.inj (this.symm.trans hs)).symm]
    exact ⟨_, rfl⟩

set_option maxRecDepth 100000 in
/-- witness: this filesystem is one of those of `C76_report`, whatever the kernel's answers are split into; its one data
block group is 18 percent full, and between its extents there are 12 KiB -/
example (chunk : Nat → Nat) : WellOrdered distTrees ∧ Honours (batchKernel distTrees chunk) distTrees ∧
    Reportable ⟨false⟩ distTrees ∧ usageOf distTrees = [18] ∧ freeSpaceOf distTrees = [12288] :=
  ⟨distTrees_ok.1, batchKernel_honours _ distTrees_ok.2 _,
   ⟨by decide, distItems_decode _, by decide⟩, by decide, by decide⟩

end Btrd
