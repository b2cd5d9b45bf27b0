/-
Model of `src/lang/semantics.rs`.
-/
import Verif.Model.Ast
import Verif.Model.Variables
import Verif.Model.StructTable

namespace Btrd

/-- The first scope of `Variables::new` (variables.rs:14-31): the constants, then the functions, in
order, later insertions overwriting earlier ones. -/
def initialScope {T : Type} (ofConst : Int → T) (ofFunc : Function → T) : Scope T :=
  functions.foldl (fun s f => s.set f.display (ofFunc f))
    (constants.foldl (fun s c => s.set c.1 (ofConst c.2)) Scope.empty)

/-- `SemanticAnalyzer` (semantics.rs:11-14) -/
structure AState where
  vars : Vars Unit
  loopDepth : Nat

/-- `SemanticAnalyzer::new` (semantics.rs:17-22) -/
def AState.new : AState := ⟨[initialScope (fun _ => ()) (fun _ => ())], 0⟩

/-- `STRUCTS.iter().any(|s| s.name == ident)` (semantics.rs:79) -/
def knownStruct (name : Str) : Bool := structs.any fun s => s.name == name

mutual
/-- `analyze_expr` and the functions it dispatches to (semantics.rs:24-123). They take `&mut self` but
change nothing. -/
def analyzeExpr (vs : Vars Unit) : Expr → R Unit
  | .ident name =>
    match vs.get name with
    | some _ => .ok ()
    | none => R.err (.unknownVar name)
  | .int _ => .ok ()
  | .bool _ => .ok ()
  | .str _ => .ok ()
  | .paren e => analyzeExpr vs e
  | .field e f =>
    match f with
    | .ident _ => analyzeExpr vs e
    | _ => R.err (.notIdentifier s!' "Field in a field access must be an identifier")
  | .index e i =>
    match analyzeExpr vs e with
    | .ok _ => analyzeExpr vs i
    | .error x => .error x
  | .call f args =>
    match analyzeExpr vs f with
    | .ok _ => analyzeArgs vs args
    | .error x => .error x
  | .bin _ l r =>
    match analyzeExpr vs l with
    | .ok _ => analyzeExpr vs r
    | .error x => .error x
  | .un _ e => analyzeExpr vs e
  | .cast ty e =>
    match ty with
    | .ident name => if knownStruct name then analyzeExpr vs e else R.err (.unknownType name)
    | _ => R.err .badCast
/-- the argument loop (semantics.rs:114-116) -/
def analyzeArgs (vs : Vars Unit) : List Expr → R Unit
  | [] => .ok ()
  | e :: es =>
    match analyzeExpr vs e with
    | .ok _ => analyzeArgs vs es
    | .error x => .error x
end

/-- `self.variables.insert(ident, ())` (semantics.rs:157, 210) as a step on the analyzer -/
def AState.declare (a : AState) (name : Str) : AState × R Unit :=
  match a.vars.insert name () with
  | .ok vs => ({ a with vars := vs }, .ok ())
  | .error e => (a, .error e)

/-- Run `f` unless the previous step failed; the state is kept either way (`?` on `&mut self`,
semantics.rs:127, 139-141). -/
def andThenA (r : AState × R Unit) (f : AState → AState × R Unit) : AState × R Unit :=
  match r.2 with
  | .ok _ => f r.1
  | .error e => (r.1, .error e)

/-- `push_scope(); let ret = body(); pop_scope(); ret`, with `loop_depth` raised by `d` meanwhile
(semantics.rs:172-204). The scope is popped on errors too. `loop_depth` is a `u32`; nesting 2^32 loops
is not modelled. -/
def scopedA (d : Nat) (a : AState) (body : AState → AState × R Unit) : AState × R Unit :=
  let r := body ⟨a.vars.push, a.loopDepth + d⟩
  match r.1.vars.pop with
  | .ok vs => (⟨vs, r.1.loopDepth - d⟩, r.2)
  | .error e => (r.1, .error e)

mutual
/-- `analyze_stmt`, `analyze_block_stmt`, `analyze_if/while/for` (semantics.rs:133-242) -/
def analyzeStmt : Stmt → AState → AState × R Unit
  | .assign lhs rhs, a =>
    match lhs with
    | .ident name => andThenA (a.declare name) fun a => (a, analyzeExpr a.vars rhs)
    | lhs =>
      match analyzeExpr a.vars lhs with
      | .ok _ => (a, analyzeExpr a.vars rhs)
      | .error e => (a, .error e)
  | .ite c t f, a =>
    scopedA 0 a fun a =>
      match analyzeExpr a.vars c with
      | .ok _ => andThenA (analyzeStmts t a) (analyzeStmts f)
      | .error e => (a, .error e)
  | .while c body, a =>
    scopedA 1 a fun a =>
      match analyzeExpr a.vars c with
      | .ok _ => analyzeStmts body a
      | .error e => (a, .error e)
  | .for x range body, a =>
    scopedA 1 a fun a =>
      match x with
      | .ident name =>
        andThenA (a.declare name) fun a =>
          match analyzeExpr a.vars range with
          | .ok _ => analyzeStmts body a
          | .error e => (a, .error e)
      | _ => (a, R.err (.notIdentifier s!' "Temporary variable in a for-loop must be an identifier"))
  | .brk, a => (a, ensure (decide (a.loopDepth > 0)) (.jumpOutsideLoop true))
  | .cont, a => (a, ensure (decide (a.loopDepth > 0)) (.jumpOutsideLoop false))
  | .help, a => (a, .ok ())
  | .quit, a => (a, .ok ())
  | .filesystem e, a =>
    match e with
    | .str _ => (a, .ok ())
    | _ => (a, R.err .filesystemArg)
  | .print e, a => (a, analyzeExpr a.vars e)
  | .expr e, a => (a, analyzeExpr a.vars e)
/-- `analyze_stmts` / `analyze` (semantics.rs:125-131, 244-250) -/
def analyzeStmts : List Stmt → AState → AState × R Unit
  | [], a => (a, .ok ())
  | s :: ss, a => andThenA (analyzeStmt s a) (analyzeStmts ss)
end

end Btrd
