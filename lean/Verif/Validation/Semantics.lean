/-
The unit tests of `src/lang/semantics.rs`, case by case, on the model. Generated by tools/gen_tests2.py from the test data
of the project (4 tests, 11 cases). These are tests of the model, not proofs of properties.
-/
import Verif.Model.Parse
import Verif.Model.Semantics

namespace Btrd.Validation

/-- the program passes the static checks -/
def passes (input : Str) : Bool :=
  match parse input with
  | none => false
  | some p =>
    match (analyzeStmts p AState.new).2 with
    | .ok _ => true
    | .error _ => false

/-- it is a program, and the static checks refuse it -/
def refuses (input : Str) : Bool :=
  match parse input with
  | none => false
  | some p =>
    match (analyzeStmts p AState.new).2 with
    | .error (.err _) => true
    | _ => false

/-- `test_jump_outside_loop` (semantics.rs:265) -/
example : refuses (s!' "\n            break;\n        ") = true := by decide +kernel

/-- `test_jump_outside_loop` (semantics.rs:265) -/
example : refuses (s!' "\n            continue;\n        ") = true := by decide +kernel

/-- `test_jump_outside_loop` (semantics.rs:265) -/
example : passes (s!' "\n            while true {\n                break;\n                continue;\n            }\n        ") = true := by decide +kernel

/-- `test_jump_outside_loop` (semantics.rs:265) -/
example : passes (s!' "\n            for i in true {\n                break;\n                continue;\n            }\n        ") = true := by decide +kernel

/-- `test_variable_scope` (semantics.rs:303) -/
example : refuses (s!' "\n            while true {\n                inner_var = 3;\n            }\n            outer_var = inner_var;\n        ") = true := by decide +kernel

/-- `test_variable_scope` (semantics.rs:303) -/
example : refuses (s!' "\n            for i in true {\n                inner_var = 3;\n            }\n            outer_var = inner_var;\n        ") = true := by decide +kernel

/-- `test_variable_scope` (semantics.rs:303) -/
example : passes (s!' "\n            while true {\n                inner_var = 3;\n                inner_var = 4;\n            }\n        ") = true := by decide +kernel

/-- `test_variable_scope` (semantics.rs:303) -/
example : passes (s!' "\n            for i in true {\n                inner_var = 3;\n                inner_var2 = inner_var;\n            }\n        ") = true := by decide +kernel

/-- `test_builtin` (semantics.rs:347) -/
example : passes (s!' "\n            help;\n            quit;\n            filesystem \"/mnt/asdf/waa\";\n            print 3;\n            print true;\n            print \"asdf\";\n        ") = true := by decide +kernel

/-- `test_type_cast` (semantics.rs:363) -/
example : passes (s!' "\n            (struct btrfs_key) 1;\n        ") = true := by decide +kernel

/-- `test_type_cast` (semantics.rs:363) -/
example : refuses (s!' "\n            (struct btrfs_keyz) 1;\n        ") = true := by decide +kernel

end Btrd.Validation
