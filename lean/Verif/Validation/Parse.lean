/-
The unit tests of `src/lang/parse.rs`, case by case, on the model. Generated by tools/gen_tests.py from the test data of
the project (12 tests, 105 cases). These are tests of the model, not proofs of properties.
-/
import Verif.Validation.Same

namespace Btrd.Validation
open P

/-- `test_string` (parse.rs:439) -/
example : sameE ((string (s!' "\"hello world\"")).map Prod.fst) (some (Expr.str (s!' "hello world"))) = true := by decide +kernel

/-- `test_string` (parse.rs:439) -/
example : sameE ((string (s!' "\"hello world\\n\"")).map Prod.fst) (some (Expr.str (s!' "hello world\n"))) = true := by decide +kernel

/-- `test_string` (parse.rs:439) -/
example : sameE ((string (s!' "\"hello world\\t\"")).map Prod.fst) (some (Expr.str (s!' "hello world\t"))) = true := by decide +kernel

/-- `test_string` (parse.rs:439) -/
example : sameE ((string (s!' "\"   hello world \" ")).map Prod.fst) (some (Expr.str (s!' "   hello world "))) = true := by decide +kernel

/-- `test_string` (parse.rs:439) -/
example : sameE ((string (s!' "\"❤\"")).map Prod.fst) (some (Expr.str (s!' "❤"))) = true := by decide +kernel

/-- `test_string` (parse.rs:439) -/
example : failed ((string (s!' "hello world\"")).map Prod.fst) = true := by decide +kernel

/-- `test_string` (parse.rs:439) -/
example : failed ((string (s!' "hello world")).map Prod.fst) = true := by decide +kernel

/-- `test_string` (parse.rs:439) -/
example : failed ((string (s!' "23423s")).map Prod.fst) = true := by decide +kernel

/-- `test_constant` (parse.rs:470) -/
example : sameE ((constant (s!' "0")).map Prod.fst) (some (Expr.int (0))) = true := by decide +kernel

/-- `test_constant` (parse.rs:470) -/
example : sameE ((constant (s!' "-0")).map Prod.fst) (some (Expr.int (0))) = true := by decide +kernel

/-- `test_constant` (parse.rs:470) -/
example : sameE ((constant (s!' "2342")).map Prod.fst) (some (Expr.int (2342))) = true := by decide +kernel

/-- `test_constant` (parse.rs:470) -/
example : sameE ((constant (s!' "-2342")).map Prod.fst) (some (Expr.int (-2342))) = true := by decide +kernel

/-- `test_constant` (parse.rs:470) -/
example : sameE ((constant (s!' "false")).map Prod.fst) (some (Expr.bool (false))) = true := by decide +kernel

/-- `test_constant` (parse.rs:470) -/
example : sameE ((constant (s!' "true")).map Prod.fst) (some (Expr.bool (true))) = true := by decide +kernel

/-- `test_constant` (parse.rs:470) -/
example : failed ((constant (s!' "abc")).map Prod.fst) = true := by decide +kernel

/-- `test_constant` (parse.rs:470) -/
example : failed ((constant (s!' "c3")).map Prod.fst) = true := by decide +kernel

/-- `test_constant` (parse.rs:470) -/
example : failed ((constant (s!' "-----")).map Prod.fst) = true := by decide +kernel

/-- `test_constant` (parse.rs:470) -/
example : failed ((constant (s!' "+234")).map Prod.fst) = true := by decide +kernel

/-- `test_primary_expr` (parse.rs:502) -/
example : sameE (((primaryExpr expr) (s!' "asdf")).map Prod.fst) (some (Expr.ident (s!' "asdf"))) = true := by decide +kernel

/-- `test_primary_expr` (parse.rs:502) -/
example : sameE (((primaryExpr expr) (s!' "_var1")).map Prod.fst) (some (Expr.ident (s!' "_var1"))) = true := by decide +kernel

/-- `test_primary_expr` (parse.rs:502) -/
example : sameE (((primaryExpr expr) (s!' "42")).map Prod.fst) (some (Expr.int (42))) = true := by decide +kernel

/-- `test_primary_expr` (parse.rs:502) -/
example : sameE (((primaryExpr expr) (s!' "(true)")).map Prod.fst) (some (Expr.paren (Expr.bool (true)))) = true := by decide +kernel

/-- `test_primary_expr` (parse.rs:502) -/
example : sameE (((primaryExpr expr) (s!' "(false)")).map Prod.fst) (some (Expr.paren (Expr.bool (false)))) = true := by decide +kernel

/-- `test_primary_expr` (parse.rs:502) -/
example : sameE (((primaryExpr expr) (s!' "(\"var3\")")).map Prod.fst) (some (Expr.paren (Expr.str (s!' "var3")))) = true := by decide +kernel

/-- `test_primary_expr` (parse.rs:502) -/
example : failed ((expr (s!' "$var1")).map Prod.fst) = true := by decide +kernel

/-- `test_primary_expr` (parse.rs:502) -/
example : failed ((expr (s!' "❤")).map Prod.fst) = true := by decide +kernel

/-- `test_primary_expr` (parse.rs:502) -/
example : failed ((expr (s!' "?")).map Prod.fst) = true := by decide +kernel

/-- `test_primary_expr` (parse.rs:502) -/
example : failed ((expr (s!' "=")).map Prod.fst) = true := by decide +kernel

/-- `test_postfix_expr` (parse.rs:561) -/
example : sameE ((expr (s!' "foo()")).map Prod.fst) (some (Expr.call (Expr.ident (s!' "foo")) [])) = true := by decide +kernel

/-- `test_postfix_expr` (parse.rs:561) -/
example : sameE ((expr (s!' "foo(1)")).map Prod.fst) (some (Expr.call (Expr.ident (s!' "foo")) [(Expr.int (1))])) = true := by decide +kernel

/-- `test_postfix_expr` (parse.rs:561) -/
example : sameE ((expr (s!' "func123(\"string\")")).map Prod.fst) (some (Expr.call (Expr.ident (s!' "func123")) [(Expr.str (s!' "string"))])) = true := by decide +kernel

/-- `test_postfix_expr` (parse.rs:561) -/
example : sameE ((expr (s!' "func123(\"string\", 342)")).map Prod.fst) (some (Expr.call (Expr.ident (s!' "func123")) [(Expr.str (s!' "string")), (Expr.int (342))])) = true := by decide +kernel

/-- `test_postfix_expr` (parse.rs:561) -/
example : sameE ((expr (s!' "func123(\"string\", 342, x + y)")).map Prod.fst) (some (Expr.call (Expr.ident (s!' "func123")) [(Expr.str (s!' "string")), (Expr.int (342)), (Expr.bin .plus (Expr.ident (s!' "x")) (Expr.ident (s!' "y")))])) = true := by decide +kernel

/-- `test_postfix_expr` (parse.rs:561) -/
example : sameE ((expr (s!' "foo[3]")).map Prod.fst) (some (Expr.index (Expr.ident (s!' "foo")) (Expr.int (3)))) = true := by decide +kernel

/-- `test_postfix_expr` (parse.rs:561) -/
example : sameE ((expr (s!' "foo[3 + x]")).map Prod.fst) (some (Expr.index (Expr.ident (s!' "foo")) (Expr.bin .plus (Expr.int (3)) (Expr.ident (s!' "x"))))) = true := by decide +kernel

/-- `test_postfix_expr` (parse.rs:561) -/
example : sameE ((expr (s!' "foo.y.z")).map Prod.fst) (some (Expr.field (Expr.field (Expr.ident (s!' "foo")) (Expr.ident (s!' "y"))) (Expr.ident (s!' "z")))) = true := by decide +kernel

/-- `test_postfix_expr` (parse.rs:561) -/
example : sameE ((expr (s!' "foo(y).z[3]")).map Prod.fst) (some (Expr.index (Expr.field (Expr.call (Expr.ident (s!' "foo")) [(Expr.ident (s!' "y"))]) (Expr.ident (s!' "z"))) (Expr.int (3)))) = true := by decide +kernel

/-- `test_arith_expr` (parse.rs:705) -/
example : sameE ((expr (s!' "1 + 2")).map Prod.fst) (some (Expr.bin .plus (Expr.int (1)) (Expr.int (2)))) = true := by decide +kernel

/-- `test_arith_expr` (parse.rs:705) -/
example : sameE ((expr (s!' "1 - 2")).map Prod.fst) (some (Expr.bin .minus (Expr.int (1)) (Expr.int (2)))) = true := by decide +kernel

/-- `test_arith_expr` (parse.rs:705) -/
example : sameE ((expr (s!' "1 + 2 + 3")).map Prod.fst) (some (Expr.bin .plus (Expr.bin .plus (Expr.int (1)) (Expr.int (2))) (Expr.int (3)))) = true := by decide +kernel

/-- `test_arith_expr` (parse.rs:705) -/
example : sameE ((expr (s!' "1 + 2 - 3")).map Prod.fst) (some (Expr.bin .minus (Expr.bin .plus (Expr.int (1)) (Expr.int (2))) (Expr.int (3)))) = true := by decide +kernel

/-- `test_arith_expr` (parse.rs:705) -/
example : sameE ((expr (s!' "1 + 2 * 3")).map Prod.fst) (some (Expr.bin .plus (Expr.int (1)) (Expr.bin .mul (Expr.int (2)) (Expr.int (3))))) = true := by decide +kernel

/-- `test_arith_expr` (parse.rs:705) -/
example : sameE ((expr (s!' "1 + 2 * 3 / 4")).map Prod.fst) (some (Expr.bin .plus (Expr.int (1)) (Expr.bin .div (Expr.bin .mul (Expr.int (2)) (Expr.int (3))) (Expr.int (4))))) = true := by decide +kernel

/-- `test_arith_expr` (parse.rs:705) -/
example : sameE ((expr (s!' "(1 + 2)")).map Prod.fst) (some (Expr.paren (Expr.bin .plus (Expr.int (1)) (Expr.int (2))))) = true := by decide +kernel

/-- `test_arith_expr` (parse.rs:705) -/
example : sameE ((expr (s!' "1 + (2 + 3)")).map Prod.fst) (some (Expr.bin .plus (Expr.int (1)) (Expr.paren (Expr.bin .plus (Expr.int (2)) (Expr.int (3)))))) = true := by decide +kernel

/-- `test_arith_expr` (parse.rs:705) -/
example : sameE ((expr (s!' "1 ^ 2 & 3 | 4")).map Prod.fst) (some (Expr.bin .bor (Expr.bin .bxor (Expr.int (1)) (Expr.bin .band (Expr.int (2)) (Expr.int (3)))) (Expr.int (4)))) = true := by decide +kernel

/-- `test_arith_expr` (parse.rs:705) -/
example : sameE ((expr (s!' "5 % 2 % 1")).map Prod.fst) (some (Expr.bin .mod (Expr.bin .mod (Expr.int (5)) (Expr.int (2))) (Expr.int (1)))) = true := by decide +kernel

/-- `test_arith_expr` (parse.rs:705) -/
example : sameE ((expr (s!' "1 + 2 * 3 / 4 ^ 5 & 6")).map Prod.fst) (some (Expr.bin .bxor (Expr.bin .plus (Expr.int (1)) (Expr.bin .div (Expr.bin .mul (Expr.int (2)) (Expr.int (3))) (Expr.int (4)))) (Expr.bin .band (Expr.int (5)) (Expr.int (6))))) = true := by decide +kernel

/-- `test_arith_expr` (parse.rs:705) -/
example : sameE ((expr (s!' "1 << 2 >> 3")).map Prod.fst) (some (Expr.bin .shr (Expr.bin .shl (Expr.int (1)) (Expr.int (2))) (Expr.int (3)))) = true := by decide +kernel

/-- `test_logic_expr` (parse.rs:924) -/
example : sameE ((expr (s!' "1 || 2")).map Prod.fst) (some (Expr.bin .lor (Expr.int (1)) (Expr.int (2)))) = true := by decide +kernel

/-- `test_logic_expr` (parse.rs:924) -/
example : sameE ((expr (s!' "1 || 2 || 3")).map Prod.fst) (some (Expr.bin .lor (Expr.bin .lor (Expr.int (1)) (Expr.int (2))) (Expr.int (3)))) = true := by decide +kernel

/-- `test_logic_expr` (parse.rs:924) -/
example : sameE ((expr (s!' "1 || 2 && 3")).map Prod.fst) (some (Expr.bin .lor (Expr.int (1)) (Expr.bin .land (Expr.int (2)) (Expr.int (3))))) = true := by decide +kernel

/-- `test_logic_expr` (parse.rs:924) -/
example : sameE ((expr (s!' "1 == 2 && 3 != 4")).map Prod.fst) (some (Expr.bin .land (Expr.bin .eq (Expr.int (1)) (Expr.int (2))) (Expr.bin .ne (Expr.int (3)) (Expr.int (4))))) = true := by decide +kernel

/-- `test_logic_expr` (parse.rs:924) -/
example : sameE ((expr (s!' "1 < 2 && 3 <= 4 || 5 > 6 && 7 >= 8")).map Prod.fst) (some (Expr.bin .lor (Expr.bin .land (Expr.bin .lt (Expr.int (1)) (Expr.int (2))) (Expr.bin .le (Expr.int (3)) (Expr.int (4)))) (Expr.bin .land (Expr.bin .gt (Expr.int (5)) (Expr.int (6))) (Expr.bin .ge (Expr.int (7)) (Expr.int (8)))))) = true := by decide +kernel

/-- `test_unary_expr` (parse.rs:1046) -/
example : sameE ((expr (s!' "~!-5")).map Prod.fst) (some (Expr.un .bitNot (Expr.un .not (Expr.un .minus (Expr.int (5)))))) = true := by decide +kernel

/-- `test_unary_expr` (parse.rs:1046) -/
example : sameE ((expr (s!' "(struct foo) 123")).map Prod.fst) (some (Expr.cast (Expr.ident (s!' "foo")) (Expr.int (123)))) = true := by decide +kernel

/-- `test_unary_expr` (parse.rs:1046) -/
example : sameE ((expr (s!' "(struct foo) !!123")).map Prod.fst) (some (Expr.cast (Expr.ident (s!' "foo")) (Expr.un .not (Expr.un .not (Expr.int (123)))))) = true := by decide +kernel

/-- `test_unary_expr` (parse.rs:1046) -/
example : sameE ((expr (s!' "(struct foo)(struct bar)(123)")).map Prod.fst) (some (Expr.cast (Expr.ident (s!' "foo")) (Expr.cast (Expr.ident (s!' "bar")) (Expr.paren (Expr.int (123)))))) = true := by decide +kernel

/-- `test_unary_expr` (parse.rs:1046) -/
example : failed ((expr (s!' "=2")).map Prod.fst) = true := by decide +kernel

/-- `test_unary_expr` (parse.rs:1046) -/
example : failed ((expr (s!' "/3+4")).map Prod.fst) = true := by decide +kernel

/-- `test_unary_expr` (parse.rs:1046) -/
example : failed ((expr (s!' "$$")).map Prod.fst) = true := by decide +kernel

/-- `test_writespace_ignored_expr` (parse.rs:1123) -/
example : sameE ((expr (s!' " ~ ! -   5")).map Prod.fst) ((expr (s!' "~!-5")).map Prod.fst) = true := by decide +kernel

/-- `test_writespace_ignored_expr` (parse.rs:1123) -/
example : sameE ((expr (s!' "1<2&&3   <=4        ||  5>6&&7>=8")).map Prod.fst) ((expr (s!' "1 < 2 && 3 <= 4 || 5 > 6 && 7 >= 8")).map Prod.fst) = true := by decide +kernel

/-- `test_writespace_ignored_expr` (parse.rs:1123) -/
example : sameE ((expr (s!' "1<2&&3   <=4        ||  5>6&&7>=8")).map Prod.fst) ((expr (s!' "1 < 2 && 3 <= 4 || 5 > 6 && 7 >= 8")).map Prod.fst) = true := by decide +kernel

/-- `test_writespace_ignored_expr` (parse.rs:1123) -/
example : sameE ((expr (s!' " 1<<2>>  3")).map Prod.fst) ((expr (s!' "1 << 2 >> 3")).map Prod.fst) = true := by decide +kernel

/-- `test_writespace_ignored_expr` (parse.rs:1123) -/
example : sameE ((expr (s!' " func  ( 123   )")).map Prod.fst) ((expr (s!' "func(123)")).map Prod.fst) = true := by decide +kernel

/-- `test_writespace_ignored_expr` (parse.rs:1123) -/
example : sameE ((expr (s!' "func  ( 123   ).field [99]")).map Prod.fst) ((expr (s!' "func(123).field[99]")).map Prod.fst) = true := by decide +kernel

/-- `test_writespace_ignored_expr` (parse.rs:1123) -/
example : sameE ((expr (s!' "func123(  \"string\"  ,   342   , x + y)")).map Prod.fst) ((expr (s!' "func123(\"string\", 342, x + y)")).map Prod.fst) = true := by decide +kernel

/-- `test_writespace_ignored_expr` (parse.rs:1123) -/
example : sameE ((expr (s!' "func123(\"string\",342,x+y)")).map Prod.fst) ((expr (s!' "func123(\"string\", 342, x + y)")).map Prod.fst) = true := by decide +kernel

/-- `test_block_stmt` (parse.rs:1157) -/
example : sameS (((stmt stmts) (s!' "for x in y { 1; }")).map Prod.fst) (some (Stmt.for (Expr.ident (s!' "x")) (Expr.ident (s!' "y")) [(Stmt.expr (Expr.int (1)))])) = true := by decide +kernel

/-- `test_block_stmt` (parse.rs:1157) -/
example : sameS (((stmt stmts) (s!' "while true { 1; }")).map Prod.fst) (some (Stmt.while (Expr.bool (true)) [(Stmt.expr (Expr.int (1)))])) = true := by decide +kernel

/-- `test_block_stmt` (parse.rs:1157) -/
example : sameS (((stmt stmts) (s!' "while false { break; continue; }")).map Prod.fst) (some (Stmt.while (Expr.bool (false)) [Stmt.brk, Stmt.cont])) = true := by decide +kernel

/-- `test_block_stmt` (parse.rs:1157) -/
example : sameS (((stmt stmts) (s!' "while (true) { 1; }")).map Prod.fst) (some (Stmt.while (Expr.paren (Expr.bool (true))) [(Stmt.expr (Expr.int (1)))])) = true := by decide +kernel

/-- `test_block_stmt` (parse.rs:1157) -/
example : sameS (((stmt stmts) (s!' "if true { 1; }")).map Prod.fst) (some (Stmt.ite (Expr.bool (true)) [(Stmt.expr (Expr.int (1)))] [])) = true := by decide +kernel

/-- `test_block_stmt` (parse.rs:1157) -/
example : sameS (((stmt stmts) (s!' "if (true) { 1; }")).map Prod.fst) (some (Stmt.ite (Expr.paren (Expr.bool (true))) [(Stmt.expr (Expr.int (1)))] [])) = true := by decide +kernel

/-- `test_block_stmt` (parse.rs:1157) -/
example : sameS (((stmt stmts) (s!' "if true { 1; } else { 2; }")).map Prod.fst) (some (Stmt.ite (Expr.bool (true)) [(Stmt.expr (Expr.int (1)))] [(Stmt.expr (Expr.int (2)))])) = true := by decide +kernel

/-- `test_block_stmt` (parse.rs:1157) -/
example : sameS (((stmt stmts) (s!' "if true { if false { 1; } } else { 2; }")).map Prod.fst) (some (Stmt.ite (Expr.bool (true)) [(Stmt.ite (Expr.bool (false)) [(Stmt.expr (Expr.int (1)))] [])] [(Stmt.expr (Expr.int (2)))])) = true := by decide +kernel

/-- `test_block_stmt` (parse.rs:1157) -/
example : failed (((stmt stmts) (s!' "while false 1;")).map Prod.fst) = true := by decide +kernel

/-- `test_block_stmt` (parse.rs:1157) -/
example : failed (((stmt stmts) (s!' "while false { 1;")).map Prod.fst) = true := by decide +kernel

/-- `test_block_stmt` (parse.rs:1157) -/
example : failed (((stmt stmts) (s!' "while false  1; }")).map Prod.fst) = true := by decide +kernel

/-- `test_block_stmt` (parse.rs:1157) -/
example : failed (((stmt stmts) (s!' "for (x) in y { 1; }")).map Prod.fst) = true := by decide +kernel

/-- `test_block_stmt` (parse.rs:1157) -/
example : failed (((stmt stmts) (s!' "for \"str\" in y { 1; }")).map Prod.fst) = true := by decide +kernel

/-- `test_block_stmt` (parse.rs:1157) -/
example : failed (((stmt stmts) (s!' "for x+y in z { 1; }")).map Prod.fst) = true := by decide +kernel

/-- `test_block_stmt` (parse.rs:1157) -/
example : failed (((stmt stmts) (s!' "for x+y in z 1; }")).map Prod.fst) = true := by decide +kernel

/-- `test_block_stmt` (parse.rs:1157) -/
example : failed (((stmt stmts) (s!' "for x+y z { 1; }")).map Prod.fst) = true := by decide +kernel

/-- `test_block_stmt` (parse.rs:1157) -/
example : failed (((stmt stmts) (s!' "for x in y { 1 }")).map Prod.fst) = true := by decide +kernel

/-- `test_block_stmt` (parse.rs:1157) -/
example : failed (((stmt stmts) (s!' "if true 1; else 2;")).map Prod.fst) = true := by decide +kernel

/-- `test_block_stmt` (parse.rs:1157) -/
example : failed (((stmt stmts) (s!' "if if true { 1; }")).map Prod.fst) = true := by decide +kernel

/-- `test_assign_stmt` (parse.rs:1318) -/
example : sameS (((stmt stmts) (s!' "x = y;")).map Prod.fst) (some (Stmt.assign (Expr.ident (s!' "x")) (Expr.ident (s!' "y")))) = true := by decide +kernel

/-- `test_assign_stmt` (parse.rs:1318) -/
example : sameS (((stmt stmts) (s!' "x = 1 + 2;")).map Prod.fst) (some (Stmt.assign (Expr.ident (s!' "x")) (Expr.bin .plus (Expr.int (1)) (Expr.int (2))))) = true := by decide +kernel

/-- `test_assign_stmt` (parse.rs:1318) -/
example : sameS (((stmt stmts) (s!' "x += 1;")).map Prod.fst) (some (Stmt.assign (Expr.ident (s!' "x")) (Expr.bin .plus (Expr.ident (s!' "x")) (Expr.int (1))))) = true := by decide +kernel

/-- `test_assign_stmt` (parse.rs:1318) -/
example : sameS (((stmt stmts) (s!' "x -= 1;")).map Prod.fst) (some (Stmt.assign (Expr.ident (s!' "x")) (Expr.bin .minus (Expr.ident (s!' "x")) (Expr.int (1))))) = true := by decide +kernel

/-- `test_assign_stmt` (parse.rs:1318) -/
example : sameS (((stmt stmts) (s!' "x += 1 + 2;")).map Prod.fst) (some (Stmt.assign (Expr.ident (s!' "x")) (Expr.bin .plus (Expr.ident (s!' "x")) (Expr.bin .plus (Expr.int (1)) (Expr.int (2)))))) = true := by decide +kernel

/-- `test_assign_stmt` (parse.rs:1318) -/
example : failed (((stmt stmts) (s!' "x = y = z")).map Prod.fst) = true := by decide +kernel

/-- `test_builtin_stmt` (parse.rs:1419) -/
example : sameS (((stmt stmts) (s!' "quit;")).map Prod.fst) (some Stmt.quit) = true := by decide +kernel

/-- `test_builtin_stmt` (parse.rs:1419) -/
example : sameS (((stmt stmts) (s!' "help;")).map Prod.fst) (some Stmt.help) = true := by decide +kernel

/-- `test_builtin_stmt` (parse.rs:1419) -/
example : sameS (((stmt stmts) (s!' "print x;")).map Prod.fst) (some (Stmt.print (Expr.ident (s!' "x")))) = true := by decide +kernel

/-- `test_builtin_stmt` (parse.rs:1419) -/
example : sameS (((stmt stmts) (s!' "filesystem \"/mnt/btrfs\";")).map Prod.fst) (some (Stmt.filesystem (Expr.str (s!' "/mnt/btrfs")))) = true := by decide +kernel

/-- `test_builtin_stmt` (parse.rs:1419) -/
example : failed (((stmt stmts) (s!' "filesystem foo;")).map Prod.fst) = true := by decide +kernel

/-- `test_builtin_stmt` (parse.rs:1419) -/
example : failed (((stmt stmts) (s!' "filesystem quit;")).map Prod.fst) = true := by decide +kernel

/-- `test_program` (parse.rs:1456) -/
example : sameP (parse (s!' "x = 3; if x { x = 5; } print x;")) (some [(Stmt.assign (Expr.ident (s!' "x")) (Expr.int (3))), (Stmt.ite (Expr.ident (s!' "x")) [(Stmt.assign (Expr.ident (s!' "x")) (Expr.int (5)))] []), (Stmt.print (Expr.ident (s!' "x")))]) = true := by decide +kernel

/-- `test_program` (parse.rs:1456) -/
example : sameP (parse (s!' "x = 3;;;;")) (some [(Stmt.assign (Expr.ident (s!' "x")) (Expr.int (3)))]) = true := by decide +kernel

/-- `test_program` (parse.rs:1456) -/
example : failed (parse (s!' "if true { 1; } else else false;")) = true := by decide +kernel

/-- `test_program` (parse.rs:1456) -/
example : failed (parse (s!' "1 + 2")) = true := by decide +kernel

/-- `test_program` (parse.rs:1456) -/
example : failed (parse (s!' "quit alas;")) = true := by decide +kernel

end Btrd.Validation
