/-
The unit tests of `src/lang/eval/eval.rs`, case by case, on the model. Generated by tools/gen_tests2.py from the test data
of the project (11 tests, 93 cases). These are tests of the model, not proofs of properties.
-/
import Verif.Model.Parse
import Verif.Model.Eval

namespace Btrd.Validation

/-- the bytes of a text of ASCII characters -/
def ascii (s : Str) : Bytes := s.map fun c => UInt8.ofNat c.toNat

/-- no filesystem; a bound on loops that is never reached -/
def plainCfg (interactive : Bool) : Cfg := ⟨⟨true⟩, ⟨fun _ => none, fun _ => none, none⟩, interactive, 100⟩

/-- `Eval::new` with these variables in addition -/
def startWith (interactive : Bool) (vars : List (Str × Value)) : State :=
  vars.foldl (fun st v => match st.vars.insert v.1 v.2 with
    | .ok vs => { st with vars := vs }
    | .error _ => st) (State.new (plainCfg interactive) none)

/-- the program runs and prints this -/
def evalsTo (interactive : Bool) (vars : List (Str × Value)) (input expected : Str) : Bool :=
  match parse input with
  | none => false
  | some p =>
    match evalProgram (plainCfg interactive) p (startWith interactive vars) with
    | (st, .ok) => st.sink.out == expected
    | _ => false

/-- the program runs -/
def evals (input : Str) : Bool :=
  match parse input with
  | none => false
  | some p =>
    match evalProgram (plainCfg false) p (startWith false []) with
    | (_, .ok) => true
    | _ => false

/-- the program is one, and fails with an error -/
def evalFails (input : Str) : Bool :=
  match parse input with
  | none => false
  | some p =>
    match evalProgram (plainCfg false) p (startWith false []) with
    | (_, .fail (.err _)) => true
    | _ => false

/-- `test_expression` (eval.rs:843) -/
example : evalsTo false [] (s!' "print ~8;") (s!' "-9\n") = true := by decide +kernel

/-- `test_expression` (eval.rs:843) -/
example : evalsTo false [] (s!' "print -8;") (s!' "-8\n") = true := by decide +kernel

/-- `test_expression` (eval.rs:843) -/
example : evalsTo false [] (s!' "print !8;") (s!' "false\n") = true := by decide +kernel

/-- `test_expression` (eval.rs:843) -/
example : evalsTo false [] (s!' "print !0;") (s!' "true\n") = true := by decide +kernel

/-- `test_expression` (eval.rs:843) -/
example : evalsTo false [] (s!' "print !!8;") (s!' "true\n") = true := by decide +kernel

/-- `test_expression` (eval.rs:843) -/
example : evalsTo false [] (s!' "print 5 + 5;") (s!' "10\n") = true := by decide +kernel

/-- `test_expression` (eval.rs:843) -/
example : evalsTo false [] (s!' "print 100 -3;") (s!' "97\n") = true := by decide +kernel

/-- `test_expression` (eval.rs:843) -/
example : evalsTo false [] (s!' "print 100* 3;") (s!' "300\n") = true := by decide +kernel

/-- `test_expression` (eval.rs:843) -/
example : evalsTo false [] (s!' "print 99 / 3;") (s!' "33\n") = true := by decide +kernel

/-- `test_expression` (eval.rs:843) -/
example : evalsTo false [] (s!' "print 100 / 3;") (s!' "33\n") = true := by decide +kernel

/-- `test_expression` (eval.rs:843) -/
example : evalsTo false [] (s!' "print 100 % 3;") (s!' "1\n") = true := by decide +kernel

/-- `test_expression` (eval.rs:843) -/
example : evalsTo false [] (s!' "print 1 == 1;") (s!' "true\n") = true := by decide +kernel

/-- `test_expression` (eval.rs:843) -/
example : evalsTo false [] (s!' "print true == false;") (s!' "false\n") = true := by decide +kernel

/-- `test_expression` (eval.rs:843) -/
example : evalsTo false [] (s!' "print true != false;") (s!' "true\n") = true := by decide +kernel

/-- `test_expression` (eval.rs:843) -/
example : evalsTo false [] (s!' "print true != false && 2 == 2;") (s!' "true\n") = true := by decide +kernel

/-- `test_expression` (eval.rs:843) -/
example : evalsTo false [] (s!' "print true != false && 2 != 2;") (s!' "false\n") = true := by decide +kernel

/-- `test_expression` (eval.rs:843) -/
example : evalsTo false [] (s!' "print true != false || 2 != 2;") (s!' "true\n") = true := by decide +kernel

/-- `test_expression` (eval.rs:843) -/
example : evalsTo false [] (s!' "print 7 & 1;") (s!' "1\n") = true := by decide +kernel

/-- `test_expression` (eval.rs:843) -/
example : evalsTo false [] (s!' "print 0 | 1 | 2;") (s!' "3\n") = true := by decide +kernel

/-- `test_expression` (eval.rs:843) -/
example : evalsTo false [] (s!' "print 1 ^ 2;") (s!' "3\n") = true := by decide +kernel

/-- `test_expression` (eval.rs:843) -/
example : evalsTo false [] (s!' "print 1 << 2;") (s!' "4\n") = true := by decide +kernel

/-- `test_expression` (eval.rs:843) -/
example : evalsTo false [] (s!' "print 1 << 3;") (s!' "8\n") = true := by decide +kernel

/-- `test_expression` (eval.rs:843) -/
example : evalsTo false [] (s!' "print 1 < 3;") (s!' "true\n") = true := by decide +kernel

/-- `test_expression` (eval.rs:843) -/
example : evalsTo false [] (s!' "print 3 <= 3;") (s!' "true\n") = true := by decide +kernel

/-- `test_expression` (eval.rs:843) -/
example : evalsTo false [] (s!' "print 3 > 3;") (s!' "false\n") = true := by decide +kernel

/-- `test_expression` (eval.rs:843) -/
example : evalsTo false [] (s!' "print 3 >= 3;") (s!' "true\n") = true := by decide +kernel

/-- `test_expression` (eval.rs:843) -/
example : evalsTo false [] (s!' "print !1;") (s!' "false\n") = true := by decide +kernel

/-- `test_expression` (eval.rs:843) -/
example : evalsTo false [] (s!' "print !!1;") (s!' "true\n") = true := by decide +kernel

/-- `test_expression` (eval.rs:843) -/
example : evalsTo false [] (s!' "print !!!!!5;") (s!' "false\n") = true := by decide +kernel

/-- `test_expression` (eval.rs:843) -/
example : evalsTo false [] (s!' "print ~1;") (s!' "-2\n") = true := by decide +kernel

/-- `test_expression` (eval.rs:843) -/
example : evalsTo false [] (s!' "print -~~~5;") (s!' "6\n") = true := by decide +kernel

/-- `test_expression` (eval.rs:843) -/
example : evalsTo false [] (s!' "print --5;") (s!' "5\n") = true := by decide +kernel

/-- `test_expression` (eval.rs:843) -/
example : evalFails (s!' "!\"str\";") = true := by decide +kernel

/-- `test_expression` (eval.rs:843) -/
example : evalFails (s!' "~\"asdf\";") = true := by decide +kernel

/-- `test_expression` (eval.rs:843) -/
example : evalFails (s!' "~true;") = true := by decide +kernel

/-- `test_expression` (eval.rs:843) -/
example : evalFails (s!' "-\"str\";") = true := by decide +kernel

/-- `test_expression` (eval.rs:843) -/
example : evalFails (s!' "-true;") = true := by decide +kernel

/-- `test_expression` (eval.rs:843) -/
example : evalFails (s!' "true + 3;") = true := by decide +kernel

/-- `test_expression` (eval.rs:843) -/
example : evalFails (s!' "\"string\" * false;") = true := by decide +kernel

/-- `test_expression` (eval.rs:843) -/
example : evalFails (s!' "\"string\" / 1234;") = true := by decide +kernel

/-- `test_expression` (eval.rs:843) -/
example : evalFails (s!' "\"string\" % 1234;") = true := by decide +kernel

/-- `test_expression` (eval.rs:843) -/
example : evalFails (s!' "true && 3;") = true := by decide +kernel

/-- `test_expression` (eval.rs:843) -/
example : evalFails (s!' "false || 3;") = true := by decide +kernel

/-- `test_expression` (eval.rs:843) -/
example : evalFails (s!' "false | 3;") = true := by decide +kernel

/-- `test_expression` (eval.rs:843) -/
example : evalFails (s!' "3 & true;") = true := by decide +kernel

/-- `test_expression` (eval.rs:843) -/
example : evalFails (s!' "3 ^ true;") = true := by decide +kernel

/-- `test_expression` (eval.rs:843) -/
example : evalFails (s!' "1 << \"asdf\";") = true := by decide +kernel

/-- `test_expression` (eval.rs:843) -/
example : evalFails (s!' "true >> 3;") = true := by decide +kernel

/-- `test_expression` (eval.rs:843) -/
example : evalFails (s!' "1 < \"str\";") = true := by decide +kernel

/-- `test_expression` (eval.rs:843) -/
example : evalFails (s!' "1 > \"str\";") = true := by decide +kernel

/-- `test_expression` (eval.rs:843) -/
example : evalFails (s!' "1 >= \"str\";") = true := by decide +kernel

/-- `test_expression` (eval.rs:843) -/
example : evalFails (s!' "1 <= \"str\";") = true := by decide +kernel

/-- `test_if` (eval.rs:931) -/
example : evalsTo false [] (s!' "x = 3; if x == 3 { print \"yep\"; }") (s!' "yep\n") = true := by decide +kernel

/-- `test_if` (eval.rs:931) -/
example : evalsTo false [] (s!' "x = 3; if x != 3 { print \"nope\"; } else { print \"yep\"; }") (s!' "yep\n") = true := by decide +kernel

/-- `test_if` (eval.rs:931) -/
example : evalsTo false [] (s!' "x = 3; if x != 3 { print \"nope\"; } else { print \"yep\"; if x == 3 { x = 4; } } print x;") (s!' "yep\n4\n") = true := by decide +kernel

/-- `test_loop` (eval.rs:960) -/
example : evalsTo false [] (s!' "x = 0; while x < 5 { if x == 3 { print x; break; } x = x + 1; }") (s!' "3\n") = true := by decide +kernel

/-- `test_interactive` (eval.rs:982) -/
example : evalsTo true [] (s!' "2+3;") (s!' "5\n") = true := by decide +kernel

/-- `test_function_key` (eval.rs:994) -/
example : evalsTo false [] (s!' "k = key(0, 1, 2, 3); print k.min_objectid;") (s!' "0\n") = true := by decide +kernel

/-- `test_function_key` (eval.rs:994) -/
example : evalsTo false [] (s!' "k = key(0, 1, 2, 3); print k.min_type;") (s!' "1\n") = true := by decide +kernel

/-- `test_function_key` (eval.rs:994) -/
example : evalsTo false [] (s!' "k = key(0, 1, 2, 3); print k.min_offset;") (s!' "2\n") = true := by decide +kernel

/-- `test_function_key` (eval.rs:994) -/
example : evalsTo false [] (s!' "k = key(0, 1, 2, 3); print k.min_transid;") (s!' "3\n") = true := by decide +kernel

/-- `test_function_key` (eval.rs:994) -/
example : evalsTo false [] (s!' "k = key(0, 1, 2, 3); print k.max_objectid;") (s!' "18446744073709551615\n") = true := by decide +kernel

/-- `test_function_key` (eval.rs:994) -/
example : evalsTo false [] (s!' "k = key(0, 1, 2, 3); print k.max_type;") (s!' "255\n") = true := by decide +kernel

/-- `test_function_key` (eval.rs:994) -/
example : evalsTo false [] (s!' "k = key(0, 1, 2, 3); print k.max_offset;") (s!' "18446744073709551615\n") = true := by decide +kernel

/-- `test_function_key` (eval.rs:994) -/
example : evalsTo false [] (s!' "k = key(0, 1, 2, 3); print k.max_transid;") (s!' "18446744073709551615\n") = true := by decide +kernel

/-- `test_function_key` (eval.rs:994) -/
example : evalsTo false [] (s!' "k = key(0, 1, 2, 3); k.min_type = 33; print k.min_type;") (s!' "33\n") = true := by decide +kernel

/-- `test_function_typeof` (eval.rs:1050) -/
example : evalsTo false [] (s!' "k = key(0, 1, 2, 3); print typeof(k);") (s!' "struct _btrfs_ioctl_search_key\n") = true := by decide +kernel

/-- `test_function_typeof` (eval.rs:1050) -/
example : evalsTo false [] (s!' "k = 1; print typeof(k);") (s!' "integer\n") = true := by decide +kernel

/-- `test_function_typeof` (eval.rs:1050) -/
example : evalsTo false [] (s!' "k = false; print typeof(k);") (s!' "boolean\n") = true := by decide +kernel

/-- `test_function_typeof` (eval.rs:1050) -/
example : evalsTo false [] (s!' "k = \"str\"; print typeof(k);") (s!' "string\n") = true := by decide +kernel

/-- `test_array` (eval.rs:1077) -/
example : evalsTo false [(s!' "arr", .array [.int 3, .int 5, .str (ascii s!' "asdf")] false)] (s!' "print arr[0];") (s!' "3\n") = true := by decide +kernel

/-- `test_array` (eval.rs:1077) -/
example : evalsTo false [(s!' "arr", .array [.int 3, .int 5, .str (ascii s!' "asdf")] false)] (s!' "print arr[1];") (s!' "5\n") = true := by decide +kernel

/-- `test_array` (eval.rs:1077) -/
example : evalsTo false [(s!' "arr", .array [.int 3, .int 5, .str (ascii s!' "asdf")] false)] (s!' "print arr[2];") (s!' "asdf\n") = true := by decide +kernel

/-- `test_array` (eval.rs:1077) -/
example : evalsTo false [(s!' "arr", .array [.int 3, .int 5, .str (ascii s!' "asdf")] false)] (s!' "print len(arr);") (s!' "3\n") = true := by decide +kernel

/-- `test_array` (eval.rs:1077) -/
example : evalsTo false [(s!' "arr", .array [.int 3, .int 5, .str (ascii s!' "asdf")] false)] (s!' "arr += 99; print len(arr); print arr[3];") (s!' "4\n99\n") = true := by decide +kernel

/-- `test_array` (eval.rs:1077) -/
example : evalsTo false [(s!' "arr", .array [.int 3, .int 5, .str (ascii s!' "asdf")] false)] (s!' "for v in arr { print v; }") (s!' "3\n5\nasdf\n") = true := by decide +kernel

/-- `test_logical_lazy_eval` (eval.rs:1120) -/
example : evals (s!' "if false && (\"string\" + 3) { 1; }") = true := by decide +kernel

/-- `test_logical_lazy_eval` (eval.rs:1120) -/
example : evals (s!' "if true || (\"string\" + 3) { 1; }") = true := by decide +kernel

/-- `test_string_concat` (eval.rs:1139) -/
example : evalsTo false [] (s!' "print \"one\" + \"two\";") (s!' "onetwo\n") = true := by decide +kernel

/-- `test_string_concat` (eval.rs:1139) -/
example : evalsTo false [] (s!' "print \"one\" + \"two\" + \"three\";") (s!' "onetwothree\n") = true := by decide +kernel

/-- `test_string_concat` (eval.rs:1139) -/
example : evalsTo false [] (s!' "s = \"one\"; ss = \"two\"; print (s + ss);") (s!' "onetwo\n") = true := by decide +kernel

/-- `test_function_str` (eval.rs:1168) -/
example : evalsTo false [] (s!' "print str(1);") (s!' "1\n") = true := by decide +kernel

/-- `test_function_str` (eval.rs:1168) -/
example : evalsTo false [] (s!' "print str(1+3);") (s!' "4\n") = true := by decide +kernel

/-- `test_function_str` (eval.rs:1168) -/
example : evalsTo false [] (s!' "print str(\"str\");") (s!' "str\n") = true := by decide +kernel

/-- `test_function_str` (eval.rs:1168) -/
example : evalsTo false [] (s!' "print str(true);") (s!' "true\n") = true := by decide +kernel

/-- `test_function_str` (eval.rs:1168) -/
example : evalsTo false [] (s!' "print str(str);") (s!' "str()\n") = true := by decide +kernel

/-- `test_function_str` (eval.rs:1168) -/
example : evalsTo false [] (s!' "print str(hist());") (s!' "[\n]\n") = true := by decide +kernel

/-- `test_lossless_string` (eval.rs:1194) -/
example : evalsTo false [(s!' "binstring", .str [0, 1, 2, 128])] (s!' "print \"string\\n\";") (s!' "string\n\n") = true := by decide +kernel

/-- `test_lossless_string` (eval.rs:1194) -/
example : evalsTo false [(s!' "binstring", .str [0, 1, 2, 128])] (s!' "print \"string\\r\\t\";") (s!' "string\r\t\n") = true := by decide +kernel

/-- `test_lossless_string` (eval.rs:1194) -/
example : evalsTo false [(s!' "binstring", .str [0, 1, 2, 128])] (s!' "print str(\"string\\r\\t\");") (s!' "string\r\t\n") = true := by decide +kernel

/-- `test_lossless_string` (eval.rs:1194) -/
example : evalsTo false [(s!' "binstring", .str [0, 1, 2, 128])] (s!' "print binstring;") (s!' "\\x00\\x01\\x02\\x80\n") = true := by decide +kernel

/-- `test_lossless_string` (eval.rs:1194) -/
example : evalsTo false [(s!' "binstring", .str [0, 1, 2, 128])] (s!' "print str(binstring);") (s!' "\\x00\\x01\\x02\\x80\n") = true := by decide +kernel

/-- `test_lossless_string` (eval.rs:1194) -/
example : evalsTo false [(s!' "binstring", .str [0, 1, 2, 128])] (s!' "print str(binstring) + \"\\n\";") (s!' "\\x00\\x01\\x02\\x80\n\n") = true := by decide +kernel

end Btrd.Validation
