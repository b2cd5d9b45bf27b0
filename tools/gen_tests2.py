#!/usr/bin/env python3
"""Translate the unit tests of eval.rs and semantics.rs into Lean (lean/Verif/Validation/{Eval,Semantics}.lean)."""
import re, sys, os
sys.argv = [sys.argv[0], '/repo/src/lang/parse.rs', os.devnull]
exec(open(os.path.join(os.path.dirname(os.path.abspath(__file__)), 'gen_tests.py')).read().split('BIN = dict')[0])

def arg(t):
    """the expected text of a case"""
    return t
text = open('/repo/src/lang/eval/eval.rs', encoding='utf-8').read()
out, nt, nc = [], 0, 0
def conv(s):
    """Rust literals that occur as expected outputs"""
    s = re.sub(r'format!\("\{\}\\n", u64::MAX\)', '"%d\\\\n"' % (2**64 - 1), s)
    s = re.sub(r'format!\("\{\}\\n", u8::MAX\)', '"255\\\\n"', s)
    s = re.sub(r'format!\("\{\}\\n", 33\)', '"33\\\\n"', s)
    # raw + "..."
    def join(m): return '"' + m.group(1).replace('\\', '\\\\') + m.group(2) + '"'
    s = re.sub(r'r#"([^"]*)"#\.to_string\(\) \+ "((?:\\.|[^"\\])*)"', join, s)
    return s
for m in re.finditer(r'#\[test\]\nfn (\w+)\(\) \{\n(.*?)\n\}\n', text, re.S):
    name, body = m.group(1), m.group(2)
    line = text[:m.start()].count('\n') + 2
    nt += 1
    if name == 'test_interactive':
        assert '"2+3;"' in body and '"5\\n"' in body and 'Eval::new(&mut output, true)' in body
        out.append('/-- `%s` (eval.rs:%d) -/\nexample : evalsTo true [] (s!\' "2+3;") (s!\' "5\\n") = true := by decide +kernel\n' % (name, line))
        nc += 1
        continue
    vars_ = '[]'
    if name == 'test_array': vars_ = "[(s!' \"arr\", .array [.int 3, .int 5, .str (ascii s!' \"asdf\")] false)]"
    if name == 'test_lossless_string': vars_ = "[(s!' \"binstring\", .str [0, 1, 2, 128])]"
    blocks = list(re.finditer(r'let tests = (vec!\[.*?\]);\n\n(.*?)(?=let tests|\Z)', body, re.S))
    assert blocks
    for b in blocks:
        data = Rd(tokens(conv(b.group(1)))).term()[1]
        use = b.group(2)
        for d in data:
            nc += 1
            out.append('/-- `%s` (eval.rs:%d) -/' % (name, line))
            if 'EvalResult::Err(_) => ()' in use:
                assert d[0] == 'str'
                out.append('example : evalFails (%s) = true := by decide +kernel\n' % lstr(d[1]))
            elif d[0] == 'str':
                out.append('example : evals (%s) = true := by decide +kernel\n' % lstr(d[1]))
            else:
                i, e = d[1]
                assert 'EvalResult::Ok => ()' in use
                out.append('example : evalsTo false %s (%s) (%s) = true := by decide +kernel\n' % (vars_, lstr(i[1]), lstr(e[1])))
head = '''/-
The unit tests of `src/lang/eval/eval.rs`, case by case, on the model. Generated by tools/gen_tests2.py from the test data
of the project (%d tests, %d cases). These are tests of the model, not proofs of properties.
-/
import Verif.Model.Parse
import Verif.Model.Eval

namespace Btrd.Validation

/-- the bytes of a text of ASCII characters -/
def ascii (s : Str) : Bytes := s.map fun c => UInt8.ofNat c.toNat

/-- no filesystem; a bound on loops that is never reached -/
def plainCfg (interactive : Bool) : Cfg := ⟨⟨true⟩, ⟨fun _ => none, fun _ => none, none⟩, interactive, 100⟩

/-- `Eval::new` with these variables in addition -/
def startWith (interactive : Bool) (vars : List (Str × Value)) : State :=
  vars.foldl (fun st v => match st.vars.insert v.1 v.2 with
    | .ok vs => { st with vars := vs }
    | .error _ => st) (State.new (plainCfg interactive) none)

/-- the program runs and prints this -/
def evalsTo (interactive : Bool) (vars : List (Str × Value)) (input expected : Str) : Bool :=
  match parse input with
  | none => false
  | some p =>
    match evalProgram (plainCfg interactive) p (startWith interactive vars) with
    | (st, .ok) => st.sink.out == expected
    | _ => false

/-- the program runs -/
def evals (input : Str) : Bool :=
  match parse input with
  | none => false
  | some p =>
    match evalProgram (plainCfg false) p (startWith false []) with
    | (_, .ok) => true
    | _ => false

/-- the program is one, and fails with an error -/
def evalFails (input : Str) : Bool :=
  match parse input with
  | none => false
  | some p =>
    match evalProgram (plainCfg false) p (startWith false []) with
    | (_, .fail (.err _)) => true
    | _ => false

''' % (nt, nc)
open('lean/Verif/Validation/Eval.lean', 'w', encoding='utf-8').write(head + '\n'.join(out) + '\nend Btrd.Validation\n')
print('eval', nt, nc)

text = open('/repo/src/lang/semantics.rs', encoding='utf-8').read()
out, nt, nc = [], 0, 0
for m in re.finditer(r'#\[test\]\nfn (\w+)\(\) \{\n(.*?)\n\}\n', text, re.S):
    name, body = m.group(1), m.group(2)
    line = text[:m.start()].count('\n') + 2
    nt += 1
    for b in re.finditer(r'let prog = r#"(.*?)"#;\n(.*?)\n    \}', body, re.S):
        ok = 'expect("Semantic' in b.group(2)
        bad = 'is_err()' in b.group(2) or 'expect_err' in b.group(2)
        assert ok != bad
        nc += 1
        out.append('/-- `%s` (semantics.rs:%d) -/\nexample : %s (%s) = true := by decide +kernel\n' % (name, line, 'passes' if ok else 'refuses', lstr(b.group(1))))
head = '''/-
The unit tests of `src/lang/semantics.rs`, case by case, on the model. Generated by tools/gen_tests2.py from the test data
of the project (%d tests, %d cases). These are tests of the model, not proofs of properties.
-/
import Verif.Model.Parse
import Verif.Model.Semantics

namespace Btrd.Validation

/-- the program passes the static checks -/
def passes (input : Str) : Bool :=
  match parse input with
  | none => false
  | some p =>
    match (analyzeStmts p AState.new).2 with
    | .ok _ => true
    | .error _ => false

/-- it is a program, and the static checks refuse it -/
def refuses (input : Str) : Bool :=
  match parse input with
  | none => false
  | some p =>
    match (analyzeStmts p AState.new).2 with
    | .error (.err _) => true
    | _ => false

''' % (nt, nc)
open('lean/Verif/Validation/Semantics.lean', 'w', encoding='utf-8').write(head + '\n'.join(out) + '\nend Btrd.Validation\n')
print('semantics', nt, nc)
