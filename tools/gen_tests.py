#!/usr/bin/env python3
"""Translate the data of the unit tests of /repo/src/lang/parse.rs into Lean (lean/Verif/Validation/Parse.lean)."""
import re, sys
SRC = sys.argv[1] if len(sys.argv) > 1 else '/repo/src/lang/parse.rs'
OUT = sys.argv[2] if len(sys.argv) > 2 else 'lean/Verif/Validation/Parse.lean'
text = open(SRC, encoding='utf-8').read()

TOK = re.compile(r'''\s+|//[^\n]*|(?P<raw>r\#"(?:.|\n)*?"\#)|(?P<str>"(?:\\.|[^"\\])*")|(?P<num>-?\d+)|(?P<id>[A-Za-z_][A-Za-z_0-9]*!?)|(?P<p>::|=>|.)''', re.S)

def tokens(s):
    out = []
    for m in TOK.finditer(s):
        k = m.lastgroup
        if k: out.append((k, m.group(k)))
    return out

class Rd:
    def __init__(self, toks): self.t, self.i = toks, 0
    def peek(self, v): return self.i < len(self.t) and self.t[self.i][1] == v
    def eat(self, v):
        assert self.peek(v), (v, self.t[self.i:self.i + 5])
        self.i += 1
    def seq(self, close):
        out = []
        while not self.peek(close):
            out.append(self.term())
            if not self.peek(close): self.eat(',')
        self.eat(close)
        return out
    def term(self):
        k, v = self.t[self.i]; self.i += 1
        if k == 'raw': r = ('str', v[3:-2])
        elif k == 'str': r = ('str', bytes(v[1:-1], 'utf-8').decode('unicode_escape').encode('latin-1').decode('utf-8'))
        elif k == 'num': r = ('num', int(v))
        elif v == '(': r = ('tuple', self.seq(')'))
        elif v == 'vec!':
            self.eat('['); r = ('list', self.seq(']'))
        elif k == 'id':
            path = [v]
            while self.peek('::'):
                self.i += 1; path.append(self.t[self.i][1]); self.i += 1
            args = None
            if self.peek('('):
                self.i += 1; args = self.seq(')')
            r = ('app', '::'.join(path), args)
        else: raise Exception((k, v, self.t[self.i:self.i + 5]))
        while self.peek('.'):
            self.i += 1; assert self.t[self.i][1] == 'to_string'; self.i += 1; self.eat('('); self.eat(')')
        if r[0] == 'tuple' and len(r[1]) == 1: r = r[1][0]
        return r

def lstr(s):
    out = ''
    for c in s:
        out += {'\\': '\\\\', '"': '\\"', '\n': '\\n', '\t': '\\t', '\r': '\\r'}.get(c, c)
    return 's!\' "' + out + '"'

BIN = dict(Plus='plus', Minus='minus', Multiply='mul', Divide='div', Modulo='mod', Equals='eq', NotEquals='ne', LogicalAnd='land',
    LogicalOr='lor', BitOr='bor', BitAnd='band', BitXor='bxor', LeftShift='shl', RightShift='shr', LessThan='lt',
    LessThanEquals='le', GreaterThan='gt', GreaterThanEquals='ge')
UN = dict(BitNot='bitNot', Not='not', Minus='minus')

def lean(t):
    if t[0] == 'str': return lstr(t[1])
    if t[0] == 'num': return '(%d)' % t[1]
    if t[0] == 'list': return '[' + ', '.join(map(lean, t[1])) + ']'
    _, p, a = t
    if p == 'true' or p == 'false': return p
    if p == 'Vec::new': return '[]'
    if p in ('Box::new', 'Expression::PrimaryExpression', 'Expression::BinaryExpression', 'Expression::UnaryExpression',
             'PrimaryExpression::Constant', 'Statement::BlockStatement', 'Statement::JumpStatement',
             'Statement::BuiltinStatement', 'Identifier', 'TypeSpecifier::Struct', 'Expression::TypeSpecifier'): return lean(a[0])
    L = ['(' + lean(x) + ')' if not lean(x).startswith(('(', '[')) else lean(x) for x in (a or [])]
    m = {'PrimaryExpression::Identifier': 'Expr.ident', 'PrimaryExpression::Paren': 'Expr.paren', 'PrimaryExpression::Str': 'Expr.str',
         'Constant::Integer': 'Expr.int', 'Constant::Boolean': 'Expr.bool', 'Expression::FunctionCall': 'Expr.call',
         'Expression::ArrayIndex': 'Expr.index', 'Expression::FieldAccess': 'Expr.field', 'UnaryExpression::Cast': 'Expr.cast',
         'Statement::AssignStatement': 'Stmt.assign', 'Statement::ExpressionStatement': 'Stmt.expr', 'BlockStatement::If': 'Stmt.ite',
         'BlockStatement::While': 'Stmt.while', 'BlockStatement::For': 'Stmt.for', 'JumpStatement::Break': 'Stmt.brk',
         'JumpStatement::Continue': 'Stmt.cont', 'BuiltinStatement::Help': 'Stmt.help', 'BuiltinStatement::Quit': 'Stmt.quit',
         'BuiltinStatement::Filesystem': 'Stmt.filesystem', 'BuiltinStatement::Print': 'Stmt.print'}
    if p in m: h = m[p]
    elif p.startswith('BinaryExpression::'): h = 'Expr.bin .' + BIN[p.split('::')[1]]
    elif p.startswith('UnaryExpression::'): h = 'Expr.un .' + UN[p.split('::')[1]]
    else: raise Exception(p)
    return '(' + ' '.join([h] + L) + ')' if L else h

FN = {'string': 'string', 'constant': 'constant', 'primary_expr': '(primaryExpr expr)', 'expr': 'expr', 'stmt': '(stmt stmts)', 'parse': 'parse'}
ST = {'stmt', 'parse'}
out = []
n_tests = n_cases = 0
for m in re.finditer(r'#\[test\]\nfn (\w+)\(\) \{\n(.*?)\n\}\n', text, re.S):
    name, body = m.group(1), m.group(2)
    line = text[:m.start()].count('\n') + 2
    n_tests += 1
    for b in re.finditer(r'let data = (vec!\[.*?\]);\n\n\s+for (\(?[\w, ]+\)?) in data \{(.*?)\n        \}', body, re.S):
        data = Rd(tokens(b.group(1))).term()[1]
        use = b.group(3)
        fm = re.search(r'(\w+)\(\)\s*\.parse\(&input\)|(parse)\(input\)', use)
        fn = fm.group(1) or fm.group(2)
        same = 'baseline' in use
        err = 'is_err' in use
        first = (lambda x: 'parse ' + x) if fn == 'parse' else (lambda x: '(%s %s).map Prod.fst' % (FN[fn], x))
        for d in data:
            n_cases += 1
            out.append('/-- `%s` (parse.rs:%d) -/' % (name, line))
            if err: out.append('example : failed (%s) = true := by decide +kernel\n' % first('(' + lstr(d[1]) + ')'))
            else:
                inp, exp = d[1]
                if same: out.append('example : %s (%s) (%s) = true := by decide +kernel\n' % ('sameE', first('(' + lstr(inp[1]) + ')'), first('(' + lstr(exp[1]) + ')')))
                else:
                    e = exp
                    x = lean(e)
                    if fn == 'string': x = '(Expr.str (%s))' % lean(e) if e[0] == 'str' else x
                    f = {'stmt': 'sameS', 'parse': 'sameP'}.get(fn, 'sameE')
                    out.append('example : %s (%s) (some %s) = true := by decide +kernel\n' % (f, first('(' + lstr(inp[1]) + ')'), x))
head = '''/-
The unit tests of `src/lang/parse.rs`, case by case, on the model. Generated by tools/gen_tests.py from the test data of
the project (%d tests, %d cases). These are tests of the model, not proofs of properties.
-/
import Verif.Validation.Same

namespace Btrd.Validation
open P

''' % (n_tests, n_cases)
open(OUT, 'w', encoding='utf-8').write(head + '\n'.join(out) + '\nend Btrd.Validation\n')
print(n_tests, 'tests', n_cases, 'cases')
