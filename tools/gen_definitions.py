#!/usr/bin/env python3
"""Translate the constant and struct tables of /repo/src/btrfs/definitions.rs into Lean.

usage: gen_definitions.py > lean/Verif/Model/Definitions.lean

The two DynamicStruct callbacks are written by hand in Lean (Model/Dynamic.lean); the generator splits its
output so that the tables they use come first (Definitions.lean) and STRUCTS after (Structtable.lean).
"""
import re, sys

SRC = '/repo/src/btrfs/definitions.rs'
text = open(SRC).read()
text = text[:text.index('#[cfg(test)]')]

def line_of(pos):
    return text.count('\n', 0, pos) + 1

# ---------------------------------------------------------------- tokens
tok_re = re.compile(r'''\s+|//[^\n]*|(?P<str>"(?:[^"\\]|\\.)*")|(?P<num>\d[\w]*)|(?P<id>[A-Za-z_]\w*)|(?P<op><<|=>|==|&&|\|\||::|->|.)''', re.S)

def tokenize(start, end):
    out = []
    pos = start
    while pos < end:
        m = tok_re.match(text, pos)
        if m.lastgroup:
            out.append((m.lastgroup, m.group(m.lastgroup), pos))
        pos = m.end()
    return out

class T:
    def __init__(self, toks): self.t = toks; self.i = 0
    def peek(self, k=0): return self.t[self.i + k][1] if self.i + k < len(self.t) else None
    def kind(self): return self.t[self.i][0]
    def pos(self): return self.t[self.i][2]
    def next(self): x = self.t[self.i]; self.i += 1; return x
    def eat(self, *vs):
        for v in vs:
            x = self.next()
            assert x[1] == v, (x, v, line_of(x[2]))
    def opt(self, v):
        if self.peek() == v: self.i += 1; return True
        return False

# ---------------------------------------------------------------- constants
def lean_const_expr(e):
    e = ' '.join(e.split())
    m = re.fullmatch(r'0u64\.overflowing_sub\((\d+)\)\.0', e)
    if m: return f'2 ^ 64 - {m.group(1)}'
    m = re.fullmatch(r'1 << (\d+)', e)
    if m: return f'2 ^ {m.group(1)}'
    if re.fullmatch(r'\d+', e): return e
    parts = [p.strip() for p in e.split('|')]
    assert all(re.fullmatch(r'BTRFS_\w+', p) for p in parts), e
    acc = parts[0]
    for p in parts[1:]:
        acc = f'orI128 ({acc}) {p}' if acc != parts[0] else f'orI128 {acc} {p}'
    return acc

consts = []
for m in re.finditer(r'^const (\w+): (\w+) =\s*([^;]*);', text, re.M):
    consts.append((m.group(1), m.group(2), m.group(3), line_of(m.start()), line_of(m.end())))
byname = {c[0]: c for c in consts}

order = []
done = set()
def visit(n):
    if n in done: return
    done.add(n)
    for d in re.findall(r'BTRFS_\w+', byname[n][2]): visit(d)
    order.append(n)
for c in consts: visit(c[0])

m = re.search(r'pub static ref CONSTANTS: Vec<Constant> = vec!\[(.*?)\];', text, re.S)
constants_line = line_of(m.start())
constants_end = line_of(m.end())
constants_list = re.findall(r'constant!\((\w+)\)', m.group(1))

# ---------------------------------------------------------------- structs
def lean_str(s): return "s!' " + s

def p_count(t):
    k, v, _ = t.next()
    if k == 'num': return v
    t.eat('.', 'into', '(', ')')
    return f'{v}.toNat'

def p_type(t):
    t.eat('Type', '::')
    k = t.next()[1]
    if k in ('U8', 'U16', 'U32', 'U64'):
        return '.' + k.lower()
    if k == 'Array':
        t.eat('('); inner = p_box(t); t.eat(','); n = p_count(t); t.opt(','); t.eat(')')
        return f'.array {inner} {paren(n)}'
    if k == 'Struct':
        t.eat('('); n = t.next()[1]; t.eat('.', 'clone', '(', ')', ')')
        return f'{n}.ty'
    if k == 'Union':
        t.eat('('); t.eat('Union', '{', 'name', ':'); name = t.next()[1]; t.eat(',', 'fields', ':')
        fs = p_fields(t); t.opt(','); t.eat('}', ')')
        return f'.union {lean_str(name)} {fs}'
    if k == 'TrailingString':
        t.eat('('); n = t.next()[1]; t.eat(')')
        return f'.trailingString {lean_str(n)}'
    if k == 'TrailingTypes':
        t.eat('('); inner = p_box(t); t.eat(','); n = t.next()[1]; t.opt(','); t.eat(')')
        return f'.trailingTypes {inner} {lean_str(n)}'
    if k == 'DynamicStruct':
        t.eat('(')
        depth = 1
        while depth:
            v = t.next()[1]
            if v == '(': depth += 1
            if v == ')': depth -= 1
        return '.dynamic @DYN@'
    raise Exception(k)

def paren(s): return f'({s})' if ' ' in s else s

def p_box(t):
    t.eat('Box', '::', 'new', '('); x = p_type(t); t.opt(','); t.eat(')')
    return f'({x})'

def p_fields(t):
    t.eat('vec', '!', '[')
    fs = []
    while not t.opt(']'):
        t.eat('Field', '{', 'name', ':')
        if t.opt('None'): n = 'none'
        else:
            t.eat('Some', '('); n = f'some {lean_str(t.next()[1])}'; t.eat(')')
        t.eat(',', 'ty', ':')
        ty = p_type(t); t.opt(','); t.eat('}'); t.opt(',')
        fs.append(f'({n}, {ty})')
    return '[' + ', '.join(fs) + ']'

def p_keymatch(t):
    t.eat('|'); vs = []
    while not t.opt('|'):
        vs.append(t.next()[1]); t.opt(',')
    # body up to `, fields`
    def atom():
        k, v, _ = t.next()
        if v == 'false': return 'false'
        if t.peek() == '.': t.eat('.', 'into', '(', ')')
        return v
    def cmp():
        a = atom()
        if t.opt('=='):
            return f'{a} == {atom()}'
        return a
    def conj():
        xs = [cmp()]
        while t.opt('&&'): xs.append(cmp())
        return ' && '.join(xs)
    xs = [conj()]
    while t.opt('||'): xs.append(conj())
    body = ' || '.join(xs)
    return f'fun {" ".join(vs)} => {body}'

def p_struct(t):
    t.eat('Struct', '{', 'name', ':'); name = t.next()[1]; t.eat(',', 'key_match', ':')
    km = p_keymatch(t); t.eat(',', 'fields', ':')
    fs = p_fields(t); t.opt(','); t.eat('}')
    return name, km, fs

def fmt(name, km, fs):
    # one field per line
    out = []
    depth = 0; cur = ''
    body = fs[1:-1]
    instr = False
    for ch in body:
        if ch == '"': instr = not instr
        if not instr:
            if ch in '([': depth += 1
            if ch in ')]': depth -= 1
        if ch == ',' and depth == 0 and not instr:
            out.append(cur.strip()); cur = ''
        else: cur += ch
    if cur.strip(): out.append(cur.strip())
    fields = '[' + ',\n      '.join(out) + ']'
    return f'  {{ name := {lean_str(name)},\n    keyMatch := {km},\n    fields := {fields} }}'

statics = []
for m in re.finditer(r'static ref (\w+): Struct = ', text):
    t = T(tokenize(m.end(), len(text)))
    st = p_struct(t)
    statics.append((m.group(1), st, line_of(m.start()), line_of(t.pos())))

m = re.search(r'pub static ref STRUCTS: Vec<Struct> = vec!', text)
t = T(tokenize(m.end(), len(text)))
t.eat('[')
entries = []
DYN = {'"btrfs_extent_item"': 'extentItemFields', '"btrfs_file_extent_item"': 'fileExtentItemFields'}
while not t.opt(']'):
    start = line_of(t.pos())
    if t.peek() == 'Struct':
        name, km, fs = p_struct(t)
        if '@DYN@' in fs: fs = fs.replace('@DYN@', DYN[name])
        entries.append((name, ('def', (name, km, fs)), start, line_of(t.t[t.i-1][2])))
    else:
        n = t.next()[1]; t.eat('.', 'clone', '(', ')')
        entries.append((n, ('ref', n), start, start))
    t.opt(',')

w = []
which = sys.argv[1]
if which == 'definitions':
    w.append('/-\nGenerated by tools/gen_definitions.py from src/btrfs/definitions.rs: constants and shared structs.\n-/\nimport Verif.Model.Structs\n\nnamespace Btrd\n')
    w.append('/-- `|` on i128 constants -/\ndef orI128 (a b : Int) : Int := ((BitVec.ofInt 128 a) ||| (BitVec.ofInt 128 b)).toInt\n')
    for n in order:
        c = byname[n]
        w.append(f'/-- definitions.rs:{c[3]}{"-" + str(c[4]) if c[4] != c[3] else ""} (`{c[1]}`) -/\ndef {n} : Int := {lean_const_expr(c[2])}\n')
    w.append(f'/-- `CONSTANTS` (definitions.rs:{constants_line}-{constants_end}) -/\ndef constants : List (Str × Int) :=\n  [' + ',\n   '.join(f'({lean_str(chr(34)+n+chr(34))}, {n})' for n in constants_list) + ']\n')
    for n, st, a, b in statics:
        w.append(f'/-- `{n}` (definitions.rs:{a}-{b}) -/\ndef {n} : StructDef :=\n{fmt(*st)}\n')
    w.append('end Btrd')
else:
    w.append('/-\nGenerated by tools/gen_definitions.py from src/btrfs/definitions.rs: the table of known structs.\n-/\nimport Verif.Model.Dynamic\n\nnamespace Btrd\n')
    names = []
    for n, e, a, b in entries:
        if e[0] == 'ref': names.append(n); continue
        dn = 'struct_' + n.strip('"')
        names.append(dn)
        w.append(f'/-- definitions.rs:{a}-{b} -/\ndef {dn} : StructDef :=\n{fmt(*e[1])}\n')
    w.append(f'/-- `STRUCTS` (definitions.rs:{line_of(m.start())}-{line_of(t.t[t.i-1][2])}) -/\ndef structs : List StructDef :=\n  [' + ',\n   '.join(names) + ']\n')
    w.append('end Btrd')
print('\n'.join(w))
