#!/usr/bin/env python3
"""Translate the unit tests of /repo/src/http1/test into checks of the Lean model.

Usage: http1.py > ../lean/Verif/Conformance/Http1.lean
Every construct that is not understood stops the program.
"""
import re, sys, os
from rust import match_close, split_args, statements, strip_comments, unescape

ROOT = '/repo/src/http1/test'

def byte_lit(s):
    m = re.fullmatch(r"b'(\\.|[^\\])'", s)
    return unescape(m.group(1))[0] if m else None

def lean_bytes(l):
    if l and all(32 <= x < 127 or x in (9, 10, 13) for x in l):
        esc = {9: '\\t', 10: '\\n', 13: '\\r', 34: '\\"', 92: '\\\\'}
        return 'b!"' + ''.join(esc.get(x, chr(x)) for x in l) + '"'
    return '[' + ', '.join(map(str, l)) + ']'

def slice_(s):
    """A byte slice as a Lean term."""
    s = s.strip()
    s = re.sub(r'^&', '', s)
    m = re.fullmatch(r'b"(.*)"', s, re.S)
    if m:
        return lean_bytes(unescape(m.group(1)))
    if s in ('[*b]', '[b]'):
        return '[b]'
    if s == '[*b + 0x20]':
        return '[b + 32]'
    m = re.fullmatch(r'\[(.*)\]', s, re.S)
    if m:
        return lean_bytes([byte_lit(x) if byte_lit(x) is not None else int(x, 0) for x in split_args(m.group(1))])
    raise SystemExit('slice? ' + s)

def length(s):
    m = re.fullmatch(r'(.*)\.len\(\)', s, re.S)
    if m:
        m2 = re.fullmatch(r'b"(.*)"', m.group(1), re.S)
        if m2:
            return str(len(unescape(m2.group(1))))
        assert m.group(1) in ('[b]', '[*b]'), s
        return '1'
    if re.fullmatch(r'\d+', s):
        return s
    raise SystemExit('length? ' + s)

def state(s):
    m = re.fullmatch(r'ParserState::(\w+)', s)
    n = m.group(1)
    return '.' + n[0].lower() + n[1:]

def error(s):
    m = re.fullmatch(r'ParserError::(\w+)(?:\((.*)\))?', s)
    n = m.group(1)
    n = '.' + n[0].lower() + n[1:]
    if m.group(2) is None:
        return n
    a = m.group(2)
    v = byte_lit(a)
    if v is None:
        v = {'b': 'b', '*b': 'b'}.get(a)
    if v is None:
        v = int(a, 0)
    return '(%s %s)' % (n, v)

DATA = {'chunk_data': 'chunkData', 'chunk_extension_name': 'chunkExtensionName',
        'chunk_extension_value': 'chunkExtensionValue', 'header_name': 'headerName',
        'header_value': 'headerValue', 'method': 'method', 'multipart_data': 'multipartData',
        'status': 'status', 'url': 'url', 'url_encoded_name': 'urlEncodedName',
        'url_encoded_value': 'urlEncodedValue'}
NUM = {'chunk_length': 'chunkLength', 'status_code': 'statusCode', 'version_major': 'major',
       'version_minor': 'minor'}

def num(s):
    s = s.strip()
    s = s.replace('*b', 'B').replace("b'0'", '48').replace(' as u16', '')
    if re.fullmatch(r'[0-9a-fA-FxX]+', s):
        return str(int(s, 0))
    if re.fullmatch(r'[B0-9+*() -]+', s):
        return s.replace('B', 'b.toNat')
    raise SystemExit('number? ' + s)

def assert_eq(a, b):
    a = a.strip()
    m = re.fullmatch(r'\(?&?h\.(\w+)\)?(.*)', a)
    f, tail = m.group(1), m.group(2)
    if f in NUM and tail == '':
        return '.num .%s (%s)' % (NUM[f], num(b))
    if f in DATA and tail == '':
        return '.data .%s %s' % (DATA[f], slice_(b))
    m = re.fullmatch(r'\[(\d+)\]', tail)
    if f in DATA and m:
        v = 'b' if b == '*b' else str(byte_lit(b))
        return '.at .%s %s %s' % (DATA[f], m.group(1), v)
    if f in DATA and tail == '.len()':
        return '.size .%s %s' % (DATA[f], b)
    raise SystemExit('assert_eq? ' + a)

def filters(s):
    """An iterator over bytes as a Lean term."""
    s = re.sub(r'\s+', ' ', s).strip()
    m = re.match(r'(\w+)_vec\(\)\.iter\(\)', s)
    if m:
        parts = m.group(1).split('_')
        t = 'vec_' + m.group(1)
        rest = s[m.end():]
    else:
        m = re.match(r'\((\w+)\.\.(\w+)\)', s)
        t = 'range %d %d' % tuple(int(x, 0) for x in m.groups())
        rest = s[m.end():]
        m = re.match(r'\.chain\((\w+)\.\.(\w+)\)', rest)
        if m:
            t += ' ++ range %d %d' % tuple(int(x, 0) for x in m.groups())
            rest = rest[m.end():]
    rest = rest.strip()
    while rest:
        m = re.match(r'\.filter\(', rest)
        j = match_close(rest, m.end() - 1)
        body = rest[m.end():j]
        m2 = re.fullmatch(r'\|&x\| (.*)', body)
        e = m2.group(1).replace('*x', 'x')
        e = re.sub(r"b'(\\.|[^\\])'", lambda m: str(byte_lit(m.group(0))), e)
        e = re.sub(r'0x([0-9A-F]+)', lambda m: str(int(m.group(1), 16)), e)
        for r, l in (('is_digit!', 'isDigit'), ('is_hex!', 'isHex'), ('is_alpha!', 'isAlpha'),
                     ('is_quoted_header_field', 'tIsQuotedHeaderField'), ('is_header_field', 'tIsHeaderField'),
                     ('is_token', 'tIsToken'), ('is_not_visible_7bit!', '!isVisible7bit'),
                     ('is_control!', 'isControl')):
            e = e.replace(r + '(x)', '%s x' % l)
        def atom(c):
            c = c.strip()
            neg = c.startswith('!')
            c = c[1:] if neg else c
            if re.fullmatch(r'x (!=|==) \d+', c):
                c = '(%s)' % c
            elif re.fullmatch(r'x [<>]=? \d+', c):
                c = '(decide (%s))' % c
            elif re.fullmatch(r't?[iI]s\w+ x', c):
                c = '(%s)' % c
            else:
                raise SystemExit('filter? ' + c)
            return ('!' if neg else '') + c
        disj = [' && '.join(atom(c) for c in x.split('&&')) for x in e.split('||')]
        t = '(%s).filter fun x => %s' % (t, ' || '.join(disj))
        rest = rest[j + 1:].strip()
    return t

class Test:
    def __init__(self, setup):
        self.setup = setup
        self.handler = 'debug'
        self.acts = []
        self.tests = []        # (loop, handler, acts)

    def flush(self, loop=None):
        if self.acts:
            self.tests.append((loop, self.handler, self.acts))
        self.acts = []

    def run(self, body, loop=None):
        for st in statements(body):
            self.step(st, loop)

    def step(self, st, loop):
        if re.fullmatch(r'let \(mut p, (mut )?h\) = http1_setup!\(\)', st):
            self.flush(loop)
            return
        if re.fullmatch(r'let \(mut p, (mut )?h\) = setup!\(\)', st):
            self.flush(loop)
            self.run(self.setup, loop)
            return
        if st in ('(p, h)', 'struct H'):
            return
        m = re.fullmatch(r'impl HttpHandler for H \{(.*)\}', st, re.S)
        if m:
            fns = re.findall(r'fn (\w+)\(&mut self[^)]*\) -> bool \{\s*(false|true)\s*\}', m.group(1))
            assert len(fns) == len(re.findall(r'\bfn\b', m.group(1)))
            names = []
            for n, v in fns:
                assert v == 'false' and n.startswith('on_')
                n = n[3:].split('_')
                names.append('.' + n[0] + ''.join(x.capitalize() for x in n[1:]))
            self.handler = '(refuse [%s])' % ', '.join(names)
            return
        if st in ('let mut h = H', 'let mut p = Parser::new()', 'let mut h = H{}'):
            return
        m = re.fullmatch(r'p\.init_(\w+)\(\)', st)
        if m:
            n = m.group(1).split('_')
            self.acts.append('.init .' + n[0] + ''.join(x.capitalize() for x in n[1:]))
            return
        m = re.fullmatch(r'p\.set_length\((.*)\)', st, re.S)
        if m:
            self.acts.append('.setLength %s' % length(m.group(1)))
            return
        m = re.fullmatch(r'p\.set_boundary\((.*)\)', st, re.S)
        if m:
            self.acts.append('.setBoundary %s' % slice_(m.group(1)))
            return
        m = re.fullmatch(r'(iter_assert_eos|assert_\w+!?)\s*\((.*)\)', st, re.S)
        if m:
            f, a = m.group(1), split_args(m.group(2))
            if f == 'assert_eq!':
                self.acts.append(assert_eq(*a))
                return
            assert a[:2] == ['&mut p', '&mut h'], a
            a = a[2:]
            if f == 'assert_eos':
                self.acts.append('.eos %s %s %s' % (slice_(a[0]), state(a[1]), length(a[2])))
            elif f == 'assert_callback':
                self.acts.append('.callback %s %s %s' % (slice_(a[0]), state(a[1]), length(a[2])))
            elif f == 'assert_finished':
                self.acts.append('.finished %s %s' % (slice_(a[0]), length(a[1])))
            elif f == 'assert_error':
                self.acts.append('.error %s %s' % (slice_(a[0]), error(a[1])))
            elif f == 'iter_assert_eos':
                m = re.fullmatch(r'&\[(.*)\]', a[0], re.S)
                items = split_args(m.group(1))
                bs = []
                for it in items:
                    x = split_args(it[1:-1])
                    bs.append(byte_lit(x[0]))
                self.acts.append('.each %s' % lean_bytes(bs))
            else:
                raise SystemExit('call? ' + f)
            return
        m = re.fullmatch(r'for b in (.*?)\s*\{(.*)\}', st, re.S)
        if m:
            i = st.index('{')
            it = st[len('for b in '):i]
            self.flush(loop)
            self.run(st[i + 1:-1], filters(it))
            self.flush(filters(it))
            return
        raise SystemExit('statement? ' + st)

def main():
    out = []
    count = 0
    for d, _, fs in sorted(os.walk(ROOT)):
        for f in sorted(fs):
            path = os.path.join(d, f)
            rel = os.path.relpath(path, '/repo')
            if f == 'mod.rs':
                continue
            raw = open(path).read()
            s = strip_comments(raw)
            setup = None
            m = re.search(r'macro_rules! setup \{\s*\(\) => (\(\{|\(\s*http1_setup!\(\)\s*\))', s)
            if m:
                if 'http1_setup' in m.group(1):
                    setup = ''
                else:
                    i = m.end() - 1
                    j = match_close(s, i)
                    setup = s[i + 1:j]
            for m in re.finditer(r'#\[test\]\s*fn (\w+)\(\) \{', s):
                i = m.end() - 1
                j = match_close(s, i)
                t = Test(setup)
                t.run(s[i + 1:j])
                t.flush()
                l0 = s.count('\n', 0, m.start()) + 1
                l1 = s.count('\n', 0, j) + 1
                out.append('/-- `%s`, %s lines %d-%d. -/' % (m.group(1), rel, l0, l1))
                goals = []
                for loop, h, acts in t.tests:
                    a = '[' + ',\n    '.join(acts) + ']'
                    if loop:
                        goals.append('(%s).all (fun b => check %s\n   %s)' % (loop, h, a))
                    else:
                        goals.append('check %s\n   %s' % (h, a))
                    count += 1
                assert goals
                out.append('example : (%s) = true := by decide +kernel\n' % ' &&\n  '.join(goals))
    print(HEADER)
    print('\n'.join(out))
    print('end Verif.Conformance.Http1')
    sys.stderr.write('%d tests\n' % len([x for x in out if x.startswith('/--')]))

HEADER = '''import Verif.Conformance.Http1Base

/-!
# The tests of the HTTP/1 parser, run on the model

Made by conformance/http1.py from /repo/src/http1/test. Nothing here is a proof about the code; the tests
of the repository say what its authors saw the code do, and the model does the same.
-/

namespace Verif.Conformance.Http1

open Verif.Http1
'''

main()
