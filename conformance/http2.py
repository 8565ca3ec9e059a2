#!/usr/bin/env python3
"""Translate the unit tests of /repo/src/http2/test into checks of the Lean model.

Usage: http2.py > ../lean/Verif/Conformance/Http2.lean
Every construct that is not understood stops the program.
"""
import re, os, sys
from rust import match_close, split_args, statements, strip_comments, unescape, camel

ROOT = '/repo/src/http2/test'

def number(s):
    s = re.sub(r'\s+', ' ', re.sub(r'//[^\n]*', '', s)).strip()
    if not re.fullmatch(r'[0-9a-fA-FxX|()<> +&]+', s):
        raise SystemExit('number? ' + s)
    return eval(s)

def value(a, b):
    a, b = a.lstrip('&').strip(), b.lstrip('&').strip()
    m = re.fullmatch(r'h\.(\w+)', b)
    if m:
        a, b = b, a
    if a == 'p.state()':
        return 't == .' + camel(b.split('::')[1])
    m = re.fullmatch(r'FrameType::from_u8\(h\.(\w+)\)', a)
    if m:
        return 'FrameType.fromU8 h.%s == .%s' % (m.group(1), camel(b.split('::')[1]))
    m = re.fullmatch(r'h\.(\w+)', a)
    m2 = re.fullmatch(r'b"(.*)"', b, re.S)
    if m and m2:
        return 'h.%s == [%s]' % (m.group(1), ', '.join(map(str, unescape(m2.group(1)))))
    m2 = re.fullmatch(r'\[(.*)\]', b, re.S)
    if m and m2:
        return 'h.%s == [%s]' % (m.group(1), ', '.join(str(number(x)) for x in split_args(m2.group(1))))
    if m:
        return 'h.%s == %d' % (m.group(1), number(b))
    raise SystemExit('assert_eq? %s %s' % (a, b))

def truth(a):
    neg = a.startswith('!')
    a = a[1:] if neg else a
    m = re.fullmatch(r'Flags::from_u8\(h\.(\w+)\)\.(\w+)\(\)', a)
    if m:
        e = '(Flags.fromU8 h.%s).%s' % (m.group(1), camel(m.group(2)))
    else:
        m = re.fullmatch(r'h\.(\w+)', a)
        e = 'h.' + m.group(1)
    return ('!' if neg else '') + e

def test(body):
    v, goals, fed = [], [], False
    for st in statements(body):
        if st in ('let mut v = Vec::new()', 'let mut h = DebugHandler::new()', 'let mut p = Parser::new()'):
            continue
        m = re.fullmatch(r'pack_(\w+)!\s*\((.*)\)', st, re.S)
        if m:
            assert not fed
            a = split_args(m.group(2))
            assert a[0] == 'v'
            if m.group(1) == 'bytes':
                m2 = re.fullmatch(r'b"(.*)"', a[1], re.S)
                if m2:
                    v += unescape(m2.group(1))
                else:
                    m2 = re.fullmatch(r'&\[(.*)\]', a[1], re.S)
                    v += [number(x) for x in split_args(m2.group(1))]
            else:
                n = {'u8': 1, 'u16': 2, 'u32': 4}[m.group(1)]
                v += list(number(a[1]).to_bytes(n, 'big'))
            continue
        if st == 'p.resume(&mut h, &v)':
            assert not fed
            fed = True
            continue
        m = re.fullmatch(r'assert(_eq)?!\s*\((.*)\)', st, re.S)
        if m:
            assert fed
            a = split_args(m.group(2))
            goals.append(value(*a) if m.group(1) else truth(a[0]))
            continue
        raise SystemExit('statement? ' + st)
    return v, goals

def main():
    out = []
    for f in sorted(os.listdir(ROOT)):
        if f == 'mod.rs':
            continue
        s = strip_comments(open(os.path.join(ROOT, f)).read())
        for m in re.finditer(r'#\[test\]\s*fn (\w+)\(\) \{', s):
            i = m.end() - 1
            j = match_close(s, i)
            v, goals = test(s[i + 1:j])
            l0 = s.count('\n', 0, m.start()) + 1
            l1 = s.count('\n', 0, j) + 1
            out.append('/-- `%s`, src/http2/test/%s lines %d-%d. -/' % (m.group(1), f, l0, l1))
            out.append('example : (let (h, t) := fed [%s]\n  %s) = true := by\n  decide +kernel\n'
                       % (', '.join(map(str, v)), ' &&\n  '.join(goals)))
    print(HEADER)
    print('\n'.join(out))
    print('end Verif.Conformance.Http2')
    sys.stderr.write('%d tests\n' % len([x for x in out if x.startswith('/--')]))

HEADER = '''import Verif.Conformance.Http2Base

/-!
# The tests of the HTTP/2 parser, run on the model

Made by conformance/http2.py from /repo/src/http2/test. Nothing here is a proof about the code; the tests
of the repository say what its authors saw the code do, and the model does the same.
-/

namespace Verif.Conformance.Http2

open Verif.Http2
'''

main()
