"""Reading the tests of /repo as text."""
import re

def strip_comments(s):
    out = []
    for line in s.split('\n'):
        if re.match(r'^\s*//', line):
            out.append('')
        else:
            out.append(line)
    return '\n'.join(out)

def match_close(s, i):
    """s[i] is an opening bracket; the index of the closing one."""
    pairs = {'(': ')', '[': ']', '{': '}'}
    depth = 0
    n = len(s)
    while i < n:
        c = s[i]
        if c == '"':
            i += 1
            while s[i] != '"':
                if s[i] == '\\':
                    i += 1
                i += 1
        elif c == "'" :
            m = re.match(r"'(\\.|[^\\])'", s[i:])
            if m:
                i += m.end() - 1
        elif c in pairs:
            depth += 1
        elif c in pairs.values():
            depth -= 1
            if depth == 0:
                return i
        i += 1
    raise SystemExit('no closing bracket')

def split_args(s):
    args, depth, cur, i = [], 0, '', 0
    while i < len(s):
        c = s[i]
        if c in '([{':
            j = match_close(s, i)
            cur += s[i:j + 1]
            i = j + 1
            continue
        if c == '"':
            j = i + 1
            while s[j] != '"':
                if s[j] == '\\':
                    j += 1
                j += 1
            cur += s[i:j + 1]
            i = j + 1
            continue
        if c == "'":
            m = re.match(r"'(\\.|[^\\])'", s[i:])
            cur += m.group(0)
            i += m.end()
            continue
        if c == ',':
            args.append(cur.strip())
            cur = ''
        else:
            cur += c
        i += 1
    if cur.strip():
        args.append(cur.strip())
    return args

def unescape(body):
    body = re.sub(r'\\\n\s*', '', body)
    out, i = [], 0
    while i < len(body):
        if body[i] == '\\':
            c = body[i + 1]
            i += 2
            if c == 'x':
                out.append(int(body[i:i + 2], 16))
                i += 2
            else:
                out.append({'r': 13, 'n': 10, 't': 9, '\\': 92, '"': 34, "'": 39, '0': 0}[c])
        else:
            out.append(ord(body[i]))
            i += 1
    return out

def statements(s):
    """Split a body into statements."""
    out, i, cur = [], 0, ''
    while i < len(s):
        c = s[i]
        if c in '([{':
            j = match_close(s, i)
            cur += s[i:j + 1]
            i = j + 1
            if c == '{' and re.match(r'\s*(for|impl|match|if)\b', cur):
                out.append(cur.strip())
                cur = ''
            continue
        if c == '"':
            j = i + 1
            while s[j] != '"':
                if s[j] == '\\':
                    j += 1
                j += 1
            cur += s[i:j + 1]
            i = j + 1
            continue
        if c == "'":
            m = re.match(r"'(\\.|[^\\])'", s[i:])
            cur += m.group(0)
            i += m.end()
            continue
        if c == ';':
            out.append(cur.strip())
            cur = ''
        else:
            cur += c
        i += 1
    if cur.strip():
        out.append(cur.strip())
    return [x for x in out if x]

def camel(s):
    """A Lean name for a Rust name."""
    n = s.split('_')
    n = n[0] + ''.join(x[:1].upper() + x[1:] for x in n[1:])
    return n[0].lower() + n[1:]
