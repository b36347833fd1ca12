#!/usr/bin/env python3
"""Expands the templates in tools/templates/*.lean.in into lean/Verif/Model/*.lean.

  @@ARR file first last [LE18|GT18]@@   the brace-enclosed initialiser found in lines first..last of
        /repo/src/<file> as a Lean vector literal of rationals, element by element (decimal literals are
        copied digit by digit, suffixes f/L dropped; quotients `a/b` of literals are kept as rational quotients);
        LDBL_DIG conditionals inside it are resolved by LE18 / GT18.
  @@ARRN ...@@  the number of elements.
  ⟪C++ expression⟫  the expression converted to Lean (see `expr`).  The text must occur (up to white space) in
        the lines announced by the last `%src file first last` directive line.
  %arr NAME LEANNAME  lines: C array NAME is the Lean vector LEANNAME in the following expressions
"""
import re, sys, os, glob
REPO = '/repo/src/'
def elements(fn, a, b, mode):
    lines = open(REPO+fn).read().split('\n')[a-1:b]
    out = []; skip = False; cond = None
    for l in lines:
        s = l.strip()
        if s.startswith('#if'):
            if 'LDBL_DIG > 18' in s: cond = 'GT18'
            elif 'LDBL_DIG <= 18' in s: cond = 'LE18'
            else: raise Exception(s)
            assert mode in ('GT18', 'LE18'), (fn, a, b)
            skip = (cond != mode); continue
        if s.startswith('#else'): skip = not skip; continue
        if s.startswith('#endif'): skip = False; continue
        if skip: continue
        l = re.sub(r'!.*', '', l) if fn.endswith('.f90') else re.sub(r'//.*', '', l)
        out.append(l)
    txt = re.sub(r'/\*.*?\*/', '', '\n'.join(out), flags=re.S)
    if fn.endswith('.f90'):
        txt = '\n'.join(out).replace('&', '')
        m = re.search(r'=\s*\(/(.*?)/\)', txt, re.S)
    else:
        m = re.search(r'=\s*\{(.*?)\}\s*;', txt, re.S)
    body = m.group(1)
    els = [e.strip() for e in body.split(',') if e.strip()]
    return [conv(e) for e in els]
def lit(t):
    t = re.sub('[dD]', 'e', t.strip().rstrip('fFlL'))
    m = re.fullmatch(r'(\d+)(?:\.(\d*))?(?:[eE]([+-]?\d+))?', t)
    assert m, t
    i, f, e = m.group(1), m.group(2) or '', int(m.group(3) or 0)
    if f and set(f) == {'0'}: f = ''
    s = i
    if f: s += '.' + f
    if e: s += 'e%d' % e
    return s
def conv(e):
    e = e.replace(' ', '')
    neg = False
    if e[0] in '+-':
        neg = e[0] == '-'; e = e[1:]
    p = e.split('/')
    s = ' / '.join(lit(x) for x in p)
    return ('-' if neg else '') + s
def arr(m):
    fn, a, b = m.group(2), int(m.group(3)), int(m.group(4)); mode = m.group(5)
    els = elements(fn, a, b, mode.strip() if mode else None)
    if m.group(1) == 'ARRN': return str(len(els))
    lines = []; cur = ''
    for x in els:
        if len(cur) + len(x) + 2 > 96:
            lines.append(cur); cur = ''
        cur += (x + ', ')
    lines.append(cur.rstrip(', '))
    return '#v[\n    ' + '\n    '.join(l.rstrip() for l in lines) + ']'
TOK = re.compile(r'\s*(?:(\d+(?:\.(?!lt|le|gt|ge|eq|and)\d*)?(?:[eEdD][+-]?\d+)?[fFlL]?)|\.(lt|le|gt|ge|eq|and)\.|((?:std::)?[A-Za-z_]\w*(?:<\d+>)?)|(<=|>=|==|&&|\|\||\*\*|[-+*/()<>\[\],]))')
REL = {'lt': '<', 'le': '<=', 'gt': '>', 'ge': '>=', 'eq': '==', 'and': '&&'}
FUN = {'std::log': 'xlog', 'std::log1p': 'FOps.log1p', 'log1p': 'clog1p', 'pos_log': 'posLog',
       'std::sin': 'FOps.sin', 'std::cos': 'FOps.cos', 'std::atan': 'FOps.atan', 'std::fmod': 'FOps.fmod',
       'std::norm': 'Cx.norm', 'std::abs': 'Cx.abs', 'std::arg': 'Cx.arg', 'std::sqrt': 'Cx.sqrt',
       'std::real': 'Cx.re', 'std::imag': 'Cx.im', 'std::hypot': 'FOps.hypot', 'horner': 'horner', 'clog': 'clog',
       'Li2': '%Li2', 'Li3': '%Li3', 'Li4': '%Li4', 'li3_neg': 'li3_neg', 'li3_pos': 'li3_pos'}
# C: <math.h>, <complex.h>, log.h
FUNC = {'log': 'xlog', 'logf': 'xlog', 'logl': 'xlog', 'log1p': 'FOps.log1p', 'log1pf': 'FOps.log1p', 'log1pl': 'FOps.log1p',
        'clog': 'xlog', 'clogf': 'xlog', 'clogl': 'xlog', 'clog1p': 'clog1p', 'clog1pl': 'clog1p', 'pos_clog': 'pos_clog', 'pos_clogl': 'pos_clogl',
        'hypot': 'FOps.hypot', 'hypotl': 'FOps.hypot', 'atan2': 'FOps.atan2', 'atan2l': 'FOps.atan2', 'li3_neg': 'li3_neg', 'li3_pos': 'li3_pos'}
# Fortran intrinsics, log.f90
FUNF = {'log': 'xlog', 'cdlog1p': 'cdlog1p', 'pos_cdlog': 'pos_cdlog', 'hypot': 'FOps.hypot', 'datan2': 'FOps.atan2', 'mod': 'FOps.fmod',
        'dli3_neg': 'dli3_neg', 'dli3_pos': 'dli3_pos'}
class P:
    """precedence: || && cmp + * unary"""
    def __init__(s, text, arrs, lang):
        s.t = []; pos = 0; text = text.strip(); s.lang = lang
        if lang == 'f': text = re.sub(r'&[ \t]*(\n|$)', r'\1', text)
        while pos < len(text):
            m = TOK.match(text, pos)
            assert m, (text, pos)
            k = 'n' if m.group(1) else 'i' if m.group(3) else 'o'
            s.t.append((k, m.group(1) or REL.get(m.group(2)) or m.group(3) or m.group(4))); pos = m.end()
            while pos < len(text) and text[pos].isspace(): pos += 1
        s.i = 0; s.arrs = arrs
    def peek(s): return s.t[s.i] if s.i < len(s.t) else ('e', '')
    def next(s): x = s.peek(); s.i += 1; return x
    def eat(s, v): assert s.next()[1] == v, (v, s.t, s.i)
    def bin(s, ops, sub, m):
        l = sub()
        while s.peek()[0] == 'o' and s.peek()[1] in ops:
            o = s.next()[1]; r = sub(); l = '%s %s %s' % (l, m.get(o, o + '.'), r)
        return l
    def lor(s): return s.bin(('||',), s.land, {'||': '||'})
    def land(s): return s.bin(('&&',), s.cmp, {'&&': '&&'})
    def cmp(s): return s.bin(('<', '<=', '>', '>=', '=='), s.add, {})
    def add(s):
        if s.lang == 'f' and s.peek() == ('o', '-'): # Fortran: -a*b is -(a*b)
            s.next(); l = s.mul(); l = '∸' + (l if re.fullmatch(r"[\w.']+|♯[\d.]+", l) else '(' + l + ')')
            while s.peek()[0] == 'o' and s.peek()[1] in '+-':
                o = s.next()[1]; l = '%s %s. %s' % (l, o, s.mul())
            return l
        return s.bin(('+', '-'), s.mul, {})
    def mul(s): return s.bin(('*', '/'), s.pw if s.lang == 'f' else s.un, {})
    def pw(s):
        b = s.prim()
        if s.peek() == ('o', '**'):
            s.next(); k = s.next()[1]; assert k in '2346', k
            return '(ipow%s %s)' % (k, b if re.fullmatch(r"[\w.']+|\(.*\)", b) else '(' + b + ')')
        return b
    def un(s):
        if s.peek() == ('o', '-'):
            s.next(); return '∸' + s.un()
        return s.prim()
    def prim(s):
        k, v = s.next()
        if k == 'n': return '♯' + lit(v)
        if v == '(':
            e = s.lor(); s.eat(')'); return '(' + e + ')'
        assert k == 'i', (k, v)
        if s.peek()[1] == '(' and s.lang == 'f' and '@' + v in s.arrs: # array element, indices from 1
            s.next(); ix = s.next()[1]; s.eat(')')
            return '♯(%s[%d])' % (s.arrs['@' + v], int(ix) - 1)
        if s.peek()[1] == '(' :
            s.next(); args = [s.lor()]
            while s.peek()[1] == ',': s.next(); args.append(s.lor())
            s.eat(')')
            m = re.fullmatch(r'horner<(\d+)>', v)
            f = 'hornerC ' + m.group(1) if m else s.arrs[v] if s.lang != '+' and v in s.arrs else {'+': FUN, 'c': FUNC, 'f': FUNF}[s.lang][v]
            if f.startswith('%'): f = s.arrs[v]
            return '(' + f + ' ' + ' '.join(a if re.fullmatch(r"[\w.']+", a) else '(' + a + ')' for a in args) + ')'
        if s.peek()[1] == '[':
            s.next(); ix = s.next()[1]; s.eat(']')
            return '♯(%s[%s])' % (s.arrs.get(v, v), ix)
        return s.arrs.get(v, v)
def squeeze(t, lang='+'):
    if lang == 'f': return re.sub(r'\s+', '', re.sub(r'!.*', '', t).replace('&', ''))
    return re.sub(r'\s+', '', re.sub(r'//.*', '', t))
def expand(t, fname):
    t = re.sub(r'@@(ARRN|ARR) (\S+) (\d+) (\d+)( \w+)?@@', arr, t)
    src = ''; arrs = {}; out = []; lang = '+'
    def e(m):
        if squeeze(m.group(1), lang) not in src: raise Exception('%s: not in source: %s' % (fname, m.group(1)))
        p = P(m.group(1), arrs, lang); r = p.lor(); assert p.peek()[0] == 'e', (m.group(1), p.t[p.i:])
        return r
    # process line by line, but expressions may span lines
    for chunk in re.split(r'(^%.*\n)', t, flags=re.M):
        if chunk.startswith('%src'):
            _, fn, a, b = chunk.split()
            lang = 'f' if fn.endswith('.f90') else 'c' if fn.endswith('.c') else '+'
            src = squeeze('\n'.join(open(REPO+fn).read().split('\n')[int(a)-1:int(b)]), lang); arrs = {}
        elif chunk.startswith('%arr'):
            _, n, l = chunk.split(None, 2); arrs[n] = l.strip()
        else:
            out.append(re.sub(r'⟪(.*?)⟫', e, chunk, flags=re.S))
    return ''.join(out)
if __name__ == '__main__':
    here = os.path.dirname(os.path.abspath(__file__))
    out = sys.argv[1] if len(sys.argv) > 1 else os.path.join(here, '../lean/Verif/Model')
    for f in sorted(glob.glob(here + '/templates/*.lean.in')):
        t = expand(open(f).read(), f)
        o = os.path.join(out, os.path.basename(f)[:-3])
        if not os.path.exists(o) or open(o).read() != t:
            open(o, 'w').write(t); print('wrote', o)
