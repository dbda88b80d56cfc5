#!/usr/bin/env python3
"""run.py SEED N: compares the Lean model with port.py on N random documents (grammar-based, then damaged), with random included files."""
import random, subprocess, sys
sys.path.insert(0, '/verif/tools/difftest'); sys.setrecursionlimit(100000)
import port
from port import *
seed, N = int(sys.argv[1]), int(sys.argv[2])
R = random.Random(seed)
NAMES = ['a', 'b', 'c', 'x1', '_y', 'foo', 'é', 'Bar', 'null', 'Obj', 'true', '^z', '9q', '']
FILES = ['m', 'n', 'd/p', 'd/q', 'd/e/r', 'bad', 'd', '../m', './n', 'e/r', 'p', 'q', '/m', '/d/p', 'nope', '', '../../m', 'd/../m', './/n', './d/./p', '//m', './/./d//e/./r', 'd/.']
def ws(): return R.choice(['', '', ' ', ' ', '\n', '  ', '\t', '# c\n', '\r\n', '\u3000', ' #é"{\n', '\n\n'])
def ws1(): return R.choice([' ', ' ', '\n', '  ', '\t', ' # c\n', '\r\n', '\u2003'])
def nm(): return R.choice(NAMES[:8]) if R.random() < .93 else R.choice(NAMES)
def num():
    r = R.random()
    if r < .5: return str(R.randrange(0, 12))
    if r < .6: return '0' * R.randrange(3) + str(R.randrange(10 ** R.randrange(1, 30)))
    if r < .8: return R.choice(['', str(R.randrange(20))]) + R.choice('.,') + R.choice(['', '0', '5', '50', '25', '125', '00'])
    if r < .9: return R.choice(['1_000', '1_', '1__2', '1_.5_', '_1', '1._2', '1.2.3', '1,2,3', '.', ',', '._', '1e5', '18446744073709551615', '18446744073709551616'])
    return str(R.randrange(100))
def strlit():
    s = ''
    for _ in range(R.randrange(5)):
        s += R.choice(['a', 'B', ' ', '\\n', '\\"', '\\\\', "\\'", '\\$', '\\t', '\\r', '$', "'", '\n', 'é', '#', '\\a', '{', '\x00', '😀', '\x7f'] if R.random() < .3 else ['a', 'b', ' ', '\\n', '\\"'])
    return '"' + s + '"'
def term(d):
    r = R.random()
    if d <= 0: r *= .55
    if r < .2: return num()
    if r < .32: return strlit()
    if r < .37: return R.choice(['null', 'true', 'false', 'Obj', 'Str', 'Arr', 'Tup', '@'])
    if r < .55: return var(d)
    if r < .60: return R.choice('+-') + (num() if R.random() < .8 else term(d - 1))
    if r < .70: return '{' + ws() + fields(d - 1, R.randrange(4)) + ws() + '}'
    if r < .80: return '[' + ws() + vals(d - 1, R.randrange(4), homog=R.random() < .8) + ws() + ']'
    if r < .90: return '(' + ws() + vals(d - 1, R.randrange(4)) + ws() + ')'
    k = R.choice(['', '', 'Obj', 'Str', 'Arr', 'Tup', 'a', '1'] if R.random() < .2 else ['', 'Obj', 'Str', 'Arr', 'Tup'])
    p = '"' + R.choice(FILES[:7] if R.random() < .6 else FILES) + '"'
    if R.random() < .1: p = expr(d - 1)
    return '<' + ws() + (k + ws1() if k else '') + p + ws() + '>'
SCOPE, GLOBALS = [[]], []
def var(d):
    g = R.random() < .3
    known = GLOBALS if g else SCOPE[-1]
    v = ('@' if g else '') + (R.choice(known) if known and R.random() < .93 else nm())
    while R.random() < .35: v += '.' + R.choice([nm, lambda: str(R.randrange(4)), lambda: '@' + nm(), lambda: R.choice(['', '(', '-1', ' a', '0.5']) if R.random() < .2 else nm()])()
    return v
def num_like(e): return e[0] in '0123456789.,' and R.random() < .9
def expr(d):
    e = term(d) or '1'
    while R.random() < .25: e += R.choice('+-*/%++') + (num() if num_like(e) else strlit() if e[0] == '"' else '[' + num() + ']' if e[0] == '[' else term(d - 1) if R.random() < .3 else num())
    return e
def vals(d, n, homog=False):
    if homog:
        g = R.choice([num, strlit, lambda: '[]', lambda: '[' + num() + ']', lambda: '(' + R.choice(['[]', '[1]', '["a"]']) + ' ' + R.choice(['1', '[]']) + ')', lambda: expr(d)])
    else: g = lambda: expr(d)
    return ws1().join(g() for _ in range(n))
def fields(d, n):
    SCOPE.append([])
    s = fields1(d, n)
    SCOPE.pop()
    return s
def fields1(d, n):
    s = ''
    for i in range(n):
        pre = R.choice(['', '', '', '@', '^'])
        new = [x for x in NAMES[:8] if x not in (GLOBALS if pre == '@' else SCOPE[-1])]
        base = R.choice(new) if new and R.random() < .97 else nm()
        name = '^' if pre == '^' else pre + base
        s += name + ':' + ws() + (expr(d) if pre != '^' or R.random() < .2 else R.choice(['{a: 1}', '@a', 'b', '{}', '<"m">'])) + ws1()
        if pre == '@': GLOBALS.append(base)
        elif pre == '': SCOPE[-1].append(base)
    return s
def damage(s):
    for _ in range(R.randrange(1, 3)):
        if not s: return s
        i = R.randrange(len(s)); r = R.random()
        if r < .3: s = s[:i] + s[i + 1:]
        elif r < .6: s = s[:i] + R.choice('{}[]()<>:@^."\\+-*/%#_, \n\r09azé\x00\u00a0$\'') + s[i:]
        elif r < .75: s = s[:i]
        elif r < .9:
            j = R.randrange(len(s)); a, b = min(i, j), max(i, j); s = s[:a] + s[b:]
        else:
            j = R.randrange(len(s)); a, b = min(i, j), max(i, j); s = s[:b] + s[a:b] + s[b:]
    return s
def deep():
    n = R.choice([20, 30, 31, 32, 60, 61, 62, 63, 64, 65, 66])
    br = [R.choice(['{a: ', '[', '(', '<', '-', '+', '[-', '(+', '-[']) if R.random() < .3 else R.choice(['{a: ', '[', '(']) for _ in range(n)]
    cl = {'{': '}', '[': ']', '(': ')', '<': '>'}
    return 'a: ' + ''.join(br) + '1' + ''.join(cl.get(c, '') for b in reversed(br) for c in reversed(b) if c in cl)
def doc():
    s = deep() if R.random() < .06 else fields(3, R.randrange(1, 7))
    return damage(s) if R.random() < .3 else s
class FS:
    def __init__(s, files, dirs): s.files, s.dirs = files, dirs
    def norm(s, p):
        r = []
        for x in p.split('/'):
            if x in ('.', ''): pass
            elif x == '..': r = r[:-1]
            else: r.append(x)
        return '/' + '/'.join(r)
    def canonicalize(s, p):
        if p == '': return None
        n = s.norm(p)
        return n if n in s.files or n in s.dirs else None
    def join(s, cur, inc):
        # Path::parent: the components with their ends; `.` counts only as the first, empty ones never
        comps, i = [], 0
        if cur.startswith('/'): comps.append((1, True))
        for k, x in enumerate(cur.split('/')):
            if x and (x != '.' or k == 0): comps.append((i + len(x), False))
            i += len(x) + 1
        if not comps or comps[-1][1]: raise Panic()
        d = cur[:comps[-2][0]] if len(comps) > 1 else ''
        if inc.startswith('/'): return inc
        return d + inc if d == '' or d.endswith('/') else d + '/' + inc
    def is_file(s, p):
        c = s.canonicalize(p)
        return c is not None and c in s.files
    def read(s, p):
        c = s.canonicalize(p)
        if c is None or c not in s.files: return ('err', 'cannot open')
        return ('err', 'stream did not contain valid UTF-8') if s.files[c] is None else ('ok', s.files[c])
def hx(s): return ','.join(str(ord(c)) for c in s)
def esc(s): return 's' + '.'.join(str(ord(c)) for c in s)
def py(mode, main, fs):
    w = World(fs)
    try: o = parse_obj_str(w, main) if mode == 's' else parse_obj_file(w, main)
    except PErr as e: return 'err ' + esc(e.display())
    except Panic: return 'panic'
    def f(full, n):
        try: return esc(fmt(o, full, n))
        except Panic: return 'PANIC'
    return 'ok ' + dump(o) + ' next ' + str(w.next_id) + ' text ' + f(False, 0) + ' disp ' + f(True, INDENT_STEP)
DIRS = ['/', '/d', '/d/e']
cases = []
for _ in range(N):
    files = {}
    for p in ['/m', '/n', '/d/p', '/d/q', '/d/e/r']:
        r = R.random()
        if r < .1: continue
        GLOBALS.clear()
        files[p] = doc() if r < .5 else (fields(2, R.randrange(3)) if r < .75 else vals(2, R.randrange(4), homog=R.random() < .7))
    if R.random() < .5: files['/bad'] = None
    GLOBALS.clear()
    if R.random() < .6: mode, main = 's', doc()
    else: mode, main = 'f', R.choice(['m', '/d/p', 'd/e/r', './n', 'd/../m', 'd/.//p', './/m', '//d//p', '././n', '/./d/e//r'] if R.random() < .95 else ['bad', 'nope', 'd'])
    cases.append((mode, main, files))
inp = ''.join('%s|%s|%s|%s\n' % (m, hx(x), ';'.join(map(hx, DIRS)), ';'.join(hx(p) + '=' + ('X' if t is None else hx(t)) for p, t in f.items())) for m, x, f in cases)
import shutil
shutil.copy('/verif/tools/difftest/Run.lean.txt', '/tmp/DiffRun.lean')
lean = subprocess.run(['lake', 'env', 'lean', '--run', '/tmp/DiffRun.lean'], cwd='/verif/lean', input=inp, capture_output=True, text=True)
res = lean.stdout.split('\n')
if len(res) != N + 1: print('lean failed', lean.stderr[:500], lean.stdout[:800], len(res)); sys.exit(1)
import collections, re
stat, bad = collections.Counter(), 0
for (m, x, f), l in zip(cases, res):
    p = py(m, x, FS(f, DIRS))
    msg = ''.join(chr(int(c)) for c in p[5:].split('.') if c) if p.startswith('err') else p[:2]
    stat[re.sub(r'^(/|\.|m|n|d|p|e|r|q|/)*: ', '', re.sub(r"\d+|\"[^\"]*\"|'[^']*'|Arr\(.*|Tup\(.*", '_', msg))[:44]] += 1
    if p != l:
        bad += 1
        if bad < 4: print('DIFF', (m, x, f), '\n py  ', p[:1500], '\n lean', l[:1500])
print(N, 'cases,', bad, 'differences')
for k, n in stat.most_common(): print('  %6d %s' % (n, k))
