"""A transliteration of src/parse/{parser,util,char_stream,error,format}.rs and src/types.rs into Python, function by function and in the
order of the Rust text, used only to test the Lean model (run.py).  Rust's `?`/`return parse_err` is an exception; `unwrap`, `assert` and
arithmetic overflow in debug builds are the exception Panic."""
from fractions import Fraction
from collections import deque
class Panic(Exception): pass
class PErr(Exception):
    def __init__(self, file, msg): self.file, self.msg = file, msg
    def display(self): return (self.file + ': ' if self.file is not None else '') + self.msg
def unwrap(x):
    if x is None: raise Panic()
    return x
def check(b):
    if not b: raise Panic()
def sub1(n):
    if n == 0: raise Panic()
    return n - 1
MAX_DEPTH = 64
INDENT_STEP = 4
class World:
    def __init__(s, fs): s.fs, s.next_id, s.sent = fs, 0, {}
    def gen_id(s):
        i = s.next_id; s.next_id += 1; return i
    def sentinel(s, k):
        if k not in s.sent: s.sent[k] = ('obj', s.gen_id(), [], None)
        return s.sent[k]
# ---- src/types.rs; types: ('any',) ('null',) ('bool',) ('int',) ('frac',) ('str',) ('arr', t) ('tup', [t]) ('obj',)
def t_is(a, b):
    if a[0] != b[0]: return False
    if a[0] == 'arr': return t_is(a[1], b[1])
    if a[0] == 'tup':
        if len(a[1]) != len(b[1]): return False
        return all(t_is(x, y) for x, y in zip(a[1], b[1]))
    return True
def t_eq(a, b):
    if b[0] == 'any': return True
    if a[0] == 'any': return True
    if a[0] == 'arr': return b[0] == 'arr' and t_eq(a[1], b[1])
    if a[0] == 'tup': return b[0] == 'tup' and len(a[1]) == len(b[1]) and all(t_eq(x, y) for x, y in zip(a[1], b[1]))
    return t_is(a, b)
def has_any(t):
    if t[0] == 'any': return True
    if t[0] == 'arr': return has_any(t[1])
    if t[0] == 'tup': return any(has_any(x) for x in t[1])
    return False
def most_specific(a, b):
    if b[0] == 'any': return (a, has_any(a))
    if a[0] == 'any': return (b, has_any(b))
    if a[0] == 'arr':
        if b[0] != 'arr': return None
        r = most_specific(a[1], b[1])
        return None if r is None else (('arr', r[0]), r[1])
    if a[0] == 'tup':
        if b[0] != 'tup' or len(a[1]) != len(b[1]): return None
        ts, anyf = [], False
        for x, y in zip(a[1], b[1]):
            r = most_specific(x, y)
            if r is None: return None
            if not anyf and r[1]: anyf = r[1]
            ts.append(r[0])
        return (('tup', ts), anyf)
    return (a, False) if t_eq(a, b) else None
def t_show(t):
    if t[0] == 'arr': return 'Arr(' + t_show(t[1]) + ')'
    if t[0] == 'tup': return 'Tup(' + ', '.join(t_show(x) for x in t[1]) + ')'
    return t[0].capitalize()
# ---- values: ('null',) ('bool', b) ('int', i) ('frac', q) ('str', s) ('arr', id, t, vs) ('tup', id, ts, vs) ('obj', id, pairs, parent)
def get_type(v):
    if v[0] == 'arr': return ('arr', v[2])
    if v[0] == 'tup': return ('tup', v[2])
    return (v[0],)
# ---- src/parse/util.rs, src/obj.rs:285-293
WS = set([9, 10, 11, 12, 13, 32, 0x85, 0xA0, 0x1680, 0x2028, 0x2029, 0x202F, 0x205F, 0x3000] + list(range(0x2000, 0x200B)))
def is_uni_ws(ch): return ord(ch) in WS
ESC = {'\\': '\\', '"': '"', "'": "'", '$': '$', 'n': '\n', 'r': '\r', 't': '\t'}
def is_end_delimiter(ch): return ch in ')]}>'
def is_op(ch): return ch in '+-*/%'
def is_whitespace(ch): return is_uni_ws(ch) or ch == '#'
def is_value_end_char(ch): return is_whitespace(ch) or is_end_delimiter(ch) or is_op(ch)
def is_digit(ch): return '0' <= ch <= '9'
def is_numeric_char(ch): return is_digit(ch) or ch in '.,'
def is_reserved(f): return f in ("@", "null", "true", "false", "Obj", "Str", "Arr", "Tup")
ALPHA_HI = 'é'
def is_alphabetic(ch): return 'a' <= ch <= 'z' or 'A' <= ch <= 'Z' or ch in ALPHA_HI
def is_valid_field_char(ch, first):
    if is_alphabetic(ch): return True
    if is_digit(ch): return not first
    if ch == '_': return True
    if ch == '^': return first
    return False
def frac_from_whole_and_dec(whole, decimal, dec_len): return Fraction(whole) + Fraction(decimal, 10 ** dec_len)
# ---- src/parse/char_stream.rs
class Stream:
    def __init__(s, file, contents): s._file, s.c, s.i, s._line, s._col = file, contents, 0, 1, 1
    def peek(s): return s.c[s.i] if s.i < len(s.c) else None
    def file(s): return s._file
    def line(s): return s._line
    def col(s): return s._col
    def next(s):
        if s.i >= len(s.c): return None
        ch = s.c[s.i]; s.i += 1
        if ch == '\n': s._line += 1; s._col = 1
        else: s._col += 1
        return ch
# ---- messages, src/parse/error.rs
def chdbg(ch):
    m = {'\t': '\\t', '\r': '\\r', '\n': '\\n', "'": "\\'", '"': '\\"', '\\': '\\\\'}
    if ch in m: return "'" + m[ch] + "'"
    if ord(ch) < 32 or ord(ch) == 127: return "'\\u{%x}'" % ord(ch)
    return "'" + ch + "'"
def at(l, c): return ' at line %d, column %d' % (l, c)
def err(stream, msg): raise PErr(stream.file(), msg)
def MaxDepth(l, c): return 'Exceeded maximum recursion depth (64)' + at(l, c)
def UnexpectedEnd(l): return 'Unexpected end at line %d' % l
def InvalidClosingBracket(e, f, l, c): return "Invalid closing bracket '%s'" % f + at(l, c) + '; expected ' + ("'%s'" % e if e is not None else 'none')
def DuplicateGlobal(f, l, c): return 'Duplicate global "%s"' % f + at(l, c)
def DuplicateField(f, l, c): return 'Duplicate field "%s"' % f + at(l, c)
def ExpectedType(e, f, l, c): return 'Expected ' + t_show(e) + at(l, c) + '; found ' + t_show(f)
def InvalidFieldChar(ch, l, c): return 'Invalid character ' + chdbg(ch) + ' for field' + at(l, c)
def InvalidFieldName(f, l, c): return 'Invalid field name "%s"' % f + at(l, c)
def InvalidValueChar(ch, l, c): return 'Invalid character ' + chdbg(ch) + ' for value' + at(l, c)
def InvalidNumeric(l, c): return 'Invalid numeric value' + at(l, c)
def InvalidValue(v, l, c): return 'Invalid value "%s"' % v + at(l, c)
def GlobalNotFound(v, l, c): return 'Global "%s"' % v + at(l, c) + ' could not be found'
def VariableNotFound(v, l, c): return 'Variable "%s"' % v + at(l, c) + ' could not be found'
def InvalidIndex(i, l, c): return 'Invalid index %d' % i + at(l, c)
def InvalidDot(t, l, c): return 'Invalid use of dot notation on value of type ' + t_show(t) + at(l, c) + '; value must be an Obj, Arr, or Tup.'
def InvalidEscapeChar(ch, l, c): return 'Invalid escape character ' + chdbg(ch) + ' following backslash' + at(l, c) + ". If you meant to write a backslash, use '\\\\'"
def InvalidIncludeToken(t, l, c): return 'Invalid value of type "' + t_show(t) + '"' + at(l, c) + '; must be either a Str value or one of the tokens "Obj", "Arr", "Tup", or "Str"'
def InvalidIncludePath(p, l, c): return 'Invalid include path "%s"' % p + at(l, c)
def CyclicInclude(p, l, c): return 'Tried to cyclically include file "%s"' % p + at(l, c)
def UnaryOperatorError(t, op, l, c): return "Could not apply operator '%s' on type " % op + t_show(t) + at(l, c)
def BinaryOperatorError(a, b, op, l, c): return "Could not apply operator '%s' on types " % op + t_show(a) + ' and ' + t_show(b) + at(l, c)
# ---- src/parse/parser.rs
def open_stream(w, path):
    r = w.fs.read(path)
    if r[0] == 'err': raise PErr(None, r[1])
    return Stream(path, r[1])
def parse_obj_file(w, path): return parse_obj_stream(w, open_stream(w, path), ({}, set()))
def parse_obj_file_includes(w, path, included): return parse_obj_stream(w, open_stream(w, path), included)
def parse_obj_str(w, contents): return parse_obj_stream(w, Stream(None, contents), ({}, set()))
def parse_obj_stream(w, stream, included):
    pairs = []
    if not find_char(stream): return ('obj', w.gen_id(), pairs, None)
    globals_ = {}
    parent = [None]
    while parse_field_value_pair(w, stream, pairs, globals_, included, parent, 1, None): pass
    return ('obj', w.gen_id(), pairs, parent[0])
def parse_obj(w, stream, globals_, included, depth):
    if depth > MAX_DEPTH: err(stream, MaxDepth(stream.line(), stream.col()))
    check(unwrap(stream.next()) == '{')
    if not find_char(stream): err(stream, UnexpectedEnd(stream.line()))
    pairs = []
    parent = [None]
    while parse_field_value_pair(w, stream, pairs, globals_, included, parent, depth, '}'): pass
    return ('obj', w.gen_id(), pairs, parent[0])
def parse_field_value_pair(w, stream, pairs, globals_, included, parent, depth, cur_brace):
    peek = unwrap(stream.peek())
    if peek == '}' and cur_brace is not None:
        stream.next(); return False
    elif is_end_delimiter(peek):
        err(stream, InvalidClosingBracket(cur_brace, peek, stream.line(), stream.col()))
    fl, fc = stream.line(), stream.col()
    name, ft = parse_field(stream, fl, fc)
    if ft == 'global':
        if name in globals_: err(stream, DuplicateGlobal(name, fl, fc))
    elif ft == 'parent':
        if parent[0] is not None: err(stream, DuplicateField('^', fl, fc))
    else:
        if any(f == name for f, _ in pairs): err(stream, DuplicateField(name, fl, fc))
    if not find_char(stream): err(stream, UnexpectedEnd(stream.line()))
    vl, vc = stream.line(), stream.col()
    value = parse_value(w, stream, pairs, globals_, included, vl, vc, depth, cur_brace, True)
    if ft == 'global': globals_[name] = value
    elif ft == 'parent':
        if value[0] != 'obj': err(stream, 'Type mismatch: expected Obj, found %s at line %d, col %d' % (t_show(get_type(value)), vl, vc))
        parent[0] = value
    else: pairs.append((name, value))
    if not find_char(stream):
        if cur_brace is not None: err(stream, UnexpectedEnd(stream.line()))
        return False
    return True
def check_elem(stream, tcur, anyf, value, vl, vc):
    tnew = get_type(value)
    if anyf:
        r = most_specific(tcur, tnew)
        if r is None: err(stream, ExpectedType(tcur, tnew, vl, vc))
        return r
    elif not t_eq(tcur, tnew): err(stream, ExpectedType(tcur, tnew, vl, vc))
    return tcur, anyf
def parse_arr_file(w, path, included):
    stream = open_stream(w, path)
    globals_ = {}
    vec, tcur, anyf = [], ('any',), True
    while True:
        if not find_char(stream): break
        vl, vc = stream.line(), stream.col()
        value = parse_value(w, stream, [], globals_, included, vl, vc, 1, None, True)
        tcur, anyf = check_elem(stream, tcur, anyf, value, vl, vc)
        vec.append(value)
    return ('arr', w.gen_id(), tcur, vec)
def parse_arr(w, stream, pairs, globals_, included, depth):
    if depth > MAX_DEPTH: err(stream, MaxDepth(stream.line(), stream.col()))
    check(unwrap(stream.next()) == '[')
    vec, tcur, anyf = [], ('any',), True
    while True:
        if not find_char(stream): err(stream, UnexpectedEnd(stream.line()))
        peek = unwrap(stream.peek())
        if peek == ']':
            stream.next(); break
        elif is_end_delimiter(peek): err(stream, InvalidClosingBracket(']', peek, stream.line(), stream.col()))
        vl, vc = stream.line(), stream.col()
        value = parse_value(w, stream, pairs, globals_, included, vl, vc, depth, ']', True)
        tcur, anyf = check_elem(stream, tcur, anyf, value, vl, vc)
        vec.append(value)
    return ('arr', w.gen_id(), tcur, vec)
def mk_tup(w, vec): return ('tup', w.gen_id(), [get_type(v) for v in vec], vec)
def parse_tup_file(w, path, included):
    stream = open_stream(w, path)
    vec, globals_ = [], {}
    while True:
        if not find_char(stream): break
        vl, vc = stream.line(), stream.col()
        vec.append(parse_value(w, stream, [], globals_, included, vl, vc, 1, None, True))
    return mk_tup(w, vec)
def parse_tup(w, stream, pairs, globals_, included, depth):
    if depth > MAX_DEPTH: err(stream, MaxDepth(stream.line(), stream.col()))
    check(unwrap(stream.next()) == '(')
    vec = []
    while True:
        if not find_char(stream): err(stream, UnexpectedEnd(stream.line()))
        peek = unwrap(stream.peek())
        if peek == ')':
            stream.next(); break
        elif is_end_delimiter(peek): err(stream, InvalidClosingBracket(')', peek, stream.line(), stream.col()))
        vl, vc = stream.line(), stream.col()
        vec.append(parse_value(w, stream, pairs, globals_, included, vl, vc, depth, ')', True))
    return mk_tup(w, vec)
def parse_field(stream, line, col):
    field, first, is_global = '', True, False
    if unwrap(stream.peek()) == '@':
        ch = unwrap(stream.next()); is_global = True; field += ch
    while True:
        ch = stream.next()
        if ch is None: break
        if ch == ':' and not first: break
        elif is_valid_field_char(ch, first): field += ch
        else: err(stream, InvalidFieldChar(ch, stream.line(), sub1(stream.col())))
        first = False
    if is_reserved(field): err(stream, InvalidFieldName(field, line, col))
    if field == '^': return field, 'parent'
    if field.startswith('^'): err(stream, InvalidFieldName(field, line, col))
    return field, ('global' if is_global else 'regular')
def parse_value(w, stream, pairs, globals_, included, line, col, depth, cur_brace, is_first):
    ch = unwrap(stream.peek())
    if ch == '"': res = parse_str(stream)
    elif ch == '{': res = parse_obj(w, stream, globals_, included, depth + 1)
    elif ch == '[': res = parse_arr(w, stream, pairs, globals_, included, depth + 1)
    elif ch == '(': res = parse_tup(w, stream, pairs, globals_, included, depth + 1)
    elif ch == '<': res = parse_include(w, stream, pairs, globals_, included, depth + 1)
    elif ch == '+': res = parse_unary_op(w, stream, pairs, globals_, included, depth, cur_brace, '+')
    elif ch == '-': res = parse_unary_op(w, stream, pairs, globals_, included, depth, cur_brace, '-')
    elif is_numeric_char(ch): res = parse_numeric(stream, line, col)
    elif is_valid_field_char(ch, True) or ch == '@': res = parse_variable(w, stream, pairs, globals_, included, line, col, depth, cur_brace)
    else: err(stream, InvalidValueChar(ch, line, col))
    if not is_first: return res
    vals, ops = deque([(res, line, col)]), deque()
    while True:
        ch = stream.peek()
        if ch is None: break
        if not is_op(ch): break
        op = ch
        stream.next()
        if stream.peek() is None: err(stream, UnexpectedEnd(stream.line()))
        l2, c2 = stream.line(), stream.col()
        val2 = parse_value(w, stream, pairs, globals_, included, l2, c2, depth, cur_brace, False)
        if op in '*/%':
            v1, l1, c1 = vals.pop()
            vals.append((binary_op(w, stream, v1, val2, op, l2, c2), l1, c1))
        else:
            vals.append((val2, l2, c2)); ops.append(op)
    check_value_end(stream, cur_brace)
    val1 = vals.popleft()[0]
    while ops:
        v2, l2, c2 = vals.popleft()
        val1 = binary_op(w, stream, val1, v2, ops.popleft(), l2, c2)
    return val1
def parse_unary_op(w, stream, pairs, globals_, included, depth, cur_brace, op):
    check(stream.next() == op)
    line, col = stream.line(), stream.col()
    if stream.peek() is None: err(stream, UnexpectedEnd(line))
    res = parse_value(w, stream, pairs, globals_, included, line, col, depth + 1, cur_brace, False)
    t = res[0]
    if op == '+':
        if t in ('int', 'frac'): return res
    else:
        if t in ('int', 'frac'): return (t, -res[1])
    err(stream, UnaryOperatorError(get_type(res), op, line, col))
def parse_numeric(stream, line, col):
    s1, s2, dec, under = '', '', False, False
    while True:
        ch = stream.peek()
        if ch is None: break
        if is_value_end_char(ch): break
        elif is_digit(ch):
            if not dec: s1 += ch
            else: s2 += ch
        elif ch in '.,':
            if not dec: dec = True
            else: err(stream, InvalidValueChar(ch, stream.line(), stream.col()))
        elif ch == '_':
            if not under: under = True
            else: err(stream, InvalidValueChar(ch, stream.line(), stream.col()))
        else: err(stream, InvalidValueChar(ch, stream.line(), stream.col()))
        if ch != '_': under = False
        stream.next()
    if dec:
        if s1 == '' and s2 == '': err(stream, InvalidNumeric(line, col))
        whole = 0 if s1 == '' else int(s1)
        s2 = s2.rstrip('0')
        d, n = (0, 1) if s2 == '' else (int(s2), len(s2))
        return ('frac', frac_from_whole_and_dec(whole, d, n))
    if s1 == '': err(stream, InvalidNumeric(line, col))
    return ('int', int(s1))
def parse_variable(w, stream, pairs, globals_, included, line, col, depth, cur_brace):
    var, is_global, dot, dot_global = '', False, False, False
    if unwrap(stream.peek()) == '@':
        ch = unwrap(stream.next()); is_global = True; var += ch
    while True:
        ch = stream.peek()
        if ch is None: break
        if ch == '.':
            stream.next()
            p = stream.peek()
            if p == '@': dot_global = True
            elif p is None: err(stream, UnexpectedEnd(stream.line()))
            elif is_valid_field_char(p, True) or is_numeric_char(p): pass
            else: err(stream, InvalidValueChar(p, stream.line(), stream.col()))
            dot = True
            break
        elif is_value_end_char(ch): break
        elif is_valid_field_char(ch, False):
            stream.next(); var += ch
        else: err(stream, InvalidValueChar(ch, stream.line(), stream.col()))
    if var == 'null': value = ('null',)
    elif var == 'true': value = ('bool', True)
    elif var == 'false': value = ('bool', False)
    elif var in ('Obj', 'Str', 'Arr', 'Tup'): value = w.sentinel(var)
    elif var == '@': err(stream, InvalidValue(var, line, col))
    elif is_global:
        if var in globals_: value = globals_[var]
        else: err(stream, GlobalNotFound(var, line, col))
    else:
        for f, v in pairs:
            if f == var: value = v; break
        else: err(stream, VariableNotFound(var, line, col))
    if dot:
        if value[0] in ('arr', 'tup'):
            l, c = stream.line(), stream.col()
            ix = parse_value(w, stream, pairs, globals_, included, l, c, depth + 1, cur_brace, False)
            if ix[0] == 'int':
                if not (0 <= ix[1] < 2 ** 64): err(stream, InvalidIndex(ix[1], l, c))
                if ix[1] >= len(value[3]): err(stream, '%s index %d out of bounds at line %d, col %d' % (value[0].capitalize(), ix[1], l, c))
                return value[3][ix[1]]
            err(stream, ExpectedType(('int',), get_type(ix), l, c))
        elif value[0] == 'obj':
            l, c = stream.line(), stream.col()
            if dot_global: err(stream, InvalidValueChar('@', l, c))
            return parse_variable(w, stream, value[2], globals_, included, l, c, depth + 1, cur_brace)
        else: err(stream, InvalidDot(get_type(value), line, col))
    return value
def parse_str(stream):
    check(unwrap(stream.next()) == '"')
    s, escape = '', False
    while True:
        ch = stream.next()
        if ch is None: err(stream, UnexpectedEnd(stream.line()))
        if escape:
            if ch in ESC: s += ESC[ch]
            else: err(stream, InvalidEscapeChar(ch, stream.line(), sub1(stream.col())))
            escape = False
        elif ch == '"': break
        elif ch == '\\': escape = True
        else: s += ch
    return ('str', s)
def parse_include(w, stream, pairs, globals_, included, depth):
    if depth > MAX_DEPTH: err(stream, MaxDepth(stream.line(), stream.col()))
    check(unwrap(stream.next()) == '<')
    if not find_char(stream): err(stream, UnexpectedEnd(stream.line()))
    line, col = stream.line(), stream.col()
    value = parse_value(w, stream, pairs, globals_, included, line, col, depth, '>', True)
    ty, again = 'Obj', True
    if value[0] == 'obj' and value[1] == w.sentinel('Obj')[1]: ty = 'Obj'
    elif value[0] == 'obj' and value[1] == w.sentinel('Str')[1]: ty = 'Str'
    elif value[0] == 'obj' and value[1] == w.sentinel('Arr')[1]: ty = 'Arr'
    elif value[0] == 'obj' and value[1] == w.sentinel('Tup')[1]: ty = 'Tup'
    elif value[0] == 'str': again = False
    else: err(stream, InvalidIncludeToken(get_type(value), line, col))
    if again:
        if not find_char(stream): err(stream, UnexpectedEnd(stream.line()))
        line, col = stream.line(), stream.col()
        value = parse_value(w, stream, pairs, globals_, included, line, col, depth, '>', True)
    if not find_char(stream): err(stream, UnexpectedEnd(stream.line()))
    ch = unwrap(stream.next())
    if ch != '>': err(stream, InvalidClosingBracket('>', ch, stream.line(), sub1(stream.col())))
    if value[0] != 'str': err(stream, ExpectedType(('str',), get_type(value), line, col))
    inc = value[1]
    path = w.fs.join(stream.file(), inc) if stream.file() is not None else inc
    if not w.fs.is_file(path): err(stream, InvalidIncludePath(inc, line, col))
    full = w.fs.canonicalize(path)
    if full is None: err(stream, InvalidIncludePath(inc, line, col))
    storing = None
    if stream.file() is not None:
        storing = unwrap(w.fs.canonicalize(stream.file()))
        included[1].add(storing)
    if full in included[1]: err(stream, CyclicInclude(inc, line, col))
    if full in included[0]: v = included[0][full]
    else:
        if ty == 'Obj': v = parse_obj_file_includes(w, path, included)
        elif ty == 'Str':
            r = w.fs.read(path)
            if r[0] == 'err': raise PErr(None, r[1])
            v = ('str', r[1])
        elif ty == 'Arr': v = parse_arr_file(w, path, included)
        else: v = parse_tup_file(w, path, included)
        included[0][full] = v
    if storing is not None: included[1].discard(storing)
    return v
def trem(a, b):
    r = abs(a) % abs(b)
    return -r if a < 0 else r
def binary_op(w, stream, v1, v2, op, line, col):
    t1, t2 = get_type(v1), get_type(v2)
    if t1[0] == 'int' and t2[0] == 'frac': v1, t1 = ('frac', Fraction(v1[1])), ('frac',)
    elif t1[0] == 'frac' and t2[0] == 'int': v2, t2 = ('frac', Fraction(v2[1])), ('frac',)
    k = t1[0] if t1[0] == t2[0] else None
    def bad(): err(stream, BinaryOperatorError(t1, t2, op, line, col))
    if op == '+':
        if k in ('int', 'frac', 'str'): return (k, v1[1] + v2[1])
        if t1[0] == 'arr':
            r = most_specific(t1, t2)
            if r is None: bad()
            return ('arr', w.gen_id(), r[0][1], v1[3] + v2[3])
        bad()
    if op in '-*':
        if k in ('int', 'frac'): return (k, v1[1] - v2[1] if op == '-' else v1[1] * v2[1])
        bad()
    if op == '/':
        if k not in ('int', 'frac'): bad()
        if v2[1] == 0: err(stream, InvalidNumeric(line, col))
        return ('frac', Fraction(v1[1]) / Fraction(v2[1]))
    if k != 'int': bad()
    if v2[1] == 0: err(stream, InvalidNumeric(line, col))
    return ('int', trem(v1[1], v2[1]))
def find_char(stream):
    while True:
        ch = stream.peek()
        if ch is None: return False
        if ch == '#':
            while True:
                c = stream.next()
                if c is None: return False
                if c == '\n': break
        elif is_uni_ws(ch): stream.next()
        else: return True
def check_value_end(stream, cur_brace):
    ch = stream.peek()
    if ch is None: return
    if is_value_end_char(ch):
        if is_end_delimiter(ch) and ch != cur_brace: err(stream, InvalidClosingBracket(cur_brace, ch, stream.line(), stream.col()))
    else: err(stream, InvalidValueChar(ch, stream.line(), stream.col()))
# ---- src/parse/format.rs
CM = {'\\': '\\\\', '"': '\\"', "'": "\\'", '$': '\\$', '\n': '\\n', '\r': '\\r', '\t': '\\t'}
def usub(n, k):
    if n < k: raise Panic()
    return n - k
def fmt(v, full, n):
    k = v[0]
    if k == 'null': return 'null'
    if k == 'bool': return 'true' if v[1] else 'false'
    if k == 'int': return str(v[1])
    if k == 'frac': return '%d.0' % v[1].numerator if v[1].denominator == 1 else '%d/%d' % (v[1].numerator, v[1].denominator)
    if k == 'str': return '"' + ''.join(CM.get(c, c) for c in v[1]) + '"'
    if k in ('arr', 'tup'):
        o, c = ('[', ']') if k == 'arr' else ('(', ')')
        if len(v[3]) == 0: return o + c if full else ''
        if len(v[3]) == 1:
            f = fmt(v[3][0], True, n)
            return o + f + c if full else f
        s = o + '\n' if full else ''
        for x in v[3]: s += ' ' * n + fmt(x, True, n + INDENT_STEP) + '\n'
        if full:
            m = (0 if n == 0 else usub(n, INDENT_STEP)) if k == 'arr' else usub(n, INDENT_STEP)
            s += ' ' * m + c
        return s
    if not v[2] and v[3] is None: return '{}' if full else ''
    s = '{\n' if full else ''
    if v[3] is not None: s += ' ' * n + '^: ' + fmt(v[3], True, n + INDENT_STEP) + '\n'
    for f, x in v[2]: s += ' ' * n + f + ': ' + fmt(x, True, n + INDENT_STEP) + '\n'
    if full: s += ' ' * usub(n, INDENT_STEP) + '}'
    return s
# ---- everything about a value, in one line
def dump(v):
    k = v[0]
    if k == 'null': return 'null'
    if k == 'bool': return 'true' if v[1] else 'false'
    if k == 'int': return str(v[1])
    if k == 'frac': return '%d/%d' % (v[1].numerator, v[1].denominator)
    if k == 'str': return 's' + '.'.join(str(ord(c)) for c in v[1])
    if k == 'arr': return '[%d:%s|' % (v[1], t_show(v[2])) + ' '.join(dump(x) for x in v[3]) + ']'
    if k == 'tup': return '(%d:%s|' % (v[1], ','.join(t_show(t) for t in v[2])) + ' '.join(dump(x) for x in v[3]) + ')'
    return '{%d:' % v[1] + (dump(v[3]) if v[3] is not None else '-') + '|' + ' '.join(f + '=' + dump(x) for f, x in v[2]) + '}'
