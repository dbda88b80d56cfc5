#!/usr/bin/env python3
"""Writes lean/Verif/Conformance/Readme.lean: the examples of /repo/README.md on the model."""
import re
R = open('/repo/README.md').read().split('\n')
def code(first, last): return '\n'.join(R[first - 1:last]) + '\n'
def lit(s):
    out = ''
    for ch in s:
        out += {'"': '\\"', '\\': '\\\\', '\n': '\\n', '\t': '\\t'}.get(ch, ch)
    return 'c!"' + out + '"'
blocks, start = [], None
for i, l in enumerate(R, 1):
    if l.startswith('```'):
        if start is None: start = i + 1
        else: blocks.append((start, i - 1)); start = None
B = {a: code(a, b) for a, b in blocks}
L = ['import Verif.Conformance.Integration', '', '/-!', '# The examples of README.md on the model, written by tools/readme.py', '',
     'Tests of the model against the documentation, not proofs of properties.', '-/', '', 'namespace Over.Conformance', '',
     'attribute [local instance] sampleUnicode', '',
     '/-- What is written after reading a text. -/',
     'def written (fs : FS) (text : Str) : Option Str := (fromStr fs text startRt).written', '',
     '/-- The message of the error of reading a text. -/',
     'def refused (text : Str) : Option Str := (fromStr noFiles text startRt).message', '']
def find(sub):
    c = [a for a in B if sub in B[a]]
    assert len(c) == 1, (sub, c)
    return c[0]
def ok(sub, exp, fs='noFiles', pre=''):
    a = find(sub)
    L.append(f'/-- README.md:{a} -/\nexample : written {fs} {lit(pre + B[a])} = some {lit(exp)} := by decide +kernel\n')
def bad(sub, exp, pre=''):
    a = find(sub)
    L.append(f'/-- README.md:{a} -/\nexample : refused {lit(pre + B[a])} = some {lit(exp)} := by decide +kernel\n')
def expr(text, exp, where):
    L.append(f'/-- README.md, section "{where}" -/\nexample : written noFiles {lit("x: " + text)} = some {lit("x: " + exp + chr(10))} := by decide +kernel\n')
ok('("Alice" 12)', 'x: [\n    (\n        "Alex"\n        10\n    )\n    (\n        "Alice"\n        12\n    )\n]\n', pre='x: ')
bad('("Morgan" 13)', 'Expected Tup(Str, Int) at line 1, column 20; found Tup(Str, Int, Int)', pre='x: ')
bad('# Invalid!', 'Variable "var" at line 6, column 13 could not be found')
ok('# Valid!', 'number: 2\nobj: {\n    number: 2\n}\n')
ok('# Override the value of "b"', 'foo: {\n    ^: {\n        a: 1\n        b: 2\n    }\n    b: 5\n}\nbar: {\n    ^: {\n        a: 1\n        b: 2\n    }\n    a: 5\n}\n')
ok('secret_value', 'obj: {\n    sub_obj: {\n        secret_value: 0\n    }\n}\nvalue: 0\n')
ok('Red monster', 'obj: {\n    name: "Red monster"\n    color: "#FF0000"\n}\n')
ok('test: tup.zero', 'tup: (\n    "test"\n    0\n)\nzero: 0\ntest: "test"\n')
ok('rectangle:', 'grid: 16\nx: 18\ny: 20\nwidth: 4\nheight: 6\nrectangle: (\n    16\n    16\n    64\n    96\n)\n')
# includes
o1, o2 = find('a: 1\nb: 2\nc: 3'), find('a: 2\nb: 3\nc: 1')
st, ar, tp = find('Multi-line string\nwhich'), find('1 2 3 4 5'), find('1\n"a"\n3')
fs = '(files [' + ', '.join(f'({lit(n)}, {lit(B[a])})' for n, a in
      [('includes/obj1.over', o1), ('includes/obj2.over', o2), ('includes/str.over', st), ('includes/arr.over', ar), ('includes/tup.over', tp)]) + '])'
L.append(f'/-- The included files of README.md:{o1}-{tp}. -/\ndef readmeFiles : FS := {fs}\n')
ok('obj1: <', 'obj1: {\n    a: 1\n    b: 2\n    c: 3\n}\nobj2: {\n    a: 2\n    b: 3\n    c: 1\n}\n', 'readmeFiles')
esc = B[st].replace('\\', '\\\\').replace('"', '\\"').replace("'", "\\'").replace('$', '\\$').replace('\n', '\\n')
ok('str: <Str', f'str: "{esc}"\narr: [\n    1\n    2\n    3\n    4\n    5\n]\ntup: (\n    1\n    "a"\n    3\n    "b"\n    5\n)\n', 'readmeFiles')
for t, e, w in [('null', 'null', 'Null'), ('true', 'true', 'Bool'), ('false', 'false', 'Bool'), ('1', '1', 'Int'), ('-2', '-2', 'Int'), ('+4', '4', 'Int'),
                ('-1/3', '-1/3', 'Frac'), ('-5-1/4', '-21/4', 'Frac'), ('2+1/2', '5/2', 'Frac'), ('42+6/1', '48.0', 'Frac'), ('2.5', '5/2', 'Frac'), ('-.0', '0.0', 'Frac'),
                ('"smörgåsbord"', '"smörgåsbord"', 'Str'), ('"A string with \\"quotes\\""', '"A string with \\"quotes\\""', 'Str'),
                ('[]', '[]', 'Arr'), ('[1 2 3]', '[\n    1\n    2\n    3\n]', 'Arr'), ('[(1 2) (3 4)]', '[\n    (\n        1\n        2\n    )\n    (\n        3\n        4\n    )\n]', 'Arr'),
                ('()', '()', 'Tup'), ('(1 "John")', '(\n    1\n    "John"\n)', 'Tup'), ('( ("x" 1/2) [1 2 3] )', '(\n    (\n        "x"\n        1/2\n    )\n    [\n        1\n        2\n        3\n    ]\n)', 'Tup')]:
    expr(t, e, w)
a = find("You don't need any")
ok("You don't need any", 'x: "You don\\\'t need any\\nspecial syntax for multi-line strings;\\nnewlines are captured automatically."\n', pre='x: ')
for k in ['null', 'true', 'false', 'Obj', 'Str', 'Arr', 'Tup']:
    L.append(f'/-- README.md, section "Obj": reserved keywords -/\nexample : refused {lit(k + ": 1")} = some {lit(chr(73)+"nvalid field name " + chr(34) + k + chr(34) + " at line 1, column 1")} := by decide +kernel\n')
L.append('end Over.Conformance\n')
open('/verif/lean/Verif/Conformance/Readme.lean', 'w').write('\n'.join(L))
