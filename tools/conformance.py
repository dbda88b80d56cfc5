#!/usr/bin/env python3
"""Writes lean/Verif/Conformance/Files.lean and Errors.lean from the project's own test suite (/repo/tests): the contents of the
test files, and for every call of `error_helper!` in tests/errors.rs a statement that the model gives the expected message."""
import os, re
R = '/repo/tests/'
OUT = '/verif/lean/Verif/Conformance/'
def lit(s):
    o = ''
    for ch in s:
        if ch == '\n': o += '\\n'
        elif ch == '\r': o += '\\r'
        elif ch == '\t': o += '\\t'
        elif ch == '"': o += '\\"'
        elif ch == '\\': o += '\\\\'
        elif ord(ch) < 32 or ord(ch) == 127: o += '\\x%02x' % ord(ch)
        else: o += ch
    return 'c!"' + o + '"'
files = []
for d in ['test_files', 'test_files/errors', 'test_files/includes']:
    for f in sorted(os.listdir(R + d)):
        if f.endswith('.over'): files.append(d + '/' + f)
def name(f): return 'f_' + re.sub(r'[^A-Za-z0-9]', '_', f[len('test_files/'):-len('.over')])
out = '''import Verif.Spec.Sample

/-!
# The files of the project's test suite (/repo/tests/test_files), written by tools/conformance.py
-/

namespace Over.Conformance

'''
for f in files:
    out += f'/-- tests/{f} -/\ndef {name(f)} : Str := {lit(open(R + f, newline="").read())}\n\n'
out += '''/-- Where the tests run: paths are relative to the root of the project; there are no links. -/
def testFiles : FS where
  canon p := if p = c!"/" ∨ (p ∈ [''' + ', '.join(lit('tests/' + f) for f in files) + ''']) then some p else none
  nodes := [
''' + ',\n'.join(f'    ({lit("tests/" + f)}, .ok {name(f)})' for f in files) + ''']
  utf8 _ := true
  openErr _ := c!"No such file or directory (os error 2)"

end Over.Conformance
'''
os.makedirs(OUT, exist_ok=True)
open(OUT + 'Files.lean', 'w').write(out)
src = open(R + 'errors.rs').read()
src = src[src.index('error_helper!(\n        "any1'):]
def rust(s):
    s = re.sub(r'\\\n\s*', '', s)
    return re.sub(r'\\(.)', lambda m: {'n': '\n', 'r': '\r', 't': '\t'}.get(m.group(1), m.group(1)), s)
calls = re.findall(r'error_helper!\(\s*((?:"(?:[^"\\]|\\.|\\\n)*"\s*,?\s*)+)\)', src, re.S)
n = src.count('error_helper!(')
assert n == len(calls), (n, len(calls))
o = '''import Verif.Conformance.Files

/-!
# tests/errors.rs on the model, written by tools/conformance.py

Every call of `error_helper!(file, message)` is a statement that `Obj::from_file` of the model gives this message for this file.  These
are tests of the model against the project's own expectations, not proofs of properties.
-/

namespace Over.Conformance

attribute [local instance] sampleUnicode

'''
res = []
for c in calls:
    a = [rust(x) for x in re.findall(r'"((?:[^"\\]|\\.|\\\n)*)"', c, re.S)]
    res.append(a)
    full = 'tests/test_files/errors/' + a[0]
    o += f'example : (fromFile testFiles {lit(full)} startRt).message = some ({lit(full + ": " + a[1])}) := by decide +kernel\n\n'
o += 'end Over.Conformance\n'
open(OUT + 'Errors.lean', 'w').write(o)
print(len(files), 'files', len(calls), 'error tests')
