import Verif.Conformance.Integration

/-!
# The examples of README.md on the model, written by tools/readme.py

Tests of the model against the documentation, not proofs of properties.
-/

namespace Over.Conformance

attribute [local instance] sampleUnicode

/-- What is written after reading a text. -/
def written (fs : FS) (text : Str) : Option Str := (fromStr fs text startRt).written

/-- The message of the error of reading a text. -/
def refused (text : Str) : Option Str := (fromStr noFiles text startRt).message

/-- README.md:181 -/
example : written noFiles c!"x: [ (\"Alex\" 10) (\"Alice\" 12) ]\n" = some c!"x: [\n    (\n        \"Alex\"\n        10\n    )\n    (\n        \"Alice\"\n        12\n    )\n]\n" := by decide +kernel

/-- README.md:187 -/
example : refused c!"x: [ (\"Morgan\" 13) (\"Alan\" 15 16) ]\n" = some c!"Expected Tup(Str, Int) at line 1, column 20; found Tup(Str, Int, Int)" := by decide +kernel

/-- README.md:195 -/
example : refused c!"var: 2\n\nnumber: var\n\nobj: {\n    number: var # Invalid!\n}\n" = some c!"Variable \"var\" at line 6, column 13 could not be found" := by decide +kernel

/-- README.md:207 -/
example : written noFiles c!"@var: 2\n\nnumber: @var\n\nobj: {\n    number: @var # Valid!\n}\n" = some c!"number: 2\nobj: {\n    number: 2\n}\n" := by decide +kernel

/-- README.md:221 -/
example : written noFiles c!"@default: {\n    a: 1\n    b: 2\n}\n\nfoo: {\n    ^: @default\n    b: 5 # Override the value of \"b\" inherited from \"@default\".\n    # foo.a == 1\n}\n\nbar: {\n    ^: @default\n    a: 5 # Override the value of \"a\" inherited from \"@default\".\n    # bar.b == 2\n}\n" = some c!"foo: {\n    ^: {\n        a: 1\n        b: 2\n    }\n    b: 5\n}\nbar: {\n    ^: {\n        a: 1\n        b: 2\n    }\n    a: 5\n}\n" := by decide +kernel

/-- README.md:244 -/
example : written noFiles c!"obj: {\n    sub_obj: {\n        secret_value: 0\n    }\n}\n\nvalue: obj.sub_obj.secret_value\n" = some c!"obj: {\n    sub_obj: {\n        secret_value: 0\n    }\n}\nvalue: 0\n" := by decide +kernel

/-- README.md:256 -/
example : written noFiles c!"@colors: {\n    red:   \"#FF0000\"\n    green: \"#00FF00\"\n    blue:  \"#0000FF\"\n}\n\nobj: {\n    name: \"Red monster\"\n    color: @colors.red\n}\n" = some c!"obj: {\n    name: \"Red monster\"\n    color: \"#FF0000\"\n}\n" := by decide +kernel

/-- README.md:271 -/
example : written noFiles c!"tup: (\"test\" 0)\n\nzero: tup.1\ntest: tup.zero\n" = some c!"tup: (\n    \"test\"\n    0\n)\nzero: 0\ntest: \"test\"\n" := by decide +kernel

/-- README.md:286 -/
example : written noFiles c!"grid: 16\nx: 18 y: 20\nwidth: 4\nheight: 6\n\nrectangle: (x-x%grid y-y%grid width*grid height*grid)\n" = some c!"grid: 16\nx: 18\ny: 20\nwidth: 4\nheight: 6\nrectangle: (\n    16\n    16\n    64\n    96\n)\n" := by decide +kernel

/-- The included files of README.md:303-355. -/
def readmeFiles : FS := (files [(c!"includes/obj1.over", c!"a: 1\nb: 2\nc: 3\n"), (c!"includes/obj2.over", c!"a: 2\nb: 3\nc: 1\n"), (c!"includes/str.over", c!"Multi-line string\nwhich should be included verbatim\nin another file. \"Quotes\" and $$$\ndon't need to be escaped.\n"), (c!"includes/arr.over", c!"1 2 3 4 5\n"), (c!"includes/tup.over", c!"1\n\"a\"\n3\n\"b\"\n5\n")])

/-- README.md:321 -/
example : written readmeFiles c!"obj1: <\"includes/obj1.over\">\nobj2: <\"includes/obj2.over\">\n" = some c!"obj1: {\n    a: 1\n    b: 2\n    c: 3\n}\nobj2: {\n    a: 2\n    b: 3\n    c: 1\n}\n" := by decide +kernel

/-- README.md:332 -/
example : written readmeFiles c!"str: <Str \"includes/str.over\">\narr: <Arr \"includes/arr.over\">\ntup: <Tup \"includes/tup.over\">\n" = some c!"str: \"Multi-line string\\nwhich should be included verbatim\\nin another file. \\\"Quotes\\\" and \\$\\$\\$\\ndon\\'t need to be escaped.\\n\"\narr: [\n    1\n    2\n    3\n    4\n    5\n]\ntup: (\n    1\n    \"a\"\n    3\n    \"b\"\n    5\n)\n" := by decide +kernel

/-- README.md, section "Null" -/
example : written noFiles c!"x: null" = some c!"x: null\n" := by decide +kernel

/-- README.md, section "Bool" -/
example : written noFiles c!"x: true" = some c!"x: true\n" := by decide +kernel

/-- README.md, section "Bool" -/
example : written noFiles c!"x: false" = some c!"x: false\n" := by decide +kernel

/-- README.md, section "Int" -/
example : written noFiles c!"x: 1" = some c!"x: 1\n" := by decide +kernel

/-- README.md, section "Int" -/
example : written noFiles c!"x: -2" = some c!"x: -2\n" := by decide +kernel

/-- README.md, section "Int" -/
example : written noFiles c!"x: +4" = some c!"x: 4\n" := by decide +kernel

/-- README.md, section "Frac" -/
example : written noFiles c!"x: -1/3" = some c!"x: -1/3\n" := by decide +kernel

/-- README.md, section "Frac" -/
example : written noFiles c!"x: -5-1/4" = some c!"x: -21/4\n" := by decide +kernel

/-- README.md, section "Frac" -/
example : written noFiles c!"x: 2+1/2" = some c!"x: 5/2\n" := by decide +kernel

/-- README.md, section "Frac" -/
example : written noFiles c!"x: 42+6/1" = some c!"x: 48.0\n" := by decide +kernel

/-- README.md, section "Frac" -/
example : written noFiles c!"x: 2.5" = some c!"x: 5/2\n" := by decide +kernel

/-- README.md, section "Frac" -/
example : written noFiles c!"x: -.0" = some c!"x: 0.0\n" := by decide +kernel

/-- README.md, section "Str" -/
example : written noFiles c!"x: \"smörgåsbord\"" = some c!"x: \"smörgåsbord\"\n" := by decide +kernel

/-- README.md, section "Str" -/
example : written noFiles c!"x: \"A string with \\\"quotes\\\"\"" = some c!"x: \"A string with \\\"quotes\\\"\"\n" := by decide +kernel

/-- README.md, section "Arr" -/
example : written noFiles c!"x: []" = some c!"x: []\n" := by decide +kernel

/-- README.md, section "Arr" -/
example : written noFiles c!"x: [1 2 3]" = some c!"x: [\n    1\n    2\n    3\n]\n" := by decide +kernel

/-- README.md, section "Arr" -/
example : written noFiles c!"x: [(1 2) (3 4)]" = some c!"x: [\n    (\n        1\n        2\n    )\n    (\n        3\n        4\n    )\n]\n" := by decide +kernel

/-- README.md, section "Tup" -/
example : written noFiles c!"x: ()" = some c!"x: ()\n" := by decide +kernel

/-- README.md, section "Tup" -/
example : written noFiles c!"x: (1 \"John\")" = some c!"x: (\n    1\n    \"John\"\n)\n" := by decide +kernel

/-- README.md, section "Tup" -/
example : written noFiles c!"x: ( (\"x\" 1/2) [1 2 3] )" = some c!"x: (\n    (\n        \"x\"\n        1/2\n    )\n    [\n        1\n        2\n        3\n    ]\n)\n" := by decide +kernel

/-- README.md:408 -/
example : written noFiles c!"x: \"You don't need any\nspecial syntax for multi-line strings;\nnewlines are captured automatically.\"\n" = some c!"x: \"You don\\'t need any\\nspecial syntax for multi-line strings;\\nnewlines are captured automatically.\"\n" := by decide +kernel

/-- README.md, section "Obj": reserved keywords -/
example : refused c!"null: 1" = some c!"Invalid field name \"null\" at line 1, column 1" := by decide +kernel

/-- README.md, section "Obj": reserved keywords -/
example : refused c!"true: 1" = some c!"Invalid field name \"true\" at line 1, column 1" := by decide +kernel

/-- README.md, section "Obj": reserved keywords -/
example : refused c!"false: 1" = some c!"Invalid field name \"false\" at line 1, column 1" := by decide +kernel

/-- README.md, section "Obj": reserved keywords -/
example : refused c!"Obj: 1" = some c!"Invalid field name \"Obj\" at line 1, column 1" := by decide +kernel

/-- README.md, section "Obj": reserved keywords -/
example : refused c!"Str: 1" = some c!"Invalid field name \"Str\" at line 1, column 1" := by decide +kernel

/-- README.md, section "Obj": reserved keywords -/
example : refused c!"Arr: 1" = some c!"Invalid field name \"Arr\" at line 1, column 1" := by decide +kernel

/-- README.md, section "Obj": reserved keywords -/
example : refused c!"Tup: 1" = some c!"Invalid field name \"Tup\" at line 1, column 1" := by decide +kernel

end Over.Conformance
