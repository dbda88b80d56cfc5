import Verif.Spec.Sample

/-!
# The files of the project's test suite (/repo/tests/test_files), written by tools/conformance.py
-/

namespace Over.Conformance

/-- tests/test_files/any_type.over -/
def f_any_type : Str := c!"arr1: [ [[]] ]+[ [[2]] ]+[ [[]] ]\narr2: [ ( [[]] [[2]] ) ( [[2]] [[]] ) ]\n"

/-- tests/test_files/basic.over -/
def f_basic : Str := c!" # Comment\n _a1:1 a2: 2\n _:0 #\nb: \"Smörgåsbord\"#\n c: 10# Comment\nd: 20 #Comment\n# Comment \"with a string\"\neee: 2\n# Comment\n f: 3\n\n\n# Multi-line\n# Comment\n\n\ng_: 4\n\nHello:\"Hello\"\ni_robot: \"not #a comment\"\nj:#\n4\nk:# Comment\n\"hi\"\n l: \"\\$\\\\\\\"\"\n m: #Comment\n \"m\" n: true o: false\n\np: Hello\nq:_\nr: null\ns: \"\\'\" t: \"\\n\" u: \" \" v: \"'\" w: \"$\"\n\nx: 1 # Can fetch this as a Frac\n"

/-- tests/test_files/empty.over -/
def f_empty : Str := c!"\n"

/-- tests/test_files/example.over -/
def f_example : Str := c!"receipt: \"Oz-Ware Purchase Invoice\"\ndate:    \"2012-08-06\"\ncustomer: {\n    first_name:  \"Dorothy\"\n    family_name: \"Gale\"\n}\n\nitems: [{\n         part_no:  \"A4786\"\n         descrip:  \"Water Bucket (Filled)\"\n         price:    01.47\n         quantity: 4\n        }\n        {\n         part_no:  \"E1628\"\n         descrip:  \"High Heeled \\\"Ruby\\\" Slippers\"\n         size:     8\n         price:    133.70\n         quantity: 1\n        }\n       ]\n       \nbill_to: {\n    street: \n    # A multi-line string. Can also be written as \"123 Tornado Alley\\nSuite16\"\n\"123 Tornado Alley\nSuite 16\"\n    city:  \"East Centerville\"\n    state: \"KS\"\n}\n\nship_to: bill_to\n\nspecialDelivery:\n\"Follow the Yellow Brick Road to the Emerald City. Pay no attention to the man behind the curtain.\"\n"

/-- tests/test_files/fuzz1.over -/
def f_fuzz1 : Str := c!"\n\n\n\nM:\n9999\n\n\n\n\n\nN:\n\n[{}\x0c]\ng:\n\n\n\n\n\nN\n"

/-- tests/test_files/fuzz2.over -/
def f_fuzz2 : Str := c!"neg:  +2.-004\nneg2:  +0/-004\n"

/-- tests/test_files/fuzz3.over -/
def f_fuzz3 : Str := c!"\n\n\n\n\n\nN:\n{\n^:\n{}\n}\n"

/-- tests/test_files/fuzz4.over -/
def f_fuzz4 : Str := c!"M:\"\\r\\n\n\"\nN:\"\r\r\n\"\nO:\"\r\r\r\r\n\"\nP:\"\r\r\r\n\"\n"

/-- tests/test_files/globals.over -/
def f_globals : Str := c!"@global1: 1\n\nsub: {\n    @global2: 2\n\n    a: @global1\n    b: @global2\n}\n\nc: @global2\n\n# Test that duplicate globals across includes are allowed.\n@a: null\ninclude: <Obj \"includes/globals.over\">\n"

/-- tests/test_files/includes.over -/
def f_includes : Str := c!"@file: \"includes/str.over\"\n\n@include_priv: < Str \"includes/str.over\" >\ninclude: <Str @file>\n\ninclude2: @include_priv\n\ninclude_arr: <Arr \"includes/arr.over\">\n\ninclude_tup: <Tup \"includes/tup.over\" >\n\ninclude_obj: <\n    Obj\n        \"includes/obj1.over\"\n    >\n\ninclude_obj2: <\"includes/obj1.over\">\n"

/-- tests/test_files/multi-line.over -/
def f_multi_line : Str := c!"substitution: \"Let's test substitution.\n\\\"Hello there,\nand welcome to the family,\\\" said\nthe salamandar knight.\"\n\nmulti_line1:\n\"This is a multi-line string,\nwhere newlines are captured without special syntax\nand the only characters that need escaping are\n\\\"quotes\\\", backslashes (\\\"\\\\\\\") and \\$ signs.\"\n\nmulti_line2:\n\"Now let's try a multi-line string\nwith a substitution: $(substitution)\"\n"

/-- tests/test_files/numbers.over -/
def f_numbers : Str := c!"neg: -04\npos: +4.0\nneg_zero: -0.\npos_zero: +.0\n\nfrac_from_dec: 0_1_._30\nneg_ffd: -1.30\npos_ffd: +01.3\n\nadd_dec: 1.5+1.5\nsub_dec: -1.5-1.5\n\nbig_frac:\n91_577_735.000000000008123281907466341927\n\nfrac1: +1/--2\nfrac2: -1/---2\nfrac3: 0/10\nfrac4: -5/4\nfrac5: +4/+4\n\nwhole_frac: 1+1/2\nneg_whole_frac: -5-1/4\ndec_frac: 0,+1/2\ndec_frac2: ,0-1/+2\n\narray: [whole_frac -1/2 1+0,5 -1/-1]\ntup: (-1/2 whole_frac -1/-1 1+0.5)\n\nvar_frac: -frac1/frac5\n\nfmt_check: [ -1, +1. -0, +0. ]\n"

/-- tests/test_files/obj.over -/
def f_obj : Str := c!"empty: {} empty2: {}\n@bools: { t: true f: false }\n@ints: { int: 1 }\n\nbools1: @bools\nbools2: @bools\n\noutie: {\n    ^: @bools\n    z: 0\n    inner: {\n        z: 1\n        innie: {a:1}\n        b: (z 2)\n    }\n    c: 3\n    d: {}\n    e: @bools\n}\n\nobj_arr: {arr: [1 2 3]}\n\n@zero: 0\ndot_glob: @bools.t\ndot: outie.inner.z\ndot_arr: obj_arr.arr.@zero\ndot_tup1: outie.inner.b.@zero\ndot_tup2: outie.inner.b.1\ndot_op: @ints.int+obj_arr.arr.@zero+@ints.int+outie.inner.b.0 # 3\n\ntup: (\"test\" 1)\nzero: 0\ndot_var: tup.zero\n"

/-- tests/test_files/operations.over -/
def f_operations : Str := c!"mod1: 1+4%5\nmod2: 1-5%4\n\narr1: []+[3 4]\narr2: arr1+[]\narr3: [3]+[4]\narr4: []+[]+[[]+[1]]\n\narr_complex: [[[1]+[]+[2]]]+[[[]+[3]]]+[]\n\nstr1: \"\"+\"c\"+\"at\"+\"\"\nstr2: \"\"+\"ca\"+\"t\"+\"\"\nstr3: \"\"+\"c\"+\"a\"+\"t\"+\"\"\nstr4: \"c\"+\"a\"+\"t\"\n\ntup_complex: (\n    [[]]+[[\n        []\n        [1 2 3]\n        []\n    ]]\n)\n"

/-- tests/test_files/errors/any1.over -/
def f_errors_any1 : Str := c!"arr1: [ [[]] ]+[ [[2]] ]+[ [[\"c\"]] ]\n"

/-- tests/test_files/errors/any2.over -/
def f_errors_any2 : Str := c!"arr2: [\n    ( [[   ]] [[ 2 ]] )\n    ( [[ 2 ]] [[   ]] )\n    ( [[\"c\"]] [[\"c\"]] )\n]\n"

/-- tests/test_files/errors/any3.over -/
def f_errors_any3 : Str := c!"arr1: [ ( [[   ]] [[ 2 ]] ) ]\narr2: [ ( [[ 2 ]] [[   ]] ) ]\narr3: [ ( [[\"c\"]] [[\"c\"]] ) ]\n\narr: arr1+arr2+arr3\n"

/-- tests/test_files/errors/arr_types.over -/
def f_errors_arr_types : Str := c!"arr: [ [ []  [(1 1)] [(2 2)] [(3 3)] [] ]\n       [ [(1 1)] [(2 2)] [(3 3)] [] [(5 \"c\")] ]\n     ]\n"

/-- tests/test_files/errors/bad_global.over -/
def f_errors_bad_global : Str := c!"global: @global\n"

/-- tests/test_files/errors/decimal.over -/
def f_errors_decimal : Str := c!"decimal: .\n"

/-- tests/test_files/errors/deep.over -/
def f_errors_deep : Str := c!"deep: { inner: ([([(((((((((((((((((((((((((((((((((((((((((((((((((((((((((((((((((((((((((((((((((((((((((((((((((((((((((((((((((((((((((((((((((((((((((((((((((((((((((((((((((((((((((((((((((((((((((((((((((((((((((((((((((((((((((((((((((((((((((((((((((((((((((((((((((((((((((((((((((((((((((((((((((((((((((((((((((((((((((((((((((((((((((((((((((((((((((((((((((((((((((((((((((((((((((((((((((((((((((((((((((((((((((((((((((((((((((((((((((((((((((((((((((((((((((((((((((((((((((((((((((((((((((((((((((((((((((((((((((((((((((((((((((((((((((((((((((((((((((((((((((((((((((((((((((((((((((((((((((((((((((((((((((((((((((((((((((((((((((((((((((((((((((((((((((((((((((((((((((((((((((((((((((((((((((((((((((((((((((((((((((((((((((((((((((((((((((((((((((((((((((((((((((((((((((((((((((((((((((((((((((((((((((((((((((((((((((((((((((((((((((((((((((((((((((((((((((((((((((((((((((((((((((((((((((((((((((((((((((((((((((((((((((((((((((((((((((((((((((((((((((((((((((((((((((((((((((((((((((((())))))))))))))))))))))))))))))))))))))))))))))))))))))))))))))))))))))))))))))))))))))))))))))))))))))))))))))))))))))))))))))))))))))))))))))))))))))))))))))))))))))))))))))))))))))))))))))))))))))))))))))))))))))))))))))))))))))))))))))))))))))))))))))))))))))))))))))))))))))))))))))))))))))))))))))))))))))))))))))))))))))))))))))))))))))))))))))))))))))))))))))))))))))))))))))))))))))))))))))))))))))))))))))))))))))))))))))))))))))))))))))))))))))))))))))))))))))))))))))))))))))))))))))))))))))))))))))))))))))))))))))))))))))))))))))))))))))))))))))))))))))))))))))))))))))))))))))))))))))))))))))))))))))))))))))))))))))))))))))))))))))))))))))))))))))))))))))))))))))))))))))))))))))))))))))))))))))))))))))))))))))))))))))))))))))))))))))))))))))))))))))))))))))))))))))))))))))))))))))))))))))))))))))))))))))))))))))))))))))))))))))))))))))))))))))))))))))))))))))))))))))))))))))))))))))))))))))))))))))))))))))))))))))))))))))))))))))))))))))))))))))))))))))))))))))))))))))))))))])]) }\n"

/-- tests/test_files/errors/deep_include.over -/
def f_errors_deep_include : Str := c!"include:\n    # Blocks of 64\n    <<<<<<<<\n    <<<<<<<<\n    <<<<<<<<\n    <<<<<<<<\n    <<<<<<<<\n    <<<<<<<<\n    <<<<<<<<\n    <<<<<<<<\n\n    <<<<<<<<\n    <<<<<<<<\n    <<<<<<<<\n    <<<<<<<<\n    <<<<<<<<\n    <<<<<<<<\n    <<<<<<<<\n    <<<<<<<<\n\n    <<<<<<<<\n    <<<<<<<<\n    <<<<<<<<\n    <<<<<<<<\n    <<<<<<<<\n    <<<<<<<<\n    <<<<<<<<\n    <<<<<<<<\n\n    <<<<<<<<\n    <<<<<<<<\n    <<<<<<<<\n    <<<<<<<<\n    <<<<<<<<\n    <<<<<<<<\n    <<<<<<<<\n    <<<<<<<<\n"

/-- tests/test_files/errors/dot1.over -/
def f_errors_dot1 : Str := c!"dot: true.var\n"

/-- tests/test_files/errors/dot2.over -/
def f_errors_dot2 : Str := c!"tire: { o: 2 }\ndot: tire. o\n"

/-- tests/test_files/errors/dot3.over -/
def f_errors_dot3 : Str := c!"dot: none.five\n"

/-- tests/test_files/errors/dot4.over -/
def f_errors_dot4 : Str := c!"obj: {}\nsix: 6\ndot: obj.six\n"

/-- tests/test_files/errors/dot5.over -/
def f_errors_dot5 : Str := c!"obj: {}\ndot: obj."

/-- tests/test_files/errors/dot_global.over -/
def f_errors_dot_global : Str := c!"obj: {test: 5}\n@test: 5\n\ndot: obj.@test\n"

/-- tests/test_files/errors/dot_huge.over -/
def f_errors_dot_huge : Str := c!"tup: (1 2 3)\ndot: tup.348734701382471230498713241343*4134134\n"

/-- tests/test_files/errors/dot_tup.over -/
def f_errors_dot_tup : Str := c!"tup: (1 2 3)\ndot: tup.3\n"

/-- tests/test_files/errors/dot_tup2.over -/
def f_errors_dot_tup2 : Str := c!"tup: (1 2 3)\ndot: tup.-1\n"

/-- tests/test_files/errors/dup_global.over -/
def f_errors_dup_global : Str := c!"@global: true\n@global: true\n"

/-- tests/test_files/errors/dup_parents.over -/
def f_errors_dup_parents : Str := c!"@obj1: {}\n\nobj2: {\n        ^: @obj1\n        ^: @obj1\n}\n"

/-- tests/test_files/errors/empty_field.over -/
def f_errors_empty_field : Str := c!": \"invalid\"\n"

/-- tests/test_files/errors/empty_number.over -/
def f_errors_empty_number : Str := c!"num: -\n"

/-- tests/test_files/errors/escape.over -/
def f_errors_escape : Str := c!"str: \"asdf\\a\"\n"

/-- tests/test_files/errors/field_obj.over -/
def f_errors_field_obj : Str := c!"Obj: \"invalid!\"\n"

/-- tests/test_files/errors/field_true.over -/
def f_errors_field_true : Str := c!"true: 1\n"

/-- tests/test_files/errors/fuzz1.over -/
def f_errors_fuzz1 : Str := c!"@gg:\n\n\n\n\n[\n\t\n\t\n\n\n\"\x00(\x01\x00\x00\x00\x00\x00\x00\x00\n\"\n\n\n\n\n\"\x00(\n\"\n\n)\n"

/-- tests/test_files/errors/fuzz10.over -/
def f_errors_fuzz10 : Str := c!"g:  26++"

/-- tests/test_files/errors/fuzz11.over -/
def f_errors_fuzz11 : Str := c!"neg:  ,1+-1-1+-+20-1+-1-1+-1-1+-+2\nMgg:\n\n\n\n\n\n\n\n(\n(\n\n\n\"'\"+20-1+-1-1+-1-1+-+204))\n"

/-- tests/test_files/errors/fuzz12.over -/
def f_errors_fuzz12 : Str := c!"g: -04\npos: +4.0\nneg_zero: -0.\npos_zero: +.0\n\nfrac_from_dec: 0%0*30\nneg_ffd: -1.3001111111111111111111111111111111111111111111111111111111111111111111111111111111111111111111111111111111111111111111111111111111111111111111111110000000000000000000000000000000000000000004000*000000000\n"

/-- tests/test_files/errors/fuzz13.over -/
def f_errors_fuzz13 : Str := c!"\n\n\n\n\n\nN:\n\n[\x0c[\x0c]]\ng:\n\n\n[\n\n\n\nN+[\x0c\x0c[\x0c]\n\nN+[\x0c]]\ng]]\ng\x01\x00\x00\x00[\n"

/-- tests/test_files/errors/fuzz14.over -/
def f_errors_fuzz14 : Str := c!"\nN: [[2]]\nM: N+[]\nM2: M+M\nO: [[] [[2]]]\nP: O+O\ng: [\n  N+[[] N+[]]\n]\n"

/-- tests/test_files/errors/fuzz2.over -/
def f_errors_fuzz2 : Str := c!"@fg:\n\n\n\n\n\n\n(\n(\n\n))\n@gg:\n\n\n\n\n\n\n(\n4\n\n))\n\x1d\n:v\x1d\n:v\n"

/-- tests/test_files/errors/fuzz3.over -/
def f_errors_fuzz3 : Str := c!"@gg:\n\n\n\n\t([[[[[[[[[[[[[[[[[[[[[[[[[[[[[[[[[[[[[[[[[[[[[[[[[[[[[[[[[[[[[[[[[[[[[[[[[[[[[[[[[[[[[[[[[[[[[[[[[[[[[[[[[[[[[[[[[[[[[[[[[[[[[[\n\n\n''')))\n\n(\x16\n)\x7f\n\n\n\n)(\n(\n(;\n"

/-- tests/test_files/errors/fuzz4.over -/
def f_errors_fuzz4 : Str := c!"M:\n0000\n\n\n\n\n\nN:\n{}\n\n\ng:\n\n\n\n\n\nN\n\n\n\nM:\n0000\n\n\n\n\n\nN:\n{}\n\x1a\x1a\x1a\x1a\x1a\x1a\x1a\x1a\x1a\x1a\x1a\x1a\x1a\x1a\x1a\x1a\x1a\x1a\x1a\x1a\x1a\x1a\x1a\x1a\x1a\x1a\x1a\x1a\x1a\x1a\x1a\x1a\x1a\x1a\x1a\x1a\x1a\x1a\x1a\x1a\x1a\x1a\x1a\x1a\x1a\x1a\x1a\x1a\x1a\x1a\x1a\x1a\x1a\x1a\x1a\x1a\x1a\x1a\x1a\x1a\x1a\x1a\x1a\x1a\x1a\x1a\x1a\x1a\x1a\x1a\x1a\x1a\x1a\x1a\x1a\x1a\x1a\x1a\x1a\x1a\x1a\x1a\x1a\x1a\x1a\x1a\x1a\x1a\x1a\x1a\x1a\x1a\x1a\x1a\x1a\x1a\x1a\x1a\x1a\x1a\x1a\x1a\x1a\x1a\x1a\x1a\x1a\x1a\x1a\x1a\x1a\x1a\x1a\x1a\x1a\x1a\n\ng:\n\n\n\n\n\nN\n"

/-- tests/test_files/errors/fuzz5.over -/
def f_errors_fuzz5 : Str := c!"@gg:\n\n\n\n\t\n\n[\n\n\n\n\n\n(\n(\n\n\"'\"))\n\n\n\n(\n(\n\n\"'\"))\n(\n\n\n\"'\"(\n\n\n\"'\")\n"

/-- tests/test_files/errors/fuzz6.over -/
def f_errors_fuzz6 : Str := c!"@gg:\n\n\n\n\n\n\n[\n\n\n\n\n\n[\n\n\n\n\n\n0\n0\n.00000002]\n\n\n[]\n\n\n\n\n00\n00\n02]\n\n'\n\n:\n\n\n@g\n"

/-- tests/test_files/errors/fuzz7.over -/
def f_errors_fuzz7 : Str := c!"\n\n\n\nM:\n999111111111111111111111111111111111111111111111110000000000000000000000000000000000000000000061397105843297379229.89111111111111111111111111111111111111111111111111111111111111111111111111111111119\ngo3\n"

/-- tests/test_files/errors/fuzz8.over -/
def f_errors_fuzz8 : Str := c!"@kg:\n\n\n\n\n-99999892611111111111111111111111111111199999\n\n\n@gg:\n\n\n\n\n\n\n(\n(@kg\n1111111111111111111111111111111111111111111111111111111111111111111111111111111111111111111\n\n\n\n[\n{\n^:\n{}\n}\n\n{}\n]\n\n00\n0\n\n\"\"\"\"\"\"\x0f\n,)111111111111111111111111111111\n\n\n11111111111111111111111111111111111111111111111111111111111111111111111111111111111111111111111111111111111111111\n11111111\n\n111\n\n\n\n\n999\n99999999918)9CC*\n(\n(\n@gg\n\n))\n\x1d\n:v\x1d\n:\n\n\n[g\n"

/-- tests/test_files/errors/fuzz9.over -/
def f_errors_fuzz9 : Str := c!" # Comment\n a1: 1 a2: 2\n aa: 0 #\nb: \"Smörgåsbord\"#\n c: 10# Comment\nd: 20 #Comment\n# Comment \"with a string\"\neee: 2\n# Comment\n f: 3\n\n\n# Multi-line\n# Comment\n\n\ng_: 4\n^: null\ns: '\\#' t*: '\\n' u: ' '\n"

/-- tests/test_files/errors/include1.over -/
def f_errors_include1 : Str := c!"include: <Obj\"test\">\n"

/-- tests/test_files/errors/include2.over -/
def f_errors_include2 : Str := c!"test: <Obj 2>\n"

/-- tests/test_files/errors/include3.over -/
def f_errors_include3 : Str := c!"test: <Obj \"/\">\n"

/-- tests/test_files/errors/include4.over -/
def f_errors_include4 : Str := c!"test: <Blah \"yo\">\n"

/-- tests/test_files/errors/include5.over -/
def f_errors_include5 : Str := c!"include: <\"Str\" Str>\n"

/-- tests/test_files/errors/include6.over -/
def f_errors_include6 : Str := c!"Include: <Str Str>\n"

/-- tests/test_files/errors/include7.over -/
def f_errors_include7 : Str := c!"include: <false>\n"

/-- tests/test_files/errors/include_self.over -/
def f_errors_include_self : Str := c!"obj: <Obj \"include_self.over\">\n"

/-- tests/test_files/errors/op_arr.over -/
def f_errors_op_arr : Str := c!"arr: []+[3]+[\"c\"]\n"

/-- tests/test_files/errors/op_arr_tup.over -/
def f_errors_op_arr_tup : Str := c!"test: [[]+()]+([]+())\n"

/-- tests/test_files/errors/op_end.over -/
def f_errors_op_end : Str := c!"\n\nfail: 1+\n\ntest: 2\n"

/-- tests/test_files/errors/op_error.over -/
def f_errors_op_error : Str := c!"field: \"hello\"+2\n"

/-- tests/test_files/errors/op_multiple.over -/
def f_errors_op_multiple : Str := c!"tup: ()+4/5+\"hi\"\n"

/-- tests/test_files/errors/op_unary1.over -/
def f_errors_op_unary1 : Str := c!"unary: +4\nunary2: +null\n"

/-- tests/test_files/errors/op_unary2.over -/
def f_errors_op_unary2 : Str := c!"unary: -4\nunary2: -\"hi\"\n"

/-- tests/test_files/errors/underscore.over -/
def f_errors_underscore : Str := c!"number: _444_444\n"

/-- tests/test_files/errors/underscore_multiple.over -/
def f_errors_underscore_multiple : Str := c!"underscores: 1___2\n"

/-- tests/test_files/errors/unexpected_end1.over -/
def f_errors_unexpected_end1 : Str := c!"invalid: \"boogie\n"

/-- tests/test_files/errors/unexpected_end2.over -/
def f_errors_unexpected_end2 : Str := c!"valid: true\ninvalid:\n"

/-- tests/test_files/errors/value_amp.over -/
def f_errors_value_amp : Str := c!"field: @\nfield2: 1\n"

/-- tests/test_files/includes/arr.over -/
def f_includes_arr : Str := c!"1\n2\n3\n4 5\n"

/-- tests/test_files/includes/globals.over -/
def f_includes_globals : Str := c!"@a: null\n"

/-- tests/test_files/includes/obj1.over -/
def f_includes_obj1 : Str := c!"\nobj2: < Obj \"obj2.over\" >\nobj3: <Obj \"obj3.over\">\n\ndup: <\"obj3.over\">\n"

/-- tests/test_files/includes/obj2.over -/
def f_includes_obj2 : Str := c!"test: 1\n"

/-- tests/test_files/includes/obj3.over -/
def f_includes_obj3 : Str := c!"test: 2\n"

/-- tests/test_files/includes/str.over -/
def f_includes_str : Str := c!"Multi-line string\nwhich should be included verbatim\nin another file. \"Quotes\" and $$$\ndon't need to be escaped.\n"

/-- tests/test_files/includes/tup.over -/
def f_includes_tup : Str := c!"\"hello\" 1 \"c\" 3/3\n"

/-- Where the tests run: paths are relative to the root of the project; there are no links. -/
def testFiles : FS where
  canon p := if p = c!"/" ∨ (p ∈ [c!"tests/test_files/any_type.over", c!"tests/test_files/basic.over", c!"tests/test_files/empty.over", c!"tests/test_files/example.over", c!"tests/test_files/fuzz1.over", c!"tests/test_files/fuzz2.over", c!"tests/test_files/fuzz3.over", c!"tests/test_files/fuzz4.over", c!"tests/test_files/globals.over", c!"tests/test_files/includes.over", c!"tests/test_files/multi-line.over", c!"tests/test_files/numbers.over", c!"tests/test_files/obj.over", c!"tests/test_files/operations.over", c!"tests/test_files/errors/any1.over", c!"tests/test_files/errors/any2.over", c!"tests/test_files/errors/any3.over", c!"tests/test_files/errors/arr_types.over", c!"tests/test_files/errors/bad_global.over", c!"tests/test_files/errors/decimal.over", c!"tests/test_files/errors/deep.over", c!"tests/test_files/errors/deep_include.over", c!"tests/test_files/errors/dot1.over", c!"tests/test_files/errors/dot2.over", c!"tests/test_files/errors/dot3.over", c!"tests/test_files/errors/dot4.over", c!"tests/test_files/errors/dot5.over", c!"tests/test_files/errors/dot_global.over", c!"tests/test_files/errors/dot_huge.over", c!"tests/test_files/errors/dot_tup.over", c!"tests/test_files/errors/dot_tup2.over", c!"tests/test_files/errors/dup_global.over", c!"tests/test_files/errors/dup_parents.over", c!"tests/test_files/errors/empty_field.over", c!"tests/test_files/errors/empty_number.over", c!"tests/test_files/errors/escape.over", c!"tests/test_files/errors/field_obj.over", c!"tests/test_files/errors/field_true.over", c!"tests/test_files/errors/fuzz1.over", c!"tests/test_files/errors/fuzz10.over", c!"tests/test_files/errors/fuzz11.over", c!"tests/test_files/errors/fuzz12.over", c!"tests/test_files/errors/fuzz13.over", c!"tests/test_files/errors/fuzz14.over", c!"tests/test_files/errors/fuzz2.over", c!"tests/test_files/errors/fuzz3.over", c!"tests/test_files/errors/fuzz4.over", c!"tests/test_files/errors/fuzz5.over", c!"tests/test_files/errors/fuzz6.over", c!"tests/test_files/errors/fuzz7.over", c!"tests/test_files/errors/fuzz8.over", c!"tests/test_files/errors/fuzz9.over", c!"tests/test_files/errors/include1.over", c!"tests/test_files/errors/include2.over", c!"tests/test_files/errors/include3.over", c!"tests/test_files/errors/include4.over", c!"tests/test_files/errors/include5.over", c!"tests/test_files/errors/include6.over", c!"tests/test_files/errors/include7.over", c!"tests/test_files/errors/include_self.over", c!"tests/test_files/errors/op_arr.over", c!"tests/test_files/errors/op_arr_tup.over", c!"tests/test_files/errors/op_end.over", c!"tests/test_files/errors/op_error.over", c!"tests/test_files/errors/op_multiple.over", c!"tests/test_files/errors/op_unary1.over", c!"tests/test_files/errors/op_unary2.over", c!"tests/test_files/errors/underscore.over", c!"tests/test_files/errors/underscore_multiple.over", c!"tests/test_files/errors/unexpected_end1.over", c!"tests/test_files/errors/unexpected_end2.over", c!"tests/test_files/errors/value_amp.over", c!"tests/test_files/includes/arr.over", c!"tests/test_files/includes/globals.over", c!"tests/test_files/includes/obj1.over", c!"tests/test_files/includes/obj2.over", c!"tests/test_files/includes/obj3.over", c!"tests/test_files/includes/str.over", c!"tests/test_files/includes/tup.over"]) then some p else none
  nodes := [
    (c!"tests/test_files/any_type.over", .ok f_any_type),
    (c!"tests/test_files/basic.over", .ok f_basic),
    (c!"tests/test_files/empty.over", .ok f_empty),
    (c!"tests/test_files/example.over", .ok f_example),
    (c!"tests/test_files/fuzz1.over", .ok f_fuzz1),
    (c!"tests/test_files/fuzz2.over", .ok f_fuzz2),
    (c!"tests/test_files/fuzz3.over", .ok f_fuzz3),
    (c!"tests/test_files/fuzz4.over", .ok f_fuzz4),
    (c!"tests/test_files/globals.over", .ok f_globals),
    (c!"tests/test_files/includes.over", .ok f_includes),
    (c!"tests/test_files/multi-line.over", .ok f_multi_line),
    (c!"tests/test_files/numbers.over", .ok f_numbers),
    (c!"tests/test_files/obj.over", .ok f_obj),
    (c!"tests/test_files/operations.over", .ok f_operations),
    (c!"tests/test_files/errors/any1.over", .ok f_errors_any1),
    (c!"tests/test_files/errors/any2.over", .ok f_errors_any2),
    (c!"tests/test_files/errors/any3.over", .ok f_errors_any3),
    (c!"tests/test_files/errors/arr_types.over", .ok f_errors_arr_types),
    (c!"tests/test_files/errors/bad_global.over", .ok f_errors_bad_global),
    (c!"tests/test_files/errors/decimal.over", .ok f_errors_decimal),
    (c!"tests/test_files/errors/deep.over", .ok f_errors_deep),
    (c!"tests/test_files/errors/deep_include.over", .ok f_errors_deep_include),
    (c!"tests/test_files/errors/dot1.over", .ok f_errors_dot1),
    (c!"tests/test_files/errors/dot2.over", .ok f_errors_dot2),
    (c!"tests/test_files/errors/dot3.over", .ok f_errors_dot3),
    (c!"tests/test_files/errors/dot4.over", .ok f_errors_dot4),
    (c!"tests/test_files/errors/dot5.over", .ok f_errors_dot5),
    (c!"tests/test_files/errors/dot_global.over", .ok f_errors_dot_global),
    (c!"tests/test_files/errors/dot_huge.over", .ok f_errors_dot_huge),
    (c!"tests/test_files/errors/dot_tup.over", .ok f_errors_dot_tup),
    (c!"tests/test_files/errors/dot_tup2.over", .ok f_errors_dot_tup2),
    (c!"tests/test_files/errors/dup_global.over", .ok f_errors_dup_global),
    (c!"tests/test_files/errors/dup_parents.over", .ok f_errors_dup_parents),
    (c!"tests/test_files/errors/empty_field.over", .ok f_errors_empty_field),
    (c!"tests/test_files/errors/empty_number.over", .ok f_errors_empty_number),
    (c!"tests/test_files/errors/escape.over", .ok f_errors_escape),
    (c!"tests/test_files/errors/field_obj.over", .ok f_errors_field_obj),
    (c!"tests/test_files/errors/field_true.over", .ok f_errors_field_true),
    (c!"tests/test_files/errors/fuzz1.over", .ok f_errors_fuzz1),
    (c!"tests/test_files/errors/fuzz10.over", .ok f_errors_fuzz10),
    (c!"tests/test_files/errors/fuzz11.over", .ok f_errors_fuzz11),
    (c!"tests/test_files/errors/fuzz12.over", .ok f_errors_fuzz12),
    (c!"tests/test_files/errors/fuzz13.over", .ok f_errors_fuzz13),
    (c!"tests/test_files/errors/fuzz14.over", .ok f_errors_fuzz14),
    (c!"tests/test_files/errors/fuzz2.over", .ok f_errors_fuzz2),
    (c!"tests/test_files/errors/fuzz3.over", .ok f_errors_fuzz3),
    (c!"tests/test_files/errors/fuzz4.over", .ok f_errors_fuzz4),
    (c!"tests/test_files/errors/fuzz5.over", .ok f_errors_fuzz5),
    (c!"tests/test_files/errors/fuzz6.over", .ok f_errors_fuzz6),
    (c!"tests/test_files/errors/fuzz7.over", .ok f_errors_fuzz7),
    (c!"tests/test_files/errors/fuzz8.over", .ok f_errors_fuzz8),
    (c!"tests/test_files/errors/fuzz9.over", .ok f_errors_fuzz9),
    (c!"tests/test_files/errors/include1.over", .ok f_errors_include1),
    (c!"tests/test_files/errors/include2.over", .ok f_errors_include2),
    (c!"tests/test_files/errors/include3.over", .ok f_errors_include3),
    (c!"tests/test_files/errors/include4.over", .ok f_errors_include4),
    (c!"tests/test_files/errors/include5.over", .ok f_errors_include5),
    (c!"tests/test_files/errors/include6.over", .ok f_errors_include6),
    (c!"tests/test_files/errors/include7.over", .ok f_errors_include7),
    (c!"tests/test_files/errors/include_self.over", .ok f_errors_include_self),
    (c!"tests/test_files/errors/op_arr.over", .ok f_errors_op_arr),
    (c!"tests/test_files/errors/op_arr_tup.over", .ok f_errors_op_arr_tup),
    (c!"tests/test_files/errors/op_end.over", .ok f_errors_op_end),
    (c!"tests/test_files/errors/op_error.over", .ok f_errors_op_error),
    (c!"tests/test_files/errors/op_multiple.over", .ok f_errors_op_multiple),
    (c!"tests/test_files/errors/op_unary1.over", .ok f_errors_op_unary1),
    (c!"tests/test_files/errors/op_unary2.over", .ok f_errors_op_unary2),
    (c!"tests/test_files/errors/underscore.over", .ok f_errors_underscore),
    (c!"tests/test_files/errors/underscore_multiple.over", .ok f_errors_underscore_multiple),
    (c!"tests/test_files/errors/unexpected_end1.over", .ok f_errors_unexpected_end1),
    (c!"tests/test_files/errors/unexpected_end2.over", .ok f_errors_unexpected_end2),
    (c!"tests/test_files/errors/value_amp.over", .ok f_errors_value_amp),
    (c!"tests/test_files/includes/arr.over", .ok f_includes_arr),
    (c!"tests/test_files/includes/globals.over", .ok f_includes_globals),
    (c!"tests/test_files/includes/obj1.over", .ok f_includes_obj1),
    (c!"tests/test_files/includes/obj2.over", .ok f_includes_obj2),
    (c!"tests/test_files/includes/obj3.over", .ok f_includes_obj3),
    (c!"tests/test_files/includes/str.over", .ok f_includes_str),
    (c!"tests/test_files/includes/tup.over", .ok f_includes_tup)]
  utf8 _ := true
  openErr _ := c!"No such file or directory (os error 2)"

end Over.Conformance
