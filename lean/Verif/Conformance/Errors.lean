import Verif.Conformance.Files

/-!
# tests/errors.rs on the model, written by tools/conformance.py

Every call of `error_helper!(file, message)` is a statement that `Obj::from_file` of the model gives this message for this file.  These
are tests of the model against the project's own expectations, not proofs of properties.
-/

namespace Over.Conformance

attribute [local instance] sampleUnicode

example : (fromFile testFiles c!"tests/test_files/errors/any1.over" startRt).message = some (c!"tests/test_files/errors/any1.over: Could not apply operator '+' on types Arr(Arr(Arr(Int))) and Arr(Arr(Arr(Str))) at line 1, column 26") := by decide +kernel

example : (fromFile testFiles c!"tests/test_files/errors/any2.over" startRt).message = some (c!"tests/test_files/errors/any2.over: Expected Tup(Arr(Arr(Int)), Arr(Arr(Int))) at line 4, column 5; found Tup(Arr(Arr(Str)), Arr(Arr(Str)))") := by decide +kernel

example : (fromFile testFiles c!"tests/test_files/errors/any3.over" startRt).message = some (c!"tests/test_files/errors/any3.over: Could not apply operator '+' on types Arr(Tup(Arr(Arr(Int)), Arr(Arr(Int)))) and Arr(Tup(Arr(Arr(Str)), Arr(Arr(Str)))) at line 5, column 16") := by decide +kernel

example : (fromFile testFiles c!"tests/test_files/errors/arr_types.over" startRt).message = some (c!"tests/test_files/errors/arr_types.over: Expected Arr(Tup(Int, Int)) at line 2, column 37; found Arr(Tup(Int, Str))") := by decide +kernel

example : (fromFile testFiles c!"tests/test_files/errors/bad_global.over" startRt).message = some (c!"tests/test_files/errors/bad_global.over: Global \"@global\" at line 1, column 9 could not be found") := by decide +kernel

example : (fromFile testFiles c!"tests/test_files/errors/decimal.over" startRt).message = some (c!"tests/test_files/errors/decimal.over: Invalid numeric value at line 1, column 10") := by decide +kernel

example : (fromFile testFiles c!"tests/test_files/errors/deep.over" startRt).message = some (c!"tests/test_files/errors/deep.over: Exceeded maximum recursion depth (64) at line 1, column 78") := by decide +kernel

example : (fromFile testFiles c!"tests/test_files/errors/deep_include.over" startRt).message = some (c!"tests/test_files/errors/deep_include.over: Exceeded maximum recursion depth (64) at line 10, column 12") := by decide +kernel

example : (fromFile testFiles c!"tests/test_files/errors/dot1.over" startRt).message = some (c!"tests/test_files/errors/dot1.over: Invalid use of dot notation on value of type Bool at line 1, column 6; value must be an Obj, Arr, or Tup.") := by decide +kernel

example : (fromFile testFiles c!"tests/test_files/errors/dot2.over" startRt).message = some (c!"tests/test_files/errors/dot2.over: Invalid character ' ' for value at line 2, column 11") := by decide +kernel

example : (fromFile testFiles c!"tests/test_files/errors/dot3.over" startRt).message = some (c!"tests/test_files/errors/dot3.over: Variable \"none\" at line 1, column 6 could not be found") := by decide +kernel

example : (fromFile testFiles c!"tests/test_files/errors/dot4.over" startRt).message = some (c!"tests/test_files/errors/dot4.over: Variable \"six\" at line 3, column 10 could not be found") := by decide +kernel

example : (fromFile testFiles c!"tests/test_files/errors/dot5.over" startRt).message = some (c!"tests/test_files/errors/dot5.over: Unexpected end at line 2") := by decide +kernel

example : (fromFile testFiles c!"tests/test_files/errors/dot_global.over" startRt).message = some (c!"tests/test_files/errors/dot_global.over: Invalid character '@' for value at line 4, column 10") := by decide +kernel

example : (fromFile testFiles c!"tests/test_files/errors/dot_huge.over" startRt).message = some (c!"tests/test_files/errors/dot_huge.over: Invalid index 348734701382471230498713241343 at line 2, column 10") := by decide +kernel

example : (fromFile testFiles c!"tests/test_files/errors/dot_tup.over" startRt).message = some (c!"tests/test_files/errors/dot_tup.over: Tup index 3 out of bounds at line 2, col 10") := by decide +kernel

example : (fromFile testFiles c!"tests/test_files/errors/dot_tup2.over" startRt).message = some (c!"tests/test_files/errors/dot_tup2.over: Invalid character '-' for value at line 2, column 10") := by decide +kernel

example : (fromFile testFiles c!"tests/test_files/errors/dup_global.over" startRt).message = some (c!"tests/test_files/errors/dup_global.over: Duplicate global \"@global\" at line 2, column 1") := by decide +kernel

example : (fromFile testFiles c!"tests/test_files/errors/dup_parents.over" startRt).message = some (c!"tests/test_files/errors/dup_parents.over: Duplicate field \"^\" at line 5, column 9") := by decide +kernel

example : (fromFile testFiles c!"tests/test_files/errors/empty_field.over" startRt).message = some (c!"tests/test_files/errors/empty_field.over: Invalid character ':' for field at line 1, column 1") := by decide +kernel

example : (fromFile testFiles c!"tests/test_files/errors/empty_number.over" startRt).message = some (c!"tests/test_files/errors/empty_number.over: Invalid character '\\n' for value at line 1, column 7") := by decide +kernel

example : (fromFile testFiles c!"tests/test_files/errors/escape.over" startRt).message = some (c!"tests/test_files/errors/escape.over: Invalid escape character 'a' following backslash at line 1, column 12. If you meant to write a backslash, use '\\\\'") := by decide +kernel

example : (fromFile testFiles c!"tests/test_files/errors/field_true.over" startRt).message = some (c!"tests/test_files/errors/field_true.over: Invalid field name \"true\" at line 1, column 1") := by decide +kernel

example : (fromFile testFiles c!"tests/test_files/errors/field_obj.over" startRt).message = some (c!"tests/test_files/errors/field_obj.over: Invalid field name \"Obj\" at line 1, column 1") := by decide +kernel

example : (fromFile testFiles c!"tests/test_files/errors/fuzz1.over" startRt).message = some (c!"tests/test_files/errors/fuzz1.over: Invalid closing bracket ')' at line 20, column 1; expected ']'") := by decide +kernel

example : (fromFile testFiles c!"tests/test_files/errors/fuzz2.over" startRt).message = some (c!"tests/test_files/errors/fuzz2.over: Invalid closing bracket ')' at line 22, column 2; expected none") := by decide +kernel

example : (fromFile testFiles c!"tests/test_files/errors/fuzz3.over" startRt).message = some (c!"tests/test_files/errors/fuzz3.over: Exceeded maximum recursion depth (64) at line 5, column 65") := by decide +kernel

example : (fromFile testFiles c!"tests/test_files/errors/fuzz4.over" startRt).message = some (c!"tests/test_files/errors/fuzz4.over: Duplicate field \"M\" at line 22, column 1") := by decide +kernel

example : (fromFile testFiles c!"tests/test_files/errors/fuzz5.over" startRt).message = some (c!"tests/test_files/errors/fuzz5.over: Invalid character '(' for value at line 27, column 4") := by decide +kernel

example : (fromFile testFiles c!"tests/test_files/errors/fuzz6.over" startRt).message = some (c!"tests/test_files/errors/fuzz6.over: Expected Int at line 22, column 1; found Frac") := by decide +kernel

example : (fromFile testFiles c!"tests/test_files/errors/fuzz7.over" startRt).message = some (c!"tests/test_files/errors/fuzz7.over: Invalid character '\\n' for field at line 8, column 0") := by decide +kernel

example : (fromFile testFiles c!"tests/test_files/errors/fuzz8.over" startRt).message = some (c!"tests/test_files/errors/fuzz8.over: Invalid character '\\\"' for value at line 34, column 3") := by decide +kernel

example : (fromFile testFiles c!"tests/test_files/errors/fuzz9.over" startRt).message = some (c!"tests/test_files/errors/fuzz9.over: Type mismatch: expected Obj, found Null at line 18, col 4") := by decide +kernel

example : (fromFile testFiles c!"tests/test_files/errors/fuzz10.over" startRt).message = some (c!"tests/test_files/errors/fuzz10.over: Unexpected end at line 1") := by decide +kernel

example : (fromFile testFiles c!"tests/test_files/errors/fuzz11.over" startRt).message = some (c!"tests/test_files/errors/fuzz11.over: Could not apply operator '+' on types Str and Int at line 14, column 5") := by decide +kernel

example : (fromFile testFiles c!"tests/test_files/errors/fuzz12.over" startRt).message = some (c!"tests/test_files/errors/fuzz12.over: Invalid numeric value at line 6, column 18") := by decide +kernel

example : (fromFile testFiles c!"tests/test_files/errors/fuzz13.over" startRt).message = some (c!"tests/test_files/errors/fuzz13.over: Variable \"g\" at line 20, column 1 could not be found") := by decide +kernel

example : (fromFile testFiles c!"tests/test_files/errors/fuzz14.over" startRt).message = some (c!"tests/test_files/errors/fuzz14.over: Could not apply operator '+' on types Arr(Arr(Int)) and Arr(Arr(Arr(Int))) at line 8, column 5") := by decide +kernel

example : (fromFile testFiles c!"tests/test_files/errors/include1.over" startRt).message = some (c!"tests/test_files/errors/include1.over: Invalid character '\\\"' for value at line 1, column 14") := by decide +kernel

example : (fromFile testFiles c!"tests/test_files/errors/include2.over" startRt).message = some (c!"tests/test_files/errors/include2.over: Expected Str at line 1, column 12; found Int") := by decide +kernel

example : (fromFile testFiles c!"tests/test_files/errors/include3.over" startRt).message = some (c!"tests/test_files/errors/include3.over: Invalid include path \"/\" at line 1, column 12") := by decide +kernel

example : (fromFile testFiles c!"tests/test_files/errors/include4.over" startRt).message = some (c!"tests/test_files/errors/include4.over: Variable \"Blah\" at line 1, column 8 could not be found") := by decide +kernel

example : (fromFile testFiles c!"tests/test_files/errors/include5.over" startRt).message = some (c!"tests/test_files/errors/include5.over: Invalid closing bracket 'S' at line 1, column 17; expected '>'") := by decide +kernel

example : (fromFile testFiles c!"tests/test_files/errors/include6.over" startRt).message = some (c!"tests/test_files/errors/include6.over: Expected Str at line 1, column 15; found Obj") := by decide +kernel

example : (fromFile testFiles c!"tests/test_files/errors/include7.over" startRt).message = some (c!"tests/test_files/errors/include7.over: Invalid value of type \"Bool\" at line 1, column 11; must be either a Str value or one of the tokens \"Obj\", \"Arr\", \"Tup\", or \"Str\"") := by decide +kernel

example : (fromFile testFiles c!"tests/test_files/errors/include_self.over" startRt).message = some (c!"tests/test_files/errors/include_self.over: Tried to cyclically include file \"include_self.over\" at line 1, column 11") := by decide +kernel

example : (fromFile testFiles c!"tests/test_files/errors/op_arr.over" startRt).message = some (c!"tests/test_files/errors/op_arr.over: Could not apply operator '+' on types Arr(Int) and Arr(Str) at line 1, column 13") := by decide +kernel

example : (fromFile testFiles c!"tests/test_files/errors/op_arr_tup.over" startRt).message = some (c!"tests/test_files/errors/op_arr_tup.over: Could not apply operator '+' on types Arr(Any) and Tup() at line 1, column 11") := by decide +kernel

example : (fromFile testFiles c!"tests/test_files/errors/op_end.over" startRt).message = some (c!"tests/test_files/errors/op_end.over: Invalid character '\\n' for value at line 3, column 9") := by decide +kernel

example : (fromFile testFiles c!"tests/test_files/errors/op_error.over" startRt).message = some (c!"tests/test_files/errors/op_error.over: Could not apply operator '+' on types Str and Int at line 1, column 16") := by decide +kernel

example : (fromFile testFiles c!"tests/test_files/errors/op_multiple.over" startRt).message = some (c!"tests/test_files/errors/op_multiple.over: Could not apply operator '+' on types Tup() and Frac at line 1, column 9") := by decide +kernel

example : (fromFile testFiles c!"tests/test_files/errors/op_unary1.over" startRt).message = some (c!"tests/test_files/errors/op_unary1.over: Could not apply operator '+' on type Null at line 2, column 10") := by decide +kernel

example : (fromFile testFiles c!"tests/test_files/errors/op_unary2.over" startRt).message = some (c!"tests/test_files/errors/op_unary2.over: Could not apply operator '-' on type Str at line 2, column 10") := by decide +kernel

example : (fromFile testFiles c!"tests/test_files/errors/underscore.over" startRt).message = some (c!"tests/test_files/errors/underscore.over: Variable \"_444_444\" at line 1, column 9 could not be found") := by decide +kernel

example : (fromFile testFiles c!"tests/test_files/errors/underscore_multiple.over" startRt).message = some (c!"tests/test_files/errors/underscore_multiple.over: Invalid character '_' for value at line 1, column 16") := by decide +kernel

example : (fromFile testFiles c!"tests/test_files/errors/unexpected_end1.over" startRt).message = some (c!"tests/test_files/errors/unexpected_end1.over: Unexpected end at line 2") := by decide +kernel

example : (fromFile testFiles c!"tests/test_files/errors/unexpected_end2.over" startRt).message = some (c!"tests/test_files/errors/unexpected_end2.over: Unexpected end at line 3") := by decide +kernel

example : (fromFile testFiles c!"tests/test_files/errors/value_amp.over" startRt).message = some (c!"tests/test_files/errors/value_amp.over: Invalid value \"@\" at line 1, column 8") := by decide +kernel

end Over.Conformance
