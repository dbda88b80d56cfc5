#!/usr/bin/env python3
"""Writes /verif/properties.jsonl (the list is kept here so that it is easy to edit)."""
import json
P = []
def p(title, statement, quantifier, why, *anchors):
    P.append(dict(id="C%02d" % (len(P) + 1), title=title, statement=statement, quantifier=quantifier,
                  why_tests_cant=why, anchors=list(anchors)))

p("Type equality is compatibility",
  "`t1 == t2` on `Type` holds exactly when some single type is a refinement of both (a refinement replaces occurrences of `Any` by types). It is reflexive and symmetric, and it is NOT transitive although `Eq` is implemented (Int == Any == Str, Int != Str).",
  "all pairs of types of any depth and width", "Types nest without bound; tests pick a handful of shapes.",
  "src/types.rs: impl PartialEq for Type")
p("most_specific is the least upper bound",
  "`Type::most_specific(a, b)` returns `None` exactly when `a != b`; otherwise the returned type refines both `a` and `b` and every type refining both also refines it; the returned flag is true exactly when the returned type contains `Any`.",
  "all pairs of types", "Unbounded recursive datatype.", "src/types.rs: Type::most_specific, Type::has_any")
p("most_specific is commutative, associative and idempotent",
  "Folding `most_specific` over a collection of types gives the same type (or the same failure) whatever the order, the grouping or the repetition.",
  "all triples/collections of types", "Order-independence over all orders and groupings cannot be enumerated.", "src/types.rs: Type::most_specific")
p("Type::is is identity",
  "`a.is(b)` holds exactly when the two types are structurally identical; `is` implies `==`, and `==` implies `is` when neither side contains `Any`.",
  "all pairs of types", "Unbounded recursive datatype.", "src/types.rs: Type::is, Type::has_any")
p("Arr::from_values accepts exactly the homogeneous vectors",
  "`Arr::from_values(vs)` succeeds exactly when every two elements have equal types under `Type::eq`; the values are kept unchanged and in order; the inner type is the least common refinement of the element types; success and inner type do not depend on the order of the elements.",
  "all vectors of values, all permutations", "Vectors and element types are unbounded.", "src/arr.rs: Arr::from_values, Arr::inner_type")
p("Arr::from_values blames the first offending element",
  "When `Arr::from_values(vs)` fails, the error is `ArrTypeMismatch(t, u)` where `u` is the type of the first element that is incompatible with its predecessors and `t` is the inner type of the array of those predecessors.",
  "all rejected vectors", "Unbounded vectors.", "src/arr.rs: Arr::from_values")
p("Indexing is total and exact",
  "`get(i)` on an `Arr` or `Tup` returns the i-th value it was built from when `i < len()` and the out-of-bounds error carrying `i` otherwise; `len`, `is_empty`, `values_ref`, `iter` and `with_each` agree with it.",
  "all arrays/tuples and all indices", "Unbounded sizes and indices.", "src/arr.rs: Arr::get", "src/tup.rs: Tup::get")
p("Tup type vector",
  "`Tup::from_values(vs)` never fails, keeps the values in order, and its type vector is exactly the list of the values' types; the type of the resulting value is `Tup` of that list.",
  "all vectors of values", "Unbounded.", "src/tup.rs: Tup::from_values", "src/value.rs: Value::get_type")
p("Value equality is identity-blind structural equality",
  "On values whose arrays carry the type `from_values` would compute (all values built by the checked constructors or by the parser), `==` holds exactly when the two values are the same up to the ids of their containers; hence it is an equivalence relation. With `from_values_unchecked` it is not transitive.",
  "all pairs/triples of values", "Needs every nesting of containers.", "src/value.rs: Value", "src/arr.rs: impl PartialEq for Arr", "src/tup.rs: impl PartialEq for Tup", "src/obj.rs: impl PartialEq for Obj")
p("Typed getters",
  "`get_bool/get_int/get_str/get_obj/get_arr/get_tup` return the contained datum exactly when the value has that variant, and otherwise `TypeMismatch(expected, actual)` with `actual` the value's type; `get_frac` also accepts an `Int` n and returns n/1. The same getters on `Obj` return `FieldNotFound(field)` exactly when lookup fails.",
  "all values, objects and field names", "Unbounded.", "src/value.rs: get_fn!, get_frac, get_arr, get_tup", "src/obj.rs: get_fn!")
p("Comparison with machine integers",
  "For every machine integer type, `value == k` holds exactly when the value is an `Int` equal to `k` as a mathematical integer (a value outside the type's range equals no `k`), and `Value::from(k) == k`.",
  "all values, all machine integers of the nine supported types", "2^64 values per type and unbounded BigInts.", "src/value.rs: impl_eq_int!, impl_from!")
p("Field lookup walks the parent chain",
  "`get(f)` returns the first own field named `f`, else the result of the parent; `get_with_source(f)` returns the same value together with the nearest object of the chain that owns `f`; `contains`, `len`, `is_empty`, `iter` and `with_each` see own fields only.",
  "all objects with parent chains of any length, all field names", "Unbounded chains.", "src/obj.rs: Obj::get, Obj::get_with_source, Obj::contains")
p("from_pairs validates every field name",
  "`Obj::from_pairs(ps, par)` succeeds exactly when every field name is valid and then yields exactly those pairs in order and that parent; otherwise the error names the first invalid field. A name is accepted iff its first character is alphabetic, `_` or `^` and its other characters are alphabetic, ASCII digits or `_`; contrary to the documentation this admits the empty name and `^...`.",
  "all pair vectors, all strings", "All strings.", "src/obj.rs: Obj::from_pairs, Obj::is_valid_field, Obj::is_valid_field_char")
p("Object equality",
  "Two objects are equal exactly when both lack a parent or both have equal parents, and their pair lists are equal pairwise in order. In particular field order matters, contrary to the documentation of `PartialEq for Obj`.",
  "all pairs of objects", "Unbounded.", "src/obj.rs: impl PartialEq for Obj")
p("try_obj! builds what it says",
  "`try_obj!{f1 => v1, ...}` collects the non-`^` entries in order as fields, the last `^` entry as parent (an error if it is not an `Obj`), and fails exactly when the parent is not an Obj or a field name is invalid.",
  "all entry lists", "Unbounded.", "src/macros.rs: try_obj!, obj!")
p("String escaping round trip",
  "For every string s, parsing the text written for `Str(s)` yields exactly s and consumes exactly that text.",
  "all strings", "All strings.", "src/parse/format.rs: replace_all, get_char_map", "src/parse/parser.rs: parse_str", "src/parse/util.rs: get_escape_char")
p("Number round trip",
  "For every integer and every rational, parsing the text written for it yields exactly that `Int`/`Frac` (an integral `Frac` stays a `Frac`).",
  "all integers and rationals", "Unbounded numbers.", "src/parse/format.rs: Format for BigRational", "src/parse/parser.rs: parse_numeric, parse_unary_op, binary_op_on_values")
p("Write/read round trip",
  "For every object whose field names are accepted by the parser and distinct at every level, whose arrays carry their computed type, and whose containers nest at most 63 deep, `Obj::from_str(&o.write_to_string())` succeeds and equals `o`, in any file system and from any runtime state.",
  "all such objects (any size, any strings and numbers)", "Whole-language property over unbounded data; the fuzz target only samples it.", "src/obj.rs: Obj::write_to_string, FromStr for Obj", "src/parse/format.rs", "src/parse/parser.rs", "fuzz/fuzz_targets/fuzz_target_write.rs")
p("Anything read can be written and read back, up to the depth limit",
  "If `Obj::from_str(s)` or `Obj::from_file(p)` returns `o` then re-reading `o.write_to_string()` succeeds (and equals `o`) exactly when the containers of `o` nest at most 63 deep. Because variables let a document build deeper values than its own text, the unconditional fuzz property is false.",
  "all source texts and file systems", "All documents; the failing documents need 64 levels built through variables.", "fuzz/fuzz_targets/fuzz_target_write.rs", "src/parse/mod.rs: MAX_DEPTH")
p("Writing never panics and ignores identity",
  "`write_to_string` and `Display` return a text for every value and object (no arithmetic underflow in the indentation), and the text depends only on the contents, not on ids or sharing.",
  "all values and objects", "Unbounded nesting.", "src/parse/format.rs")
p("Writing is canonical and injective",
  "Re-reading and re-writing a written object reproduces the same text; two readable objects with the same text are equal.",
  "all readable objects", "Unbounded.", "src/parse/format.rs")
p("write_to_file/from_file",
  "After `o.write_to_file(p)`, `Obj::from_file(p)` returns an object equal to `o` under the conditions of the write/read round trip, whatever else the file system contains.",
  "all file systems, paths and readable objects", "Unbounded.", "src/obj.rs: write_to_file, from_file", "src/util.rs: write_file_str")
p("Parsing terminates",
  "`Obj::from_str` and `Obj::from_file` return (a value or an error) for every text and every finite file system, including files that include each other or themselves; the nesting of recursive calls is bounded by the sizes of the text and of the files.",
  "all texts and all finite file systems", "Non-termination cannot be observed by a test.", "src/parse/parser.rs: parse_include, parse_value")
p("Parsing never panics",
  "`Obj::from_str` never panics, for any text and file system: no `unwrap` on an empty stream, no failed assertion, no underflow, no \"Logic error\". `Obj::from_file` never panics when the canonical path of the file is valid UTF-8 (and can panic otherwise, on an include).",
  "all texts and file systems", "All inputs.", "src/parse/parser.rs: unwrap/assert sites", "fuzz/fuzz_targets/fuzz_target_1.rs")
p("Depth limit",
  "A text whose bracket nesting (`{}`, `[]`, `()`, `<>`) exceeds 63 levels below the top is rejected with the MaxDepth error at the opening bracket that crosses the limit, whatever precedes it; `MAX_DEPTH` does not bound unary operators or dot chains, which recurse without limit.",
  "all nesting depths", "Unbounded nesting.", "src/parse/parser.rs: depth checks", "src/parse/mod.rs: MAX_DEPTH")
p("Every parsed array is homogeneous",
  "In every object returned by the parser, every array at every level (also through includes, concatenation and parents) has as inner type the least common refinement of its elements' types, and every tuple's type vector matches its values.",
  "all texts and file systems", "All inputs.", "src/parse/parser.rs: parse_arr, parse_arr_file, binary_op_on_values")
p("Field names of parsed objects",
  "In every object returned by the parser, at every level, field names are pairwise distinct, non-empty, start with an alphabetic character or `_`, continue with alphabetic characters, ASCII digits or `_`, and are not reserved words; in particular no global (`@x`) and no `^` ever appears as a field.",
  "all texts and file systems", "All inputs.", "src/parse/parser.rs: parse_field, parse_field_value_pair")
p("Operator precedence and associativity",
  "An operator chain evaluates as its fully parenthesised reading: `*`, `/`, `%` bind tighter than `+`, `-`; both levels associate to the left; and it fails exactly when some operation of that reading fails.",
  "all operator chains of any length and all operand values", "Unbounded chains.", "src/parse/parser.rs: parse_value", "src/parse/mod.rs: BinaryOp")
p("Arithmetic is exact",
  "`+ - *` on Int/Frac are exact integer/rational arithmetic with Int promoted to Frac when mixed, `Int/Int` is the exact quotient as a Frac, `%` is the truncated remainder of Ints only; `+` concatenates Str with Str and Arr with a compatible Arr (inner type the least common refinement); every other combination is an operator error that names both types.",
  "all pairs of values and all operators", "Unbounded numbers and containers.", "src/parse/parser.rs: binary_op_on_values, unary_op_on_value")
p("Division by zero is an error, never a panic",
  "`/` and `%` with a zero right operand (Int or Frac) always produce the InvalidNumeric error; with a nonzero operand of the right kind they never do.",
  "all dividends", "Unbounded.", "src/parse/parser.rs: binary_op_on_values")
p("Number literals denote what they spell",
  "A digit string with optional single underscores reads as the Int it spells in base ten; with one `.` or `,` it reads as the Frac whole + decimals/10^k; leading and trailing zeros and underscores do not change the value; no other text is accepted as a number.",
  "all literals", "Unbounded literals.", "src/parse/parser.rs: parse_numeric", "src/parse/util.rs: frac_from_whole_and_dec")
p("Scope of plain variables",
  "A plain variable reads the field of that name defined earlier in the directly enclosing object, and nothing else: not outer objects, not later fields, not the parent's fields; otherwise the VariableNotFound error.",
  "all documents", "All contexts.", "src/parse/parser.rs: parse_variable")
p("Scope of globals",
  "`@x` reads the value of the global defined earlier anywhere in the same file, at whatever nesting level; globals never appear in the result and are not visible across files. A second definition of a global is rejected, except that a global defined inside the value of its own definition is silently overwritten.",
  "all documents", "All contexts.", "src/parse/parser.rs: parse_field_value_pair, parse_variable")
p("Parents",
  "`^: v` sets the parent to the object v denotes, is rejected when v is not an object or when a parent was already given, and fields defined in the object override inherited ones for lookups.",
  "all documents", "All contexts.", "src/parse/parser.rs: parse_field_value_pair")
p("Dot access",
  "`x.f` on an object reads x's own field f (inherited fields are NOT found, contrary to the README), keywords after a dot still denote the keyword's value; `x.i` on an array or tuple reads element i where i is any value expression that evaluates to an Int in range and anything else is an error; dots on other values are rejected.",
  "all values and paths", "All contexts.", "src/parse/parser.rs: parse_variable")
p("Cyclic includes are rejected",
  "A file that would be opened while it is still being parsed (directly or through any chain of includes, under any alias) is rejected with the CyclicInclude error; a file is never parsed inside itself.",
  "all file systems and include graphs", "All include graphs.", "src/parse/parser.rs: parse_include")
p("Includes are loaded once",
  "Within one parse each file is parsed at most once successfully; a later include of the same file (under any alias, from any file) yields the same instance (`ptr_eq`). Because the cache ignores the include keyword, `<Str \"f\">` followed by `<Obj \"f\">` yields the string.",
  "all file systems and documents", "All include histories.", "src/parse/parser.rs: parse_include")
p("First include has the requested kind",
  "The first include of a file yields an Obj, Str, Arr or Tup as requested (Obj by default), equal to what parsing that file alone in that role yields; a Str include is the file's text verbatim.",
  "all file systems", "All contents.", "src/parse/parser.rs: parse_include, parse_str_file, parse_arr_file, parse_tup_file")
p("Error positions lie inside the source",
  "Every located parse error names the file being parsed and a line between 1 and the number of lines of that file and a column between 0 and the length of that line plus 1.",
  "all rejected texts", "All inputs.", "src/parse/error.rs", "src/parse/char_stream.rs")
p("Character errors point at the character",
  "An invalid-character error (value, field, escape, closing bracket) reports the character that stands at the reported line and column, except that an offending newline in a field name or escape is reported at column 0 of the following line.",
  "all rejected texts", "All inputs.", "src/parse/parser.rs: parse_field, parse_str, check_value_end")
p("Every error message locates the error",
  "Every error message of `from_str`/`from_file` contains \"line\", except the operating system's own message when a file cannot be read.",
  "all rejected texts and file systems", "The fuzz target asserts it but only samples.", "src/parse/error.rs: Display for ParseError", "fuzz/fuzz_targets/fuzz_target_1.rs")
p("Layout is irrelevant",
  "Whitespace and `#` comments before the first field, between fields, between a field and its value, between container elements and before closing brackets do not influence the value read; only whether two values are separated at all matters.",
  "all documents and all layouts", "Unbounded.", "src/parse/parser.rs: find_char")
p("Line and column bookkeeping",
  "After any prefix of the stream has been read, the line is one plus the number of newlines read and the column one plus the number of characters read since the last newline; peeking never moves the stream.",
  "all texts and prefixes", "Unbounded.", "src/parse/char_stream.rs")
p("Documents mean what the language reference says",
  "For every syntactically well-formed document (any layout), parsing its text gives exactly the result of a direct evaluator of the document tree: the same object including sharing, or the same kind of semantic error.",
  "all well-formed document trees, layouts, file systems and states", "Whole-language refinement.", "src/parse/parser.rs")
p("Nothing else is accepted",
  "Every text the parser accepts is the text of some well-formed document tree, whose evaluation is the returned object.",
  "all accepted texts", "All inputs.", "src/parse/parser.rs")
p("Ids are unique under every schedule",
  "As long as fewer than 2^64 containers have been created, no two containers ever receive the same id, whatever the interleaving of the creating threads; a thread's ids increase.",
  "all schedules of any number of threads", "All interleavings.", "src/lib.rs: gen_id")
p("Identity and sharing in parsed objects",
  "Containers literally written at different places have different ids, all newer than every container that existed before the parse; a variable, global or repeated include refers to the very same instance.",
  "all texts and states", "All inputs.", "src/parse/parser.rs", "src/lib.rs: gen_id")
p("Field order is preserved",
  "The fields of a parsed object appear in the order in which they are written, one per regular field definition, and writing emits them in that order.",
  "all documents", "All inputs.", "src/obj.rs", "src/parse/parser.rs")

if __name__ == "__main__":
    with open("/verif/properties.jsonl", "w") as f:
        for q in P:
            f.write(json.dumps(q, ensure_ascii=False) + "\n")
    print(len(P))
