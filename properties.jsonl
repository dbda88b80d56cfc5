{"id": "C01", "title": "Type equality is compatibility", "statement": "`t1 == t2` on `Type` holds exactly when some single type is a refinement of both (a refinement replaces occurrences of `Any` by types). It is reflexive and symmetric, and it is NOT transitive although `Eq` is implemented (Int == Any == Str, Int != Str).", "quantifier": "all pairs of types of any depth and width", "why_tests_cant": "Types nest without bound; tests pick a handful of shapes.", "anchors": ["src/types.rs: impl PartialEq for Type"]}
{"id": "C02", "title": "most_specific is the least upper bound", "statement": "`Type::most_specific(a, b)` returns `None` exactly when `a != b`; otherwise the returned type refines both `a` and `b` and every type refining both also refines it; the returned flag is true exactly when the returned type contains `Any`.", "quantifier": "all pairs of types", "why_tests_cant": "Unbounded recursive datatype.", "anchors": ["src/types.rs: Type::most_specific, Type::has_any"]}
{"id": "C03", "title": "most_specific is commutative, associative and idempotent", "statement": "Folding `most_specific` over a collection of types gives the same type (or the same failure) whatever the order, the grouping or the repetition.", "quantifier": "all triples/collections of types", "why_tests_cant": "Order-independence over all orders and groupings cannot be enumerated.", "anchors": ["src/types.rs: Type::most_specific"]}
{"id": "C04", "title": "Type::is is identity", "statement": "`a.is(b)` holds exactly when the two types are structurally identical; `is` implies `==`, and `==` implies `is` when neither side contains `Any`.", "quantifier": "all pairs of types", "why_tests_cant": "Unbounded recursive datatype.", "anchors": ["src/types.rs: Type::is, Type::has_any"]}
{"id": "C05", "title": "Arr::from_values accepts exactly the homogeneous vectors", "statement": "`Arr::from_values(vs)` succeeds exactly when every two elements have equal types under `Type::eq`; the values are kept unchanged and in order; the inner type is the least common refinement of the element types; success and inner type do not depend on the order of the elements.", "quantifier": "all vectors of values, all permutations", "why_tests_cant": "Vectors and element types are unbounded.", "anchors": ["src/arr.rs: Arr::from_values, Arr::inner_type"]}
{"id": "C06", "title": "Arr::from_values blames the first offending element", "statement": "When `Arr::from_values(vs)` fails, the error is `ArrTypeMismatch(t, u)` where `u` is the type of the first element that is incompatible with its predecessors and `t` is the inner type of the array of those predecessors.", "quantifier": "all rejected vectors", "why_tests_cant": "Unbounded vectors.", "anchors": ["src/arr.rs: Arr::from_values"]}
{"id": "C07", "title": "Indexing is total and exact", "statement": "`get(i)` on an `Arr` or `Tup` returns the i-th value it was built from when `i < len()` and the out-of-bounds error carrying `i` otherwise; `len`, `is_empty`, `values_ref`, `iter` and `with_each` agree with it.", "quantifier": "all arrays/tuples and all indices", "why_tests_cant": "Unbounded sizes and indices.", "anchors": ["src/arr.rs: Arr::get", "src/tup.rs: Tup::get"]}
{"id": "C08", "title": "Tup type vector", "statement": "`Tup::from_values(vs)` never fails, keeps the values in order, and its type vector is exactly the list of the values' types; the type of the resulting value is `Tup` of that list.", "quantifier": "all vectors of values", "why_tests_cant": "Unbounded.", "anchors": ["src/tup.rs: Tup::from_values", "src/value.rs: Value::get_type"]}
{"id": "C09", "title": "Value equality is identity-blind structural equality", "statement": "On values whose arrays carry the type `from_values` would compute (all values built by the checked constructors or by the parser), `==` holds exactly when the two values are the same up to the ids of their containers; hence it is an equivalence relation. With `from_values_unchecked` it is not transitive.", "quantifier": "all pairs/triples of values", "why_tests_cant": "Needs every nesting of containers.", "anchors": ["src/value.rs: Value", "src/arr.rs: impl PartialEq for Arr", "src/tup.rs: impl PartialEq for Tup", "src/obj.rs: impl PartialEq for Obj"]}
{"id": "C10", "title": "Typed getters", "statement": "`get_bool/get_int/get_str/get_obj/get_arr/get_tup` return the contained datum exactly when the value has that variant, and otherwise `TypeMismatch(expected, actual)` with `actual` the value's type; `get_frac` also accepts an `Int` n and returns n/1. The same getters on `Obj` return `FieldNotFound(field)` exactly when lookup fails.", "quantifier": "all values, objects and field names", "why_tests_cant": "Unbounded.", "anchors": ["src/value.rs: get_fn!, get_frac, get_arr, get_tup", "src/obj.rs: get_fn!"]}
{"id": "C11", "title": "Comparison with machine integers", "statement": "For every machine integer type, `value == k` holds exactly when the value is an `Int` equal to `k` as a mathematical integer (a value outside the type's range equals no `k`), and `Value::from(k) == k`.", "quantifier": "all values, all machine integers of the nine supported types", "why_tests_cant": "2^64 values per type and unbounded BigInts.", "anchors": ["src/value.rs: impl_eq_int!, impl_from!"]}
{"id": "C12", "title": "Field lookup walks the parent chain", "statement": "`get(f)` returns the first own field named `f`, else the result of the parent; `get_with_source(f)` returns the same value together with the nearest object of the chain that owns `f`; `contains`, `len`, `is_empty`, `iter` and `with_each` see own fields only.", "quantifier": "all objects with parent chains of any length, all field names", "why_tests_cant": "Unbounded chains.", "anchors": ["src/obj.rs: Obj::get, Obj::get_with_source, Obj::contains"]}
{"id": "C13", "title": "from_pairs validates every field name", "statement": "`Obj::from_pairs(ps, par)` succeeds exactly when every field name is valid and then yields exactly those pairs in order and that parent; otherwise the error names the first invalid field. A name is accepted iff its first character is alphabetic, `_` or `^` and its other characters are alphabetic, ASCII digits or `_`; contrary to the documentation this admits the empty name and `^...`.", "quantifier": "all pair vectors, all strings", "why_tests_cant": "All strings.", "anchors": ["src/obj.rs: Obj::from_pairs, Obj::is_valid_field, Obj::is_valid_field_char"]}
{"id": "C14", "title": "Object equality", "statement": "Two objects are equal exactly when both lack a parent or both have equal parents, and their pair lists are equal pairwise in order. In particular field order matters, contrary to the documentation of `PartialEq for Obj`.", "quantifier": "all pairs of objects", "why_tests_cant": "Unbounded.", "anchors": ["src/obj.rs: impl PartialEq for Obj"]}
{"id": "C15", "title": "try_obj! builds what it says", "statement": "`try_obj!{f1 => v1, ...}` collects the non-`^` entries in order as fields, the last `^` entry as parent (an error if it is not an `Obj`), and fails exactly when the parent is not an Obj or a field name is invalid.", "quantifier": "all entry lists", "why_tests_cant": "Unbounded.", "anchors": ["src/macros.rs: try_obj!, obj!"]}
{"id": "C16", "title": "String escaping round trip", "statement": "For every string s, parsing the text written for `Str(s)` yields exactly s and consumes exactly that text.", "quantifier": "all strings", "why_tests_cant": "All strings.", "anchors": ["src/parse/format.rs: replace_all, get_char_map", "src/parse/parser.rs: parse_str", "src/parse/util.rs: get_escape_char"]}
{"id": "C17", "title": "Number round trip", "statement": "For every integer and every rational, parsing the text written for it yields exactly that `Int`/`Frac` (an integral `Frac` stays a `Frac`).", "quantifier": "all integers and rationals", "why_tests_cant": "Unbounded numbers.", "anchors": ["src/parse/format.rs: Format for BigRational", "src/parse/parser.rs: parse_numeric, parse_unary_op, binary_op_on_values"]}
{"id": "C18", "title": "Write/read round trip", "statement": "For every object whose field names are accepted by the parser and distinct at every level, whose arrays carry their computed type, and whose containers nest at most 63 deep, `Obj::from_str(&o.write_to_string())` succeeds and equals `o`, in any file system and from any runtime state.", "quantifier": "all such objects (any size, any strings and numbers)", "why_tests_cant": "Whole-language property over unbounded data; the fuzz target only samples it.", "anchors": ["src/obj.rs: Obj::write_to_string, FromStr for Obj", "src/parse/format.rs", "src/parse/parser.rs", "fuzz/fuzz_targets/fuzz_target_write.rs"]}
{"id": "C19", "title": "Anything read can be written and read back, up to the depth limit", "statement": "If `Obj::from_str(s)` or `Obj::from_file(p)` returns `o` then re-reading `o.write_to_string()` succeeds (and equals `o`) exactly when the containers of `o` nest at most 63 deep. Because variables let a document build deeper values than its own text, the unconditional fuzz property is false.", "quantifier": "all source texts and file systems", "why_tests_cant": "All documents; the failing documents need 64 levels built through variables.", "anchors": ["fuzz/fuzz_targets/fuzz_target_write.rs", "src/parse/mod.rs: MAX_DEPTH"]}
{"id": "C20", "title": "Writing never panics and ignores identity", "statement": "`write_to_string` and `Display` return a text for every value and object (no arithmetic underflow in the indentation), and the text depends only on the contents, not on ids or sharing.", "quantifier": "all values and objects", "why_tests_cant": "Unbounded nesting.", "anchors": ["src/parse/format.rs"]}
{"id": "C21", "title": "Writing is canonical and injective", "statement": "Re-reading and re-writing a written object reproduces the same text; two readable objects with the same text are equal.", "quantifier": "all readable objects", "why_tests_cant": "Unbounded.", "anchors": ["src/parse/format.rs"]}
{"id": "C22", "title": "write_to_file/from_file", "statement": "After `o.write_to_file(p)`, `Obj::from_file(p)` returns an object equal to `o` under the conditions of the write/read round trip, whatever else the file system contains.", "quantifier": "all file systems, paths and readable objects", "why_tests_cant": "Unbounded.", "anchors": ["src/obj.rs: write_to_file, from_file", "src/util.rs: write_file_str"]}
{"id": "C23", "title": "Parsing terminates", "statement": "`Obj::from_str` and `Obj::from_file` return (a value or an error) for every text and every finite file system, including files that include each other or themselves; the nesting of recursive calls is bounded by the sizes of the text and of the files.", "quantifier": "all texts and all finite file systems", "why_tests_cant": "Non-termination cannot be observed by a test.", "anchors": ["src/parse/parser.rs: parse_include, parse_value"]}
{"id": "C24", "title": "Parsing never panics", "statement": "`Obj::from_str` never panics, for any text and file system: no `unwrap` on an empty stream, no failed assertion, no underflow, no \"Logic error\". `Obj::from_file` never panics when the canonical path of the file is valid UTF-8 (and can panic otherwise, on an include).", "quantifier": "all texts and file systems", "why_tests_cant": "All inputs.", "anchors": ["src/parse/parser.rs: unwrap/assert sites", "fuzz/fuzz_targets/fuzz_target_1.rs"]}
{"id": "C25", "title": "Depth limit", "statement": "A text whose brackets (`{}`, `[]`, `()`, `<>`; a sign in front of a bracket counts as one more level) nest more than 63 levels deep is never read; brackets that exceed the limit with nothing in front of them that could fail first give the MaxDepth error at every place, whatever precedes and follows; MaxDepth always points at an opening bracket and is reported by `from_str` in a well-formed text only if the text itself (included files not counted) has more than 63 levels. Signs alone are not limited: any number of them is read.", "quantifier": "all texts, nesting depths, places, file systems and process states", "why_tests_cant": "Unbounded nesting.", "anchors": ["src/parse/parser.rs: depth checks", "src/parse/mod.rs: MAX_DEPTH"]}
{"id": "C26", "title": "Every parsed array is homogeneous", "statement": "In every object returned by the parser, every array at every level (also through includes, concatenation and parents) has as inner type the least common refinement of its elements' types, and every tuple's type vector matches its values.", "quantifier": "all texts and file systems", "why_tests_cant": "All inputs.", "anchors": ["src/parse/parser.rs: parse_arr, parse_arr_file, binary_op_on_values"]}
{"id": "C27", "title": "Field names of parsed objects", "statement": "In every object returned by the parser, at every level, field names are pairwise distinct, non-empty, start with an alphabetic character or `_`, continue with alphabetic characters, ASCII digits or `_`, and are not reserved words; in particular no global (`@x`) and no `^` ever appears as a field.", "quantifier": "all texts and file systems", "why_tests_cant": "All inputs.", "anchors": ["src/parse/parser.rs: parse_field, parse_field_value_pair"]}
{"id": "C28", "title": "Operator precedence and associativity", "statement": "An operator chain evaluates as its fully parenthesised reading: `*`, `/`, `%` bind tighter than `+`, `-`; both levels associate to the left; and it fails exactly when some operation of that reading fails.", "quantifier": "all operator chains of any length and all operand values", "why_tests_cant": "Unbounded chains.", "anchors": ["src/parse/parser.rs: parse_value", "src/parse/mod.rs: BinaryOp"]}
{"id": "C29", "title": "Arithmetic is exact", "statement": "`+ - *` on Int/Frac are exact integer/rational arithmetic with Int promoted to Frac when mixed, `Int/Int` is the exact quotient as a Frac, `%` is the truncated remainder of Ints only; `+` concatenates Str with Str and Arr with a compatible Arr (inner type the least common refinement); every other combination is an operator error that names both types.", "quantifier": "all pairs of values and all operators", "why_tests_cant": "Unbounded numbers and containers.", "anchors": ["src/parse/parser.rs: binary_op_on_values, unary_op_on_value"]}
{"id": "C30", "title": "Division by zero is an error, never a panic", "statement": "Dividing a number by zero (Int or Frac), and taking the remainder of an Int by 0, always produce the InvalidNumeric error; no other combination of operands does (a nonzero divisor of the right kind yields the value, operands of the wrong kind the operator error).", "quantifier": "all dividends", "why_tests_cant": "Unbounded.", "anchors": ["src/parse/parser.rs: binary_op_on_values"]}
{"id": "C31", "title": "Number literals denote what they spell", "statement": "A digit string with optional single underscores reads as the Int it spells in base ten; with one `.` or `,` it reads as the Frac whole + decimals/10^k; leading and trailing zeros and underscores do not change the value; no other text is accepted as a number.", "quantifier": "all literals", "why_tests_cant": "Unbounded literals.", "anchors": ["src/parse/parser.rs: parse_numeric", "src/parse/util.rs: frac_from_whole_and_dec"]}
{"id": "C32", "title": "Scope of plain variables", "statement": "A plain variable reads the field of that name defined earlier in the directly enclosing object, and nothing else: not outer objects, not later fields, not the parent's fields; otherwise the VariableNotFound error.", "quantifier": "all documents", "why_tests_cant": "All contexts.", "anchors": ["src/parse/parser.rs: parse_variable"]}
{"id": "C33", "title": "Scope of globals", "statement": "`@x` reads the value of the global defined earlier anywhere in the same file, at whatever nesting level; globals never appear in the result and are not visible across files. A second definition of a global is rejected, except that a global defined inside the value of its own definition is silently overwritten.", "quantifier": "all documents", "why_tests_cant": "All contexts.", "anchors": ["src/parse/parser.rs: parse_field_value_pair, parse_variable"]}
{"id": "C34", "title": "Parents", "statement": "`^: v` sets the parent to the object v denotes, is rejected when v is not an object or when a parent was already given, and fields defined in the object override inherited ones for lookups.", "quantifier": "all documents", "why_tests_cant": "All contexts.", "anchors": ["src/parse/parser.rs: parse_field_value_pair"]}
{"id": "C35", "title": "Dot access", "statement": "`x.f` on an object reads x's own field f (inherited fields are NOT found, contrary to the README), keywords after a dot still denote the keyword's value; `x.i` on an array or tuple reads element i where i is any value expression that evaluates to an Int in range and anything else is an error; dots on other values are rejected.", "quantifier": "all values and paths", "why_tests_cant": "All contexts.", "anchors": ["src/parse/parser.rs: parse_variable"]}
{"id": "C36", "title": "Cyclic includes are rejected", "statement": "A file that would be opened while it is still being parsed (directly or through any chain of includes, under any alias) is rejected with the CyclicInclude error; a file is never parsed inside itself.", "quantifier": "all file systems and include graphs", "why_tests_cant": "All include graphs.", "anchors": ["src/parse/parser.rs: parse_include"]}
{"id": "C37", "title": "Includes are loaded once", "statement": "Within one parse each file is parsed at most once successfully; a later include of the same file (under any alias, from any file) yields the same instance (`ptr_eq`). Because the cache ignores the include keyword, `<Str \"f\">` followed by `<Obj \"f\">` yields the string.", "quantifier": "all file systems and documents", "why_tests_cant": "All include histories.", "anchors": ["src/parse/parser.rs: parse_include"]}
{"id": "C38", "title": "First include has the requested kind", "statement": "The first include of a file yields an Obj, Str, Arr or Tup as requested (Obj by default); a Str include is the file's text verbatim. An Obj include equals what Obj::from_file yields for that file (and fails if that fails) when nothing has been included before; it equals it also behind other includes when the file needs none of the files included before. An Arr or Tup include of a file whose values include nothing equals the array or tuple of these values. The condition on earlier includes cannot be dropped: files are remembered by path only, so an earlier <Str \"g\"> changes what a later first include of a file that includes \"g\" yields.", "quantifier": "all file systems", "why_tests_cant": "All contents.", "anchors": ["src/parse/parser.rs: parse_include, parse_str_file, parse_arr_file, parse_tup_file"]}
{"id": "C39", "title": "Error positions lie inside the source", "statement": "Every located parse error names the file being parsed and a line between 1 and the number of lines of that file and a column between 0 and the length of that line plus 1.", "quantifier": "all rejected texts", "why_tests_cant": "All inputs.", "anchors": ["src/parse/error.rs", "src/parse/char_stream.rs"]}
{"id": "C40", "title": "Character errors point at the character", "statement": "An invalid-character error (value, field, escape, closing bracket) reports the character that stands at the reported line and column, except that an offending newline in a field name or escape is reported at column 0 of the following line.", "quantifier": "all rejected texts", "why_tests_cant": "All inputs.", "anchors": ["src/parse/parser.rs: parse_field, parse_str, check_value_end"]}
{"id": "C41", "title": "Every error message locates the error", "statement": "Every error of `from_str`/`from_file` is an `OverError::ParseError` whose message begins with the name of the file it is about (for `from_str` on the given text: no name) and says \"line\" and the number of the line of the error, which is a line of that file; except the operating system's own message when a file cannot be read.", "quantifier": "all rejected texts and file systems", "why_tests_cant": "The fuzz target asserts it but only samples.", "anchors": ["src/parse/error.rs: Display for ParseError", "fuzz/fuzz_targets/fuzz_target_1.rs"]}
{"id": "C42", "title": "Layout is irrelevant", "statement": "Whitespace and `#` comments before the first field, between fields, between a field and its value, between container elements and before closing brackets do not influence the value read; only whether two values are separated at all matters. The same holds of `Obj::from_file` when only the layout of the file is changed.", "quantifier": "all documents and all layouts", "why_tests_cant": "Unbounded.", "anchors": ["src/parse/parser.rs: find_char"]}
{"id": "C43", "title": "Line and column bookkeeping", "statement": "After any prefix of the stream has been read, the line is one plus the number of newlines read and the column one plus the number of characters read since the last newline; peeking never moves the stream.", "quantifier": "all texts and prefixes", "why_tests_cant": "Unbounded.", "anchors": ["src/parse/char_stream.rs"]}
{"id": "C44", "title": "Documents mean what the language reference says", "statement": "For every syntactically well-formed document (any layout), parsing its text gives exactly the result of a direct evaluator of the document tree: the same object including sharing, or the same kind of semantic error.", "quantifier": "all well-formed document trees, layouts, file systems and states", "why_tests_cant": "Whole-language refinement.", "anchors": ["src/parse/parser.rs"]}
{"id": "C45", "title": "Nothing else is accepted", "statement": "Every text the parser accepts is the text of some well-formed document tree, whose evaluation is the returned object.", "quantifier": "all accepted texts", "why_tests_cant": "All inputs.", "anchors": ["src/parse/parser.rs"]}
{"id": "C46", "title": "Ids are unique under every schedule", "statement": "Whatever the interleaving of any number of threads, ids are given out in the order 0, 1, 2, ... (modulo 2^64); as long as at most 2^64 ids have been given out no two containers have the same id (with more, some do), the ids of one thread's containers increase, all threads see the same four keyword objects, whichever thread uses them first, and these differ from each other and from every container; between any two moments the process state changes only in the way in which every theorem about parsing allows concurrent threads to change it.", "quantifier": "all schedules of any number of threads, including races for the initialisation of the keyword objects", "why_tests_cant": "All interleavings.", "anchors": ["src/lib.rs: gen_id, CUR_ID", "src/parse/parser.rs: lazy_static sentinels"]}
{"id": "C47", "title": "Identity and sharing in parsed objects", "statement": "Containers literally written at different places have different ids; every container of a parsed object is newer than everything that existed before the parse, except that the keywords Obj, Str, Arr, Tup denote one shared empty object each; two containers with the same id are the same container; a variable, global or repeated include refers to the very same instance.", "quantifier": "all texts and states", "why_tests_cant": "All inputs.", "anchors": ["src/parse/parser.rs", "src/lib.rs: gen_id"]}
{"id": "C48", "title": "Field order is preserved", "statement": "The fields of a parsed object appear in the order in which they are written, one per regular field definition, and writing emits them in that order.", "quantifier": "all documents", "why_tests_cant": "All inputs.", "anchors": ["src/obj.rs", "src/parse/parser.rs"]}
{"id": "C49", "title": "The language is unambiguous", "statement": "A text spells at most one document tree (and, for a file included as Arr or Tup, at most one sequence of values), so the meaning of a text is well defined: what the parser returns does not depend on a choice of reading.", "quantifier": "all texts", "why_tests_cant": "Ambiguity is a statement about all pairs of parse trees of all texts; tests can only compare one reading with itself.", "anchors": ["src/parse/parser.rs: parse_obj_file, parse_value, parse_numeric, parse_variable", "src/parse/util.rs"]}
{"id": "C50", "title": "String literals denote what they spell", "statement": "A string literal denotes its characters with `\\\\ \\\" \\' \\$ \\n \\r \\t` replaced by the characters they stand for (a raw newline stands for itself); a backslash followed by any other character is rejected, and so is a literal that is never closed.", "quantifier": "all string contents and all texts in front of and behind the literal", "why_tests_cant": "the set of string bodies is infinite; a test can only sample escapes in a few positions", "anchors": ["src/parse/parser.rs: parse_str", "src/parse/util.rs: get_escape_char"]}
{"id": "C51", "title": "Reading does not depend on the state of the process", "statement": "Reading the same text (or the same file) with the same files on disk has the same outcome whatever the process has done before and whatever other threads do meanwhile: the same error, or objects that differ only in the ids of their containers. The ids correspond one to one, and the shared objects and arrays of the keywords correspond to each other. In particular the two objects are ==, are written to the same text and displayed alike; reading the same text again gives an equal object.", "quantifier": "for every file system, every text or path, every pair of consistent process states (id counter, keyword objects already created, arbitrary interleaved actions of other threads on both)", "why_tests_cant": "A test reads in one process state; the claim relates two runs for all texts and all pairs of states and all interleavings with other threads.", "anchors": ["src/obj.rs: from_str, from_file, gen_id!", "src/parse/parser.rs: parse_obj_str, parse_obj_file, parse_value", "src/arr.rs", "src/tup.rs"]}
{"id": "C52", "title": "More files do no harm", "statement": "Whatever `from_str` or `from_file` reads successfully in one file system, it reads with exactly the same result, ids included, in every file system in which all the files of the first are found under the same paths with the same contents.", "quantifier": "all texts, process states and pairs of file systems", "why_tests_cant": "All pairs of file systems, with any number of files and any depth of inclusion.", "anchors": ["src/parse/parser.rs: parse_include", "src/parse/mod.rs: load_from_file", "src/obj.rs: from_file"]}
{"id": "C53", "title": "Errors point at what they are about", "statement": "An error that names a field, variable, global or value (DuplicateField, DuplicateGlobal, GlobalNotFound, VariableNotFound, InvalidFieldName, InvalidValue) is reported at a line and column where exactly that name stands in the text; errors about a value (operator errors, index errors, type errors, include errors, errors of the value API) are reported at the first character of a complete operand; a dot error is reported at a name followed by a dot; a numeric error at a character of a number or at the divisor.", "quantifier": "all texts, file systems, process states and errors", "why_tests_cant": "All texts; positions are carried through arbitrarily nested parsing, deferred evaluation of operator chains and includes.", "anchors": ["src/parse/error.rs", "src/parse/parser.rs", "src/char_stream.rs"]}
{"id": "C54", "title": "Messages determine the error", "statement": "`Display` of a type is its name (with the element types in parentheses, separated by \", \") and determines the type. The message of every error of the value API determines its variant and data (types, field name, index). The message of every error of reading determines its kind, the names, types and characters it is about, and the line and column; no error of the parser has the message of a value-API error. So no information is lost although `OverError::ParseError` only holds a string.", "quantifier": "all types, all pairs of errors with arbitrary data and positions", "why_tests_cant": "Injectivity over infinitely many nested types, names and positions; a test compares a few messages.", "anchors": ["src/types.rs: Display for Type", "src/error.rs: Display for OverError", "src/parse/error.rs: Display for ParseError, from_over"]}
{"id": "C55", "title": "Lines after an error do not matter", "statement": "If `Obj::from_str` fails on some complete lines with an error other than the unexpected end of that text, then it fails with exactly the same error (file, kind, names, position) whatever text is added after these lines: nothing written later can repair, hide or change an error. The same holds of `Obj::from_file`, when a file whose text is these complete lines gets more text added at its end and is read again.", "quantifier": "all texts of complete lines, all continuations, file systems and process states; files of any file system, edited in place", "why_tests_cant": "Quantifies over every continuation of every erroneous text; a test tries a few continuations.", "anchors": ["src/parse/parser.rs: parse_obj_str, parse_obj_stream, parse_value and all functions it calls", "src/char_stream.rs", "src/obj.rs: FromStr for Obj"]}
{"id": "C56", "title": "Added definitions keep the earlier ones", "statement": "If `Obj::from_str` reads some complete lines as an object, and the same lines followed by others as another object, then the fields of the first object are the first fields of the second, in order, with the same values (including the identity of arrays, tuples and objects), and a parent stays the same; so every field defined by the first lines reads the same. The same holds of `Obj::from_file`, when a file whose text is these complete lines gets more text added at its end and is read again.", "quantifier": "all texts of complete lines, all continuations, file systems and process states; files of any file system, edited in place", "why_tests_cant": "All pairs of a text and its continuation, including continuations that shadow globals, include files or use any operator.", "anchors": ["src/parse/parser.rs: parse_obj_stream, parse_field_value_pair", "src/obj.rs: Obj::get, Obj::contains"]}
{"id": "C57", "title": "The blame is on the lines that were added", "statement": "If `Obj::from_str` accepts some complete lines but rejects them with more text after them, then the error is about an included file or names a line of the added text: never a line that was fine before. The same holds of `Obj::from_file`, when a file whose text is these complete lines gets more text added at its end and is read again.", "quantifier": "all texts of complete lines, all continuations, file systems, process states and errors; files of any file system, edited in place", "why_tests_cant": "Positions are carried through arbitrarily nested parsing and deferred evaluation; all continuations.", "anchors": ["src/parse/parser.rs", "src/parse/error.rs", "src/char_stream.rs"]}
{"id": "C58", "title": "A file reads like its text", "statement": "If the text of a file can be read by `Obj::from_str` without any include being followed, then `Obj::from_file` on the file gives the same object; if `from_str` fails on it (other than at an include path), `from_file` fails with the same kind of error at the same position, naming the file.", "quantifier": "all texts, paths, file systems and process states", "why_tests_cant": "All texts and file systems.", "anchors": ["src/parse/parser.rs: parse_obj_file, parse_obj_str, parse_obj_stream", "src/char_stream.rs: from_file, from_string", "src/obj.rs: from_file, FromStr"]}
{"id": "C59", "title": "A text that is cut off", "statement": "If `Obj::from_str` accepts a text and also a first part of it, then the object read from the part has the first fields of the whole, in order and with the same values, and at most one more field; that one has the name of the next field of the whole (its value may differ), and a parent is the same, missing, or itself the definition that was cut. So cutting a text never drops, renames or changes a definition before the cut, and never invents a field name. Up to ids, this also holds when whole and part are read in different processes. The same holds of `Obj::from_file` when only a first part of the file is left.", "quantifier": "all texts, all places to cut them, file systems, process states and interleavings", "why_tests_cant": "All texts times all cut points; the cut may fall inside any construct.", "anchors": ["src/parse/parser.rs: parse_obj_stream, parse_field_value_pair, parse_value", "src/obj.rs: FromStr"]}
{"id": "C60", "title": "Torn writes", "statement": "`Obj::write_to_file` may succeed, fail, or be interrupted by the death of the process at any point. In every case every other file, and every path to it, is as before; the target holds the whole text after a success, and otherwise is as it was, or holds a first part of the text, or is not valid UTF-8. An error is an `IoError`. If the target then can be read, the result has exactly the parent and the fields whose lines are complete, and at most one more field, which has the name of the next field and its right value if that is a string, array, tuple or object. A number or keyword at the cut may be read as another value without notice.", "quantifier": "all objects with checked types and proper names, file systems, paths, outcomes of the system calls and crash points (any number of bytes written)", "why_tests_cant": "All crash points of all writes of all objects.", "anchors": ["src/util.rs: write_file_str", "src/obj.rs: write_to_file, from_file", "src/parse/format.rs", "src/parse/char_stream.rs: from_file"]}
{"id": "C61", "title": "Conversions and comparisons with native values", "statement": "For every Rust value x that can be converted to a `Value` (bool, the nine machine integer types, BigInt, BigRational, String, &str, Arr, Tup, Obj): `v == x` is `v == Value::from(x)`, gives the same as `x == v`, and `Value::from(x) == x`; the getter of its variant returns x from `Value::from(x)`, and its type is the type of x; `v == x` holds exactly when `v` has the same contents as x. An `Int` never equals a rational and a `Frac` never equals an integer, even if they are the same number.", "quantifier": "all values and all native values (machine integers in their ranges)", "why_tests_cant": "All values and natives, at unbounded sizes and depths.", "anchors": ["src/value.rs: impl_eq, impl_eq_int, impl_from"]}
{"id": "C62", "title": "Equality of errors", "statement": "Two `OverError`s are equal exactly when they have the same variant, names, indices and messages, and types with a common refinement. It is reflexive and symmetric but not transitive (although `Eq` is implemented), and equal errors can have different messages; when no `Any` occurs in their types, equal errors are identical, and (other than parse and io errors) two errors are equal exactly when they have the same message.", "quantifier": "all pairs of errors, with types of any depth", "why_tests_cant": "All pairs of errors and types.", "anchors": ["src/error.rs: OverError", "src/types.rs: PartialEq for Type"]}
{"id": "C63", "title": "When the macros panic", "statement": "`arr!` panics exactly when two of its elements have unequal types, and otherwise gives the array of the converted elements with their least common type; `tup!` never panics; `obj!` panics exactly when the last `^` entry is not an object or some other field name is not accepted, and otherwise gives what `try_obj!` gives; `frac!(a, b)` panics exactly when b is 0 and otherwise is the quotient; `int!` keeps the number.", "quantifier": "all lists of elements and entries, all integers", "why_tests_cant": "All lists of elements.", "anchors": ["src/macros.rs"]}
{"id": "C64", "title": "Names do not matter", "statement": "Giving the fields and globals of a document that includes no files other names (different names stay different, reserved words keep their meaning) gives the same outcome from `Obj::from_str` up to the names: the same object with the same ids whose fields have the new names at every level, or an error that reports the same thing up to the names. Renaming globals only never changes the object at all, also when the document includes files, whatever the globals of those files are called. The same holds of `Obj::from_file` when the names are changed in the file.", "quantifier": "all documents, all texts of them, all injective renamings, all file systems and states of the id counter", "why_tests_cant": "All documents and renamings.", "anchors": ["src/parse/parser.rs: parse_obj_file, parse_field_value_pair, parse_variable", "src/parse/util.rs: is_reserved"]}
{"id": "C65", "title": "Names can be replaced by their definitions", "statement": "If a document comes from another one by replacing some uses of a field (after its definition, in the same object) or of a top-level global (after its definition, anywhere) by the expression it was defined with — where the expression stands alone or is a single operand, so that precedence is respected — and does not nest too deeply, `Obj::from_str` ends alike on both texts: equal objects that are written and displayed alike, or errors that report the same. A replacement that is accepted means the original is accepted. The same holds of `Obj::from_file` when the replacement is made in the file.", "quantifier": "all pairs of documents related by replacements, all their texts, all file systems (the definitions may contain includes), all states of the process", "why_tests_cant": "referential transparency over all documents, definitions and places of use", "anchors": ["src/parse/parser.rs: parse_variable, parse_value, parse_field_value_pair", "src/parse/parser.rs: globals, included files cache"]}
{"id": "C66", "title": "Unused globals can be left out", "statement": "The definition `@g: e` of a global (e without includes and without definitions of globals) that is not mentioned further on can be left out of an accepted text: the text without it is accepted and gives an equal object; conversely it can be added where it can be evaluated. Hence a global is an abbreviation: all its uses can be replaced by its definition and the definition left out. The same holds of `Obj::from_file` when the file is edited in this way.", "quantifier": "all documents, positions of the definition, expressions, texts, file systems and states of the process", "why_tests_cant": "quantifies over all documents and positions", "anchors": ["src/parse/parser.rs: parse_field_value_pair (globals)", "src/parse/parser.rs: parse_variable"]}
{"id": "C67", "title": "Reference counts", "statement": "Whatever any number of threads do with values in any interleaving (make containers, clone, read, send to each other, drop): `num_references` of a container that somebody owns is exactly the number of its owned handles plus the number of elements, fields and parents of existing containers that refer to it, plus handles in the middle of being dropped; nothing reachable from an owned value has been deallocated; a container that nobody can reach any more is deallocated, so that when nothing is owned nothing remains allocated; and dropping always ends. In terms of values: the number of references of a container is the number of times it occurs directly among the owned values plus the number of times it occurs directly in the different containers inside them.", "quantifier": "all interleavings of all threads building, cloning, reading, sending and dropping values; all addresses the allocator may choose", "why_tests_cant": "all histories and interleavings", "anchors": ["src/arr.rs, src/tup.rs, src/obj.rs: ReferenceType::num_references", "src/arr.rs: Arr(Arc<ArrInner>)", "src/obj.rs: ObjInner"]}
{"id": "C68", "title": "Values are immutable and `ptr_eq` is identity", "statement": "A value owned by a thread is one finite value (its type, ids, elements, fields and parents), and it stays that value as long as somebody owns it, whatever the other threads do, although addresses are used again. `ptr_eq` of two owned containers is true exactly when their ids are equal, and then they are the same value. New containers are the values that the constructors return for the values put in, and `get`, `get_with_source` by index or name read exactly those.", "quantifier": "all interleavings of all threads, all owned values, all addresses the allocator may choose", "why_tests_cant": "all histories and interleavings", "anchors": ["src/arr.rs, src/tup.rs, src/obj.rs: ptr_eq, id, get", "src/obj.rs: Obj::get_with_source"]}
{"id": "C69", "title": "A displayed value can be pasted anywhere", "statement": "The text of `to_string()` of a Value, Arr, Tup or Obj, pasted as the value of a new field at any place of a document (any number of objects deep, after any definitions), gives the field an equal value with the same data, exactly when the names in the value are ones the parser accepts, its arrays carry their computed types, and the objects around the place plus the nesting of the value are at most 63; when only the depth does not fit, the document is rejected with the depth error. Values displayed alike are equal.", "quantifier": "all values, all places in all documents that are read (with any includes), all file systems and process states, any text after it (for the rejection)", "why_tests_cant": "ranges over all values and all surrounding documents; a test pastes a few literals at the top level", "anchors": ["src/parse/format.rs: Format for Value/Arr/Tup/Obj/String/BigRational", "src/value.rs: Display for Value", "src/arr.rs, src/tup.rs, src/obj.rs: Display", "src/parse/parser.rs: parse_value, MAX_DEPTH"]}
{"id": "C70", "title": "Closed texts mean the same everywhere; an include can be replaced by the file's text", "statement": "A value text that names and defines no global, includes no file and uses no field of the enclosing object has one outcome, a value or an error: at every place of every document, with every file system and process state, it gives a new field that value (same data, new containers) or is rejected with that error; only where the objects around the place plus its brackets exceed 63 it is rejected with the depth error. Consequently the first include of a file as Obj, Arr or Tup whose text is closed in this sense can be replaced by that text between the corresponding brackets and vice versa: the field is read with the same data, the inlined text being subject to the depth limit of the place while the file starts anew.", "quantifier": "all closed value texts and files, all places in all documents, all file systems and process states", "why_tests_cant": "relates two arbitrary documents around an arbitrary text; a test compares a few literals at a few places", "anchors": ["src/parse/parser.rs: parse_value, parse_variable, parse_obj, parse_arr, parse_tup, parse_include", "src/parse/parser.rs: parse_obj_file_includes, parse_arr_file, parse_tup_file"]}
{"id": "C71", "title": "The character stream is memory safe and all its handles are one stream", "statement": "However streams are opened and their handles cloned, used and dropped, an operation on a handle never panics on a RefCell borrow and never reads freed memory, reads past the end of the text or makes an invalid char (although `unsafe` code has given the Chars of the stream a 'static lifetime); peek and next give the character of the text after those already read through any of the handles, line and col say where it stands, file is the name of the file; and when the last handle is gone everything is freed.", "quantifier": "every history of opening, cloning, using and dropping streams (any texts, any addresses, any interleaving of several streams), every operation", "why_tests_cant": "memory errors show only for some histories and allocators, and a test covers some histories and some texts; the lifetime is not checked by the compiler", "anchors": ["src/parse/char_stream.rs: CharStream::from_string_impl, CharStream::peek, CharStream::next, CharStream::line, CharStream::col, CharStream::file, CharStream::set_line, CharStream::set_col, Inner"]}
{"id": "C72", "title": "A parse sees a snapshot of the files", "statement": "Files that are included can be rewritten or made unreadable at any moment while a document is parsed (directories and links staying as they are): the result of from_str and from_file is what a parse of an unchanging snapshot gives, in which every file is, as a whole, what it was at some moment; the document itself is what it was when it was opened. In particular a file that is included several times has the same value each time, and there is no panic and no endless parse. (If a file is removed while it is parsed, an include in it makes the parse panic.)", "quantifier": "every document, every initial file system, every sequence of changes of the contents of files during the parse", "why_tests_cant": "the outcome depends on the moment at which other processes write; a test cannot go through all interleavings of writes with the reads of a parse", "anchors": ["src/parse/parser.rs: parse_include, parse_obj_file, parse_obj_file_includes, IncludedMap", "src/parse/char_stream.rs: CharStream::from_file"]}
{"id": "C73", "title": "Everything a program can build is well formed", "statement": "Whatever calls of the public interface a program makes, in whatever order (constructors, conversions, macros, getters, iterators, from_str, from_file, and the two _unchecked constructors when their documented preconditions hold), while other threads do the same: every array it gets hold of has exactly the type of its elements as inner type and every tuple its elements' types, every field name is accepted by is_valid_field, two containers with the same id are the same container, ids in use are not given out again, a container is newer than everything in it (so no value is cyclic). Hence == on what a program has is equality of data, in particular transitive, and objects that are == (or ptr_eq) are written alike.", "quantifier": "every finite history of API calls from an empty program, every file system and behaviour of other threads", "why_tests_cant": "histories of calls are unbounded; a test follows a few of them", "anchors": ["src/arr.rs: Arr", "src/tup.rs: Tup", "src/obj.rs: Obj", "src/value.rs: Value", "src/macros.rs", "src/lib.rs: gen_id"]}
{"id": "C74", "title": "How calls fail", "statement": "from_str returns an object or OverError::ParseError with the parser's message and never panics; from_file likewise unless the canonical path is not UTF-8; a file that cannot be read is a ParseError (not IoError) whose message is the operating system's; a file that cannot be written is an IoError; Arr::from_values fails only with ArrTypeMismatch, get only with ArrOutOfBounds / TupOutOfBounds of that index, from_pairs only with InvalidFieldName, try_obj! with that or a TypeMismatch for the parent, the getters of Value only with TypeMismatch of the wanted and the actual type, and the getters of Obj with FieldNotFound exactly when neither the object nor a parent has the field.", "quantifier": "every call with every argument, file system and behaviour of other threads", "why_tests_cant": "which error variants are impossible is a statement about all inputs", "anchors": ["src/error.rs: OverError, From<ParseError>", "src/parse/error.rs: From<io::Error>", "src/obj.rs: Obj::from_str, Obj::from_file, Obj::write_to_file, get_fn", "src/value.rs: get_fn", "src/arr.rs: Arr::get, Arr::from_values", "src/tup.rs: Tup::get"]}
{"id": "C75", "title": "Includes are relative to the including file", "statement": "When a file includes a relative path, the file that is looked up is the one at this path in the directory of the including file: for a file written dir/name it is dir/path; for a path written in any other way (doubled slashes, '.') it has the steps of the including file's path but the last, followed by the steps of the included path, and begins at the root exactly if the including file's path does. No other place is searched: if there is no file there, the reading fails with the invalid-include error even if such a file exists in the working directory. An absolute path is looked up as it is. from_str looks in the working directory.", "quantifier": "every file system, every path to the including file, every included path and every text of definitions before the include", "why_tests_cant": "paths can be written in infinitely many ways, and the lookup has to be right for each in every file system", "anchors": ["src/parse/parser.rs: parse_include", "README.md"]}
{"id": "C76", "title": "A project can be moved", "statement": "Let a project be a file system whose files all lie in one directory (given by a relative path). If the directory with its files is copied to another place, where there may be any other files, then reading a file of the project there gives the same object (with the same ids), or the same error with the same message and position in the corresponding file, unless the error was that an included file is missing. If everything (also outside of the directory) looks the same from two directories, then the readings are the same in every case, also for missing files; so it makes no difference by which path (for example through a symbolic link) the directory is reached. The same holds for from_str in working directories with the same files.", "quantifier": "every pair of file systems and directories, every file and text, every behaviour of other threads", "why_tests_cant": "it compares the runs on all pairs of file systems, with includes whose paths are computed while reading", "anchors": ["src/parse/parser.rs: parse_include", "src/parse/parser.rs: ParseState, included", "src/obj.rs: Obj::from_file, Obj::from_str"]}
{"id": "C77", "title": "Independent definitions can be reordered, unused ones left out", "statement": "If two neighbouring definitions of a document do not use what the other one defines (a field, a global, the parent), define no globals inside and do not both include files, they can be exchanged, any number of times: when the document is accepted, so is the rearranged one, and the two objects differ only in the order of their fields; get returns equal values for every name. The definition of a field that is not mentioned further on can be left out, which gives the same object without this field; the parent can be left out, which gives the same object without a parent (if the definition left out defines no globals inside and does not include files, or no file is included further on). All of this holds for from_str and for from_file.", "quantifier": "every document and every rearrangement of it, every spelling, file system, state of the process and behaviour of other threads", "why_tests_cant": "it relates the runs on all pairs of texts, with arbitrary expressions in the exchanged definitions and arbitrary definitions before and after them", "anchors": ["src/parse/parser.rs: parse_field_value_pair, get_value", "src/obj.rs: Obj::from_str, Obj::from_file, Obj::get"]}
{"id": "C78", "title": "A whole project can be laid out anew", "statement": "When whitespace and comments are changed in a text and in any of the files that it includes, directly or through other files - or when these files are spelled in another way that denotes the same definitions - then reading it gives the same object (with the same identities) and leaves the process in the same state, or fails in both cases; and a well-formed text that is rejected is rejected for the same reason in the same file. The exception are files whose bare text is included with `Str`, which have to stay as they are. The same holds for `Obj::from_file`.", "quantifier": "all file systems, all texts, all ways to lay out or respell any number of their files, all states of the process", "why_tests_cant": "the files, the graph of their includes and the changes to each file are unbounded; a test reformats one project in one way", "anchors": ["src/parse/parser.rs: parse_include, parse_obj_file_includes, parse_arr_file, parse_tup_file, find_char", "src/parse/char_stream.rs", "src/obj.rs: from_str, from_file"]}
{"id": "C79", "title": "The nesting of the parser's calls is bounded", "statement": "Parsing a text (or a file) never nests the recursive calls that parse a value deeper than 65*(k+2) for the text and 65*(k+2) for each file there is, where k is the length of the longest chain of unary signs and dots (as in --a.b.c) anywhere in the text and the files: the stack needed does not depend on the length of the text, the number of fields, elements, operators or comments. Within one dotted path on objects the path parser calls itself at most once per dot. The dependence on k is real: the depth limit of 64 does not count against chains of signs, and n signs nest the calls more than n deep, so a text of signs alone can use up any stack.", "quantifier": "every text, every file system (with include cycles, diamonds and chains), every bound k on the sign-and-dot chains in them, every state of the process; for the last part every n", "why_tests_cant": "Stack use is a supremum over all texts and include graphs; a test sees the stack of one run, and a stack overflow aborts the process instead of returning an error.", "anchors": ["src/parse/parser.rs: parse_value, parse_unary_op, parse_variable, parse_obj, parse_arr, parse_tup, parse_include, MAX_DEPTH", "src/obj.rs: Obj::from_file, FromStr for Obj"]}
{"id": "C80", "title": "Reading creates few containers, but a short text can denote a huge value", "statement": "Parsing a text takes at most one id from the process-wide counter per character of the text, per character of a readable file and per file, plus five (from a file: plus four): however often a variable is used or a file is included, containers are shared and not copied, so the object returned is made of at most that many different containers, whatever other threads do meanwhile. Strings and integers are not shared that way: for every n there is a text of length at most 2*(n+2)^2+3 whose object holds a string of 2^n characters, and one whose object holds the integer 2^(2^n).", "quantifier": "every text, every file system (diamonds of includes, cycles), every state of the process and every interference of other threads; for the last part every n", "why_tests_cant": "The number of containers is a bound over all texts and include graphs; the growth is a statement about all n, and the texts that show it cannot be run for large n because the value does not fit into memory.", "anchors": ["src/parse/parser.rs: parse_obj, parse_arr, parse_tup, binary_op_on_values, parse_include_file, FileSet", "src/util.rs: gen_id", "src/obj.rs: Obj::from_file, FromStr for Obj", "src/arr.rs: Arr", "src/tup.rs: Tup"]}
{"id": "C81", "title": "Every history of calls runs in reference-counted memory", "statement": "Start a process and let a program make any calls (constructors, macros, getters, iterators, from_str, from_file, in any order, while other threads do anything) and drop values at any time. Every such history is an execution of the reference-counted memory: each call, from any memory the history can have led to, only makes further references to containers that are there and new containers with new ids (no container is copied or changed), and each drop frees exactly what nothing refers to any more. So at every moment, when no drop is in progress, num_references of a container equals the number of values the program holds that are this container, plus the number of elements, fields and parents of live containers that are this container, plus one for the static of a keyword (Obj, Str, Arr, Tup) whose object it is: parsing, include caches and globals leave no references behind. ptr_eq of two containers the program can get at holds exactly when their ids are equal, and then they are one allocation.", "quantifier": "every history of calls and drops of any length with any arguments, file systems and interference, every memory that the history can have led to, every container that can be reached", "why_tests_cant": "Reference counts depend on everything that was built, parsed, included, copied and dropped before; a test sees the counts of one history.", "anchors": ["src/lib.rs: ReferenceType, gen_id", "src/arr.rs: Arr, num_references, ptr_eq", "src/tup.rs: Tup, num_references, ptr_eq", "src/obj.rs: Obj, num_references, ptr_eq, from_file, from_str, get, get_with_source, get_parent", "src/value.rs: Value", "src/parse/parser.rs: OBJ_SENTINEL, parse_obj_file, parse_include_file"]}
{"id": "C82", "title": "The exact lines of written text", "statement": "write_to_string prints exactly these lines, each ended by a newline: the parent's (introduced by '^: ') and then each field's in the object's order (introduced by the name, a colon and a space); Display of a value prints the value's lines with newlines between them. A scalar is one line; an empty container is its two brackets; a container of one element hugs it with its brackets; any other container is its opening bracket, the lines of its contents four spaces to the right, and its closing bracket on a line of its own. Hence the text of a field does not depend on the other fields or the parent (changing one field's value changes its lines and nothing before or after them), and an object nested in another is printed as it would be on its own, four spaces to the right and in braces. For every value a program can get by parsing and building, each line is a multiple of four spaces followed by something that neither begins nor ends in a space, and there are no blank lines, tabs or carriage returns.", "quantifier": "every value and object of any nesting, length and strings; for tidiness, every object whose field names from_pairs accepts, hence every value of every history of calls", "why_tests_cant": "The indentation is a counter threaded through recursive calls and decremented at the closing brackets; tests see it for a few nestings. Round trips do not see layout at all.", "anchors": ["src/parse/format.rs: Format, indent, replace_all, get_char_map", "src/lib.rs: INDENT_STEP", "src/obj.rs: write_to_string, Display", "src/value.rs: Display", "src/arr.rs: Display", "src/tup.rs: Display"]}
{"id": "C83", "title": "Independent definitions can be reordered at every level and in every file of a project", "statement": "Exchanging neighbouring definitions that are independent of each other (neither uses what the other one defines, neither defines globals inside, not both include files) is harmless not only at the top of the document but inside any object in it, at any depth, in containers, operands, parents and include expressions, any number of times, and at the same time in any of the files that the document includes, directly or indirectly: one text (or file of the project) is accepted before exactly when it is accepted after, and the objects are equal but for the order of fields, at every level; get answers alike for every name. The only files that must be left alone are those included as bare text with <Str ...>. Holds for from_str and from_file.", "quantifier": "every document, every set of files, every rearrangement at any level, every spelling, state of the process and behaviour of other threads", "why_tests_cant": "it relates the runs on all pairs of texts and pairs of file systems, with exchanges at arbitrary depth", "anchors": ["src/parse/parser.rs: parse_obj, parse_field_value_pair, parse_include, get_value", "src/obj.rs: Obj::from_str, Obj::from_file, Obj::get"]}
{"id": "C84", "title": "No file is both an object and a list of values", "statement": "If a file can be included with <Arr ...> or <Tup ...> and its text is also accepted as an object (by from_file, or by from_str with any surrounding files), then there is nothing in it: the object has no field and no parent, and the array or tuple has no element. So a file with a definition is always rejected as a list, and a file with a value is always rejected as an object.", "quantifier": "every file text, every place of the include in a document, every set of files and state of the process", "why_tests_cant": "it excludes that any text, with arbitrary comments, layout and expressions, is read in both ways", "anchors": ["src/parse/parser.rs: parse_obj_file, parse_arr_file, parse_tup_file, parse_include", "src/obj.rs: Obj::from_str, Obj::from_file"]}
{"id": "C85", "title": "The usual laws of arithmetic and concatenation hold in documents", "statement": "At any place of a document, formulas over fields obey the laws a reader expects. a+b+c and a+(b+c) (the latter written with an auxiliary field, as Over has no grouping brackets) agree for numbers, strings and arrays; a-b-c and a-(b+c), a*b*c and a*(b*c), a/b/c and a/(b*c), a*b+a*c and a*(b+c), a-b and a+(-b), a*b and b*a agree; a+b is accepted exactly when b+a is, and for numbers they agree; a sum or product of any number of numbers has one value, the same in every order. Agreeing means: both are accepted or both are rejected, and the values have the same data (including whether the number is an Int or a Frac, and the element type of an array).", "quantifier": "every place at every nesting depth, every set of files, all fields with all values they can hold (of every type, so also the rejected combinations), every number of summands and every permutation of them", "why_tests_cant": "each law ranges over all pairs and triples of values, including mixed Int/Frac, arrays of all types and the combinations that must be rejected on both sides", "anchors": ["src/parse/parser.rs: parse_value, binary_op_on_values, unary_op_on_value", "src/types.rs: Type::most_specific", "src/obj.rs: Obj::from_str"]}
{"id": "C86", "title": "The type of a formula follows from the types of its operands", "statement": "A formula of fields (a chain such as a+b*c-d, of any length, with the usual precedence) has at most one type, computed by rules that look at the types of the operands only: Int with Int gives Int for + - * %, a Frac among the two gives Frac for + - *, a quotient of numbers is always a Frac, Str+Str is Str, Arr(S)+Arr(T) is Arr of the most specific type fitting both, and everything else has no type. If the formula has a type, the definition is accepted with a value of exactly this type, unless some divisor is 0, and then it is rejected with InvalidNumeric, alone and whatever follows. If it has no type it is rejected, and the error names an operator of the formula and the types of two operands of it that do not fit, unless a division by zero came first. Hence operand values never matter to acceptance or type, only to division by zero: formulas with the same operators over operands of the same types, anywhere in any two documents, are accepted with the same type or fail by division by zero.", "quantifier": "every well-formed place in every document, every chain of fields of any length and values, every continuation", "why_tests_cant": "The evaluator decides by matching on pairs of values, in three different functions and with two levels of precedence and an early exit; a test sees one combination of values, types and operators of one length.", "anchors": ["src/parse/parser.rs: parse_value, binary_op_on_values", "src/types.rs: most_specific", "src/parse/error.rs: BinaryOperatorError, InvalidNumeric"]}
{"id": "C87", "title": "A project is put together from one value per file", "statement": "When a text or a file is read successfully, there is one table that gives each file one value, such that the value of a file is its text, or the object, array or tuple that its text says, and wherever an include with a literal path stands, in the text that was read or in any file of the project, as a field, an element or a parent, at whatever depth, the value that the table gives to the included file stands at that place. So two includes of one file, in whatever files they are written, by whatever paths and under whatever keywords, hold the same instance.", "quantifier": "all file systems, texts, process states and interleavings of other threads; for the corollary, all file systems in which the file an include leads to does not depend on the path by which the including file was opened, and all pairs of places in all files of the project", "why_tests_cant": "The number of files, the depth of their nesting, and the order in which their includes are reached are unbounded; a test fixes one project.", "anchors": ["src/parse/parser.rs: parse_include", "src/parse/parser.rs: parse_obj_file_includes", "src/parse/parser.rs: parse_arr_file", "src/parse/parser.rs: parse_tup_file", "src/parse/parser.rs: parse_str_file"]}
{"id": "C88", "title": "Editing literals changes values only", "statement": "Replace string and fraction literals of a text (fractions also by negated ones), wherever they stand, by other literals of the same type, and leave the paths of includes, which are literals, as they are. Then reading gives the same outcome: either two objects that are the same, with the same ids, field names, parents, types, null and boolean and integer values, but for the values of strings and fractions; or two errors that report the same thing; or, if / or % occur, in one of the two readings there is a division by zero. If / and % do not occur, the edited text is accepted if and only if the original one is. Integer literals may be replaced as well, if everything that follows a dot is a number or a name that is not defined before in the same object; then the values of integers may differ too. The same holds for reading a file whose text is edited so; and for a whole project in all files of which literals are edited, if all of its texts keep to these rules.", "quantifier": "all documents and edits of them of any size, all spellings of both, all file systems and edits of any number of their files, process states and interleavings of other threads", "why_tests_cant": "A test edits particular literals in particular documents; the claim needs that no branch of the evaluation, at any depth, in includes, operators, inheritance and type checks, looks at a string or a fraction, other than to refuse a division by zero.", "anchors": ["src/parse/parser.rs: parse_value", "src/parse/parser.rs: parse_numeric", "src/parse/parser.rs: parse_str", "src/parse/parser.rs: parse_variable", "src/parse/parser.rs: binary_op_on_values", "src/parse/parser.rs: unary_op_on_value"]}
{"id": "C89", "title": "A closed part can be replaced by another one with the same value", "statement": "Take two value texts that name and define no global, include no file, use no field of an enclosing object and none of the words Obj, Str, Arr, Tup, and that on their own are read as equal values, as [1 2] and [1] + [2], or 6 and 2 * 3. Wherever one of them stands as a whole value or a whole operand in a document (as the value of a field or global, in an array, tuple or inner object, in an operator chain, in the path of an include, under a sign), it can be replaced by the other, any number of such replacements at once: if neither document nests deeper than 63 levels of brackets, either both are accepted, with equal objects that are written alike, or both are rejected with errors that report the same thing. The same holds for a file whose text is changed so. And it holds for a whole project, in the text and in all files of which closed parts are replaced so, if only files that stay the same are included as Str (and a kind of include is written as a bare word).", "quantifier": "all documents and all replacements of closed parts of them and of the files they include, all spellings of both, all file systems and process states", "why_tests_cant": "A test compares a few pairs of literals in a few contexts; the claim is that evaluation is compositional for every context: no operator, include, type check or later use distinguishes equal values by how they were computed.", "anchors": ["src/parse/parser.rs: parse_value", "src/parse/parser.rs: parse_value_bounded", "src/parse/parser.rs: parse_arr", "src/parse/parser.rs: parse_obj", "src/parse/parser.rs: parse_include", "src/parse/parser.rs: binary_op_on_values"]}
{"id": "C90", "title": "A closed part can be replaced by what is displayed for its value", "statement": "Take a value text that names and defines no global, includes no file, uses no field of an enclosing object and none of the words Obj, Str, Arr, Tup, and let v be the value that it is read as on its own, nested at most 63 deep. The text displayed for v is again such a text, with an equal value. So wherever the first text stands as a whole value in a document it can be replaced by the displayed one (and where it stands as an operand, if a single operand is displayed), any number of such replacements at once: as long as neither document nests deeper than 63 levels of brackets, either both are accepted, with equal objects that are written alike, or both are rejected with errors that report the same thing. The same holds for a file whose text is changed so. And it holds for a whole project, in the text and in all files of which closed parts are replaced so, if only files that stay the same are included as Str (and a kind of include is written as a bare word).", "quantifier": "all documents and all replacements of closed parts of them by their displayed values, all spellings, all file systems and process states", "why_tests_cant": "Joins display, parsing and evaluation for every value a part can have and for every context the part can stand in; a test tries a few values in a few contexts.", "anchors": ["src/value.rs: Display for Value", "src/parse/format.rs: format", "src/parse/parser.rs: parse_value", "src/parse/parser.rs: parse_value_bounded", "src/parse/parser.rs: parse_include", "src/parse/parser.rs: binary_op_on_values"]}
