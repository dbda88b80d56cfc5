# DESIGN — a Lean 4 model of m-cat/over

`/verif/lean` is a Lake project. `Verif/Model` is the model of the code, `Verif/Spec` the specifications that theorems are
stated with, `Verif/Props` the theorems (prefix `cNN_` = property `CNN` of `properties.jsonl`) each followed by a concrete
case that meets its hypotheses, `Verif/Lemmas` the proofs in between. Nobody has to read `Lemmas` to know what is claimed.

## 1. What is modelled

Everything in `/repo/src` except what is listed in §2, function by function, as total computable Lean functions; every
definition cites the file and lines it models.

| Rust | Lean | how |
|---|---|---|
| `types.rs` | `Model/Types` | inductive `Ty`; `is`, `eq`, `has_any`, `most_specific`, `Display` |
| `value.rs`, `arr.rs`, `tup.rs`, `obj.rs`, `macros.rs`, `error.rs` | `Model/Value` | mutual inductive `Value`/`Pair`/`Obj`. `BigInt` = `Int`, `BigRational` = `Rat` (normalised), `String` = `List Char`. The `Arc` of a container = its `id` and its contents (C68: this is all there is to it); constructors take the id that `gen_id` returns |
| `impl_eq!`, `impl_from!`, `PartialEq for OverError`, `arr!`, `tup!`, `obj!`, `int!`, `frac!` | `Model/Convert` | one inductive type `Native` for the convertible Rust types; `none` is the panic of a macro |
| `parse/char_stream.rs` | `Model/Stream` | remaining characters, line, column (the `Rc<RefCell>` aliases are one threaded value: C71 proves this) |
| `parse/char_stream.rs` in memory | `Model/CharStream` | the `Rc` with its count, the borrow flag of the `RefCell`, the bytes of `contents`, the `Chars` that points into them (with the decoder of the standard library), the `Peekable`; outcomes `panic` and `undefined` |
| `parse/error.rs`, `parse/mod.rs`, `OverError` | `Model/Error` | all error kinds with their data and their `Display` text |
| `parse/format.rs`, `Display` impls | `Model/Format` | `Option`-valued: `none` is the `usize` underflow panic |
| `parse/parser.rs` (character loops), `parse/util.rs` | `Model/Lexer` | result, error or panic |
| `parse/parser.rs` | `Model/Parser` | state-passing; a run ends with `ok`, `err`, `panic` (`unwrap`, assertion, underflow, "Logic error") or `oof` (the recursion bound of the model is used up: C23 proves that this never happens) |
| `Path::parent`, `Path::join` as used at `parse/parser.rs:1095-1098` | `Model/Paths` | the computations of `std::path` on Unix, on characters |
| `util.rs`, `Obj::write_to_file` | `Model/Files` | `read` in `FS`; writing as a relation between file systems: one case for every way in which the call can end, including death of the process after any number of bytes |
| `lib.rs: gen_id`, the `lazy_static` sentinels, threads | `Model/Ids`, and `Rt` in `Model/Parser` | see "Concurrency" |
| `from_str`, `from_file` as calls, iterators, defaults, programs that use the interface | `Model/Api` | `Outcome` (a `Result` or a panic); `Session`: the process-wide state and the values in hand; one step per call |
| the `Arc`s in `arr.rs`, `tup.rs`, `obj.rs`: `clone`, `drop`, `num_references`, `ptr_eq` | `Model/Refs` | allocations with address, count and contents; threads that allocate, clone, send and drop in any interleaving. C68 connects it with `Model/Value` |

**Recursion.** `parse_value` is the only knot of the recursion: the other functions take it as a parameter, `parseValue (n+1)`
is the body with `parseValue n` inside. So the fuel is the allowed nesting of `parse_value` calls; loops run on a bound
computed from the remaining input. `fromStr`/`fromFile` compute the fuel from the sizes of text and files; C23 proves that
no bound is ever reached and that the result is the same with any larger bound.

**Panics.** Every place where the Rust code can panic (`unwrap`, `assert!`, indexing, `usize` subtraction, explicit panics)
is an explicit `panic` outcome of the model. C24 and C20 prove that they are unreachable (or, C24_can_panic, that one is not).

**File system.** A parameter `FS`: finitely many regular files keyed by canonical path, an arbitrary function from paths to
canonical paths (so aliases, `..`, symbolic links; only the empty path and the root, which have no parent, lead to no file), arbitrary
read errors, arbitrary canonical paths that are not UTF-8. All theorems quantify over it. It does not change during a parse, except in
`Model/World` (C72): there every access sees another one, and C72 reduces this to a snapshot, so that the other theorems apply.

**Unicode.** `char::is_alphabetic` outside ASCII is a parameter (class `Unicode`: any set disjoint from White_Space);
`char::is_whitespace` is modelled exactly.

**Concurrency.** A run of the parser can be interleaved with other threads of the process. The process-wide state is the id
counter and the four sentinel objects (`Shared`). The state `Rt` of a run contains a function `others` that says what the
other threads do to this state after each access of the run: anything that keeps `Shared.MovesOn` (the counter does not
decrease, sentinels that exist stay, new ones get new ids). So *every* theorem about `from_str`/`from_file` holds under
every interleaving with every behaviour of the other threads. `Model/Ids` models the threads themselves (atomic
`fetch_add`, the phases of `lazy_static`), and C46 proves that whatever they do is a `MovesOn`, and that the steps of a run
are steps of such an execution.

## 2. What is not modelled

* `tests.rs`, `tests/`, `examples`, `fuzz`: not part of the library.
* Memory: allocation failure, the abort of `Arc::clone` at `isize::MAX` references, stack overflow. Where recursion is bounded only by the input and not by
  `MAX_DEPTH` this matters: sign chains and dots (C25 says so).
* Wrap-around of the 64-bit id counter inside the parser: ids in `Model/Parser` are natural numbers. `Model/Ids` has the
  wrap-around; C46 shows uniqueness up to 2^64 ids and that it fails afterwards.
* `with_each` and `IntoIterator` are modelled as the list that `iter` yields (`Model/Api`).
* `Hash`-map iteration order: the parser never iterates over its maps.
* `Debug` formatting.
* What a stopped machine (as opposed to a dead process) leaves on its disk.
* Paths on Windows; paths that are no valid Unicode (`from_file` takes a `&str`).

## 3. Trusted base

* Lean 4.33.0's kernel. No axioms are added; there is no `sorry`, `native_decide` or `bv_decide`. The axioms of every theorem
  named in the manifest are listed in `AXIOMS.txt` (regenerate: `tools/axioms.sh`): all are among `propext`,
  `Classical.choice`, `Quot.sound`.
* That `Verif/Model` says what the Rust code does (read from the text; the code was neither built nor run).
* `num-bigint`/`num-rational` compute exact integers and normalised rationals, `%` on `BigInt` truncates, their `FromStr` and
  `Display` read and write base ten; `HashMap`, `HashSet`, `Vec`, `VecDeque`, `Arc` behave as maps, sets, sequences and shared
  pointers; `String` operations work on Unicode scalar values; `i128`/`u64` conversions of `BigInt` (`to_usize`, `to_i8` …)
  succeed exactly in range. `usize` is 64 bits. (C54 only) `{:?}` of `char` is injective: a hypothesis of the theorem.
* `std::path` on Unix: `Model/Paths` (`parent`, `join`) was written from its documented behaviour. Neither the empty path nor the root leads to a file.
* The operating system: `read` returns the same contents for one canonical path during one run; `FileHolds` and
  `WriteFileStr` (Model/Files) describe what `File::create` + `write_all` may do, `readBytes` what `read_to_string` makes of the bytes.
* `AtomicUsize::fetch_add` with `Ordering::Relaxed` on one variable is atomic with a total modification order (C++11 memory
  model), and so are the increments and decrements of one `Arc`'s count; `lazy_static` runs its initialiser once and publishes the result to all threads.

## 4. How statements are kept independent of the model

* Types: `Refines` (substituting `Any`), `Common` – `Spec/Types`.
* Values up to identity: `erase`/`SameUpToIds` – `Spec/Values`; well-typedness, names, nesting: `Spec/Values`, `Spec/Names`, `Spec/Nesting`.
* The language: `Spec/Syntax` defines document trees and an inductive relation "this text spells this tree" with all layout;
  `Spec/Eval` defines what a tree means (an evaluator without characters, positions or parser state). C44/C45/C49 show that the parser
  is exactly this evaluator on exactly these texts, and that the spelling is unambiguous.
* Operators: `Spec/Operators` has fully parenthesised trees and a table of operations.
* Positions: `Spec/Location` defines lines and columns of a text by counting newlines.
* Scope, dots, includes: statements about appending one more definition `y:e` to a text at a place at any nesting depth (`Spec/Scope`,
  `Spec/Place`: `ReadsAt`, `Denotes`, `FailsWith`), so they talk about `from_str` on texts only.
* Two texts of one file: `Spec/Edit` says what it means that a file gets another text. C42, C55–C57, C59, C64–C66 are about `from_str` on two texts and about `from_file` before and after an edit; both are proved at once (`Lemmas/Reads`).
* Identity: `Spec/Rename` renames ids in a value; `Spec/Identity` collects the containers of an object and their ids. Schedules: `Spec/Ids`. Memory: `Spec/Refs`.

## 5. Properties: what is proved and how

Every property is proved in full for the model (`MANIFEST.json` has the theorem names).

| | claim in one line | proof |
|---|---|---|
| C01–C04 | type equality = common refinement; `most_specific` = least upper bound, semilattice laws; `is` = identity | structural induction over types, `Refines` is a partial order |
| C05–C06 | `Arr::from_values` accepts exactly pairwise compatible vectors, order-independent, blames the first offender | fold invariant: running type = least common refinement |
| C07–C08, C10–C11 | indexing, tuple types, getters, comparison with machine integers | case analysis, induction over lists |
| C09, C14 | `==` = equality up to ids on well-typed values; object equality; counterexample for unchecked arrays | mutual structural induction |
| C12–C13, C15 | lookup along parents; field name validation; `try_obj!` | induction over the chain / the pairs |
| C16–C22 | writing is total, canonical, injective; read ∘ write = identity exactly up to 63 levels; files | write = a layout of a tree (`WriteData`), whose evaluation is the value (`WriteEval`), then C44 |
| C23–C24 | termination and absence of panics for all texts and file systems | invariant of the whole parser in a weakest-precondition calculus (`Wp`, `Safe`–`Safe4`), induction on fuel with a measure |
| C25 | depth limit, sharp, points at a bracket | levels of a tree vs. depth argument of the evaluator (`Depth`), C44 |
| C26–C27 | parsed arrays/tuples well typed; parsed names proper and distinct | consequences of the same invariant |
| C28–C31, C50 | precedence and associativity, exact arithmetic, division by zero, number and string literals | independent specification of readings, tables and literals; induction over the chain / digits |
| C32–C35 | variables, globals, parents, dots | evaluator at a place (`Nested`, `Continue`, `Place`) |
| C36–C38, C52 | cycles rejected, files loaded once, kind of includes, more files do no harm | invariants of the evaluator (`EvalInv`, `Cache`, `Carry`, `CarryCache`, `Acyclic`), simulation between file systems |
| C39–C41, C43, C53 | error positions and messages | invariant "the stream is a suffix of its file at the right position", then per error kind |
| C42 | layout is irrelevant | trees do not mention layout; explicit relation "same text up to gaps" shown to preserve spelling |
| C44–C45, C49 | the parser = the evaluator of the tree, nothing else accepted, unambiguous | simulation by induction over the spelling (`Sim`–`Sim4`), inversion of the parser (`Shape`, `Top`), unambiguity by induction on text length (`Unamb`) |
| C46 | ids under every schedule | invariant over executions of the thread model |
| C47 | identity and sharing | ghost registry of containers as an invariant of the evaluator |
| C48 | order of fields | from C44 |
| C54 | messages determine the error | displays of types are a prefix code; beginnings of messages are a prefix code; numbers split off from either end |
| C51 | the result does not depend on the process state | two runs of the parser related by a growing one-to-one renaming of ids (`TwoRuns`), function by function |
| C55–C57 | lines added after a text: errors stay, definitions stay, later errors name later lines | two runs of the parser, on a text and its continuation, related function by function until the first one ends (`Extend`–`Extend3`); lower bound on the lines of errors (`Lower`, `Lower2`); for `from_file` the old and the new file system differ in the text of the file being read, which no include can reach (it would be a cyclic include), `Spec/Edit.lean`, `Lemmas/Edit.lean` |
| C58 | `from_file` reads like `from_str` | the same relation, with another file name and nothing added |
| C59 | a text and a first part of it, both accepted | the trees of both (C45) share all complete definitions, by inversion of the spelling (`Cut`); evaluation is compositional |
| C60 | every outcome and crash point of `write_to_file` | cases of the write relation; a prefix of an UTF-8 encoding decodes to a prefix or not at all (`Bytes`); then C59's analysis on canonical texts (`Torn`) |
| C61–C63 | conversions, comparison with native values, equality of errors, panicking macros | case analysis on top of C01, C05, C09, C13, C15, C54 |
| C64 | names of fields and globals do not matter | equivariance: a relation `Renames` on evaluation actions, by mutual induction over document trees; then C44 |
| C65 | names can be replaced by their definitions | `InlDoc` relates documents; a simulation of the two evaluations up to ids (`Like`, `SimBy`), with "evaluating a definition again later gives the same" (`Again`), by mutual inductions; then C44, C51 and the depth theorem |
| C66 | unused globals can be left out | the same simulation, ignoring one global; both runs share the part before the definition |
| C67–C68 | reference counts, deallocation, immutability, `ptr_eq` | invariant over executions of the memory model: every count = handles + places + falling handles, contents have smaller ids; the meaning of a slot follows allocated cells only (`Refs`–`Refs3`) |
| C69 | a displayed value can be pasted anywhere | `format_spells` (what is displayed spells the tree of the value) and `redo_all` (evaluating that tree anywhere gives the data again or exceeds the depth), at a place (`field_at`); a place is inside at most 63 objects |
| C70 | closed texts mean the same everywhere; include = text of the file | `alike_*`: the evaluation of a closed tree in any two states, files, file systems and depths gives the same data or the same kind of error, or exceeds the depth (mutual induction on the tree); for files, `loadN` against the bracketed tree (`alike_load`), at the place of a first include (`first_include`) |
| C71 | `Model/CharStream`: executions of any number of streams and handles; invariant (flags unused, count = owned handles, bytes live, decoder in step with the text); `chars_next`: the decoder inverts `utf8EncodeChar` |
| C72 | `Model/World`: the same parser with a file system that is a function of the parser's state; `Snap`: the contents read so far (of files in the cache, on the stack or current) determine the run in every file system that has them; a file is read only if it is none of these (induction over the parser functions, then over the fuel) |
| C73 | `Model/Api`: one step per API call, histories of steps; invariant: a registry from ids to containers that has every container of every value in hand (`RegOk`, the tool of C47), well-typedness and valid names; kept by every call, for parses by C04/C13/C47 |
| C74 | case analysis of the entry points with C23, C24 for the outcomes that cannot happen; error variants by going through each function |
| C75 | the steps of `Path::parent` and `Path::join` by induction on the path; the include evaluated with C41-C45. `Spec/Paths` says what the steps of a path are |
| C76 | two runs step by step (as C65, C70), with related names of files, caches and stacks of open files; for paths: what `parent` and `join` do below a directory, by cases of how the path is written |
| C77 | one simulation of two runs with different fields and globals before them, for expressions that do not mention the differences; exchanging two definitions is this simulation twice, then once for the rest; order of fields as a permutation |
| C78 | `FS.Respelled`: same paths, each file unchanged or with a text that spells the same trees (`SpelledAlike`, implied by `RelaidDoc`); includes as `Str` only of unchanged files (`BareTextsKept`; for the tree-free corollary `PlainText`: every `<` is followed by `"`); the evaluator only uses the trees of files: equality of evaluations in good states by mutual induction over trees, with the bound on the nesting of includes shown irrelevant (`meaning_enough`); then C44/C45 for both file systems |
| C79 | `Spec/Stack.lean`: the length of the chain of signs and dots at a place (`chainLen`). `Lemmas/Stack.lean`, `Stack2.lean`: with room `filesLeft * 65(k+2) + (65-depth)(k+2)` the calls of `parseValue fs n` and `parseValue fs N` agree (every function of the parser; invariants: the rest is a suffix, the file being read is not among the opened ones). `Props/Stack.lean`: `c79_nesting`, `c79_nesting_file`, `c79_path_nesting` (self-recursion of `parse_variable`), `c79_signs_nest` (induction on the signs). The fuel counts nested calls of `parse_value`; between two of them there is a constant number of Rust frames, plus those of `parse_variable`, at most k. |
| C80 | `Lemmas/Alloc.lean`: a potential (`bill`: ids taken + keywords not yet used + characters left + sizes of the files not yet read, with 1 for each file) never grows, by the rules `Pays` for every function of the parser; every `gen_id` is paid for by a character read before it. `Props/Alloc.lean`: `c80_ids`, `c80_ids_file`; `c80_containers`, `c80_containers_file` (a run from a quiet process numbers its containers without gaps; C51 carries this over to any process, C47 from ids to containers); `c80_long_string`, `c80_large_integer` (induction on n with C29, C31, C50) |
| C81 | `Spec/Histories.lean`: histories with drops (`Lives`), the keyword statics, `InMemory` (a memory reached from the empty one in which the threads own exactly these values). `Lemmas/Realize.lean`: `layout`, from any memory, values whose old containers can be reached and whose other containers are new can be built by clones and allocations (induction on the id counter: the newest container occurs only at the top, its parts are built first); `Lemmas/Histories.lean`: what each call returns is made of known and new containers (`ApiStep.frame`, parses by the registry of C47 and `movesInv`). `Props/Histories.lean`: `c81_start`, `c81_call` (simulation), `c81_drop`, `c81_history`, `c81_alive`, `c81_num_references` (through C67), `c81_one_allocation`. This joins the value-level model (`Model/Api`) and the memory model (`Model/Refs`) |
| C82 | `Spec/Lines.lean`: the lines of a value (`Value.lines`, `Obj.inner`), without an indentation counter: contents are shifted four spaces as a block; `TidyLine`. `Lemmas/Lines.lean`: `format_lines`, the counter of the modelled writer produces those lines (induction on values: `format (n+4)` joins the lines at `n`); `Lemmas/TidyLines.lean`. `Props/Lines.lean`: `c82_written_lines`, `c82_display_lines`, `c82_display_containers`, `c82_fields_apart`, `c82_one_field`, `c82_nested`, `c82_tidy`, `c82_tidy_history`, `c82_tidy_display` |
| C83 | `Spec/ReorderDeep.lean`: `ReFields` (an exchange anywhere inside), `ReorderedDeep`, `EqualButOrder`, `FS.ReorderedTo`. `Lemmas/Deep.lean`, `Deep2.lean`: simulation of the runs on two related trees, with values related by a normal form that sorts fields; the exchange itself is C77's; `Deep3.lean` from normal forms to `EqualButOrder`; `Deep4.lean` two file systems; `Kinds.lean`: a text with definitions is no sequence of values; `Props/ReorderProject.lean`: the relation on projects and its side condition are symmetric, so acceptance is an equivalence |
| C84 | `Lemmas/Kinds.lean`: `fields_not_items`, no text spells both a document with a definition and a sequence of values: the first name is followed by a colon in one, by a dot, an operator, a gap or the end in the other; `Props/Kinds.lean` transports this to runs by C44/C45 |
| C85 | `Spec/Laws.lean`: `Gives` (a definition appended at a place), `GivesVia` (with an auxiliary field) and `Agree`; `Lemmas/Laws.lean` proves each law on values by inverting the table of operations (`Num` tracks number and Int/Frac; `ms_assoc` from C03 for array types), and `law_at` carries a law to every place; chains of any length by induction on the operands |
| C86 | `HasType` (Spec/Formulas.lean) types a formula from the types of its operands alone; `c86_one_type`, `c86_sound`, `c86_complete` (typed and no zero divisor: accepted with this type), `c86_zero` (typed and a zero divisor: InvalidNumeric, whatever follows), `c86_ill_typed` (no type: rejected, naming operands that do not fit), `c86_types_only` (two documents). By showing where the two-level evaluation of a chain stops (`chain_stuck`). |
| C87 | The table is the cache at the end of the evaluation of the document (`meaning`). `vok` carries, through the evaluator and by induction through the loader for files, that values in the cache stay and that each one added is the value of its file's text with the includes in it as the final cache says (`Lemmas/Linked.lean`); `Stands.value` (`Lemmas/Stands.lean`) follows a chain of includes through the table. Nothing is said about includes under operators or with computed paths. |
| C88 | `Field.editedL` (`Spec/Edited.lean`) relates two documents that differ in literals only; the evaluator maps related documents and related scopes to related values or the same failure (`AlikeM`, `Lemmas/Edited.lean`, by structural induction over terms, with what an include gives as a parameter: the same value when only the text is edited, alike values and alike caches, by induction on the nesting of includes, when files are edited, `FS.LiteralsEdited`). That integers following a dot and index names must stay, and that a divisor may become zero, is shown by runs (`c88_exceptions`). |
| C89 | `FoldDoc` (`Spec/Fold.lean`) relates two documents that differ in closed parts which, read alone (`x:e`), are equal objects. By structural induction over the relation (`Lemmas/Fold.lean`) their meanings agree up to container identity: at a swap both sides reduce to the value of the part on its own (C70's `Closed` lemmas, wherever it stands and with whatever process state), elsewhere the evaluator is a congruence for equal data. Both depths are bounded, since a replacement may nest deeper; names of include kinds are excluded, for `{}` and `Obj` are equal values that act differently in `<Obj …>` (shown by a run). For a project (`Spec/FoldFiles.lean`, `Lemmas/FoldFiles.lean`) the two loaders are related in the same way, by induction on their number, as in C78; a file included as `Str` has its text as value and so must stay. |
| C90 | `ShownAlone` (`Spec/Shown.lean`) relates a closed expression to the one spelled by the displayed text of its value. The displayed text spells the tree of the value (`format_spells`), which is closed and as deep as the value (`ast_literal`, by induction over values) and evaluates to equal data (`redo_all`, C69); so `ShownAlone` implies C89's `SameAlone`, and `FoldFields` is monotone in the relation. For a project it is C89 again (`Props/ShownFiles.lean`). |

## 6. Findings about the code (all of them proved or shown by an example in the Lean files)

* `Type`'s `==` is not transitive although `Eq` is implemented (C01); neither is `==` of values built with `from_values_unchecked` (C09).
* `OverError`'s `==` is not transitive either, and equal errors can have different messages (C62).
* `Obj`'s `==` depends on the order of fields, contrary to its documentation (C14).
* `Obj::is_valid_field` accepts the empty name, names starting with `^`, and reserved words (C13), so `from_pairs` can build objects that
  cannot be read back.
* `write_to_string` of an object nested deeper than 63 levels is rejected by the parser; documents can build such objects through variables (C18, C19).
* `from_file` panics when the canonical path of the file is not UTF-8 and it includes something (C24).
* A file that is removed (or whose path changes) while it is parsed makes the parse panic at its next include (C72).
* `@a: {@a: 1 …}` silently overwrites a global (C33). A global named `@^…` can be defined but never read.
* The include cache is keyed by path only: `<Str "f">` then `<Obj "f">` yields the string (C37); an earlier `<Str "g">` changes
  what the first include of another file that includes `g` yields (C38).
* Dots do not look into parents, contrary to the README (C35); plain variables look only into the directly enclosing object (C32); inside
  `obj.arr.idx` the name `idx` is looked up in `obj`; `t.0.1` reads `0.1` as a decimal and fails.
* Sign chains and dot chains recurse without the depth check (C25), so that enough signs overflow the stack (C79); a sign in front of a bracket uses up one level.
* `1 % 2.0` complains about `Frac` and `Frac`. An offending newline in a name or escape is reported at column 0 of the next line (C40).
* Messages about unreadable included files contain no line (C41). An unreadable file given to `from_file` is a `ParseError`, not an
  `IoError`, and its message does not name the file (C74).
* A short text can denote an exponentially long string or integer (`a:"x" b:a+a c:b+b …`), so that the depth limit does not protect against
  small hostile files (C80).

## 7. The project's own tests on the model

`lean/Verif/Conformance/`: the test suite of the project is carried over to the model and evaluated by the kernel. `Errors.lean` (written by
`tools/conformance.py` from tests/errors.rs and the files in tests/test_files): for all 58 malformed files the model gives the message that
the test expects, letter by letter. `Integration.lean`: all assertions of tests/integration.rs, src/tests.rs, the tests in src/macros.rs and the example in src/types.rs, among them the reference
counts (line endings: the `\n` alternative, because the files have `\n`). `Readme.lean` (written by `tools/readme.py`): the examples of README.md. All of them hold. These are tests of the model, not proofs, and no claim rests on them;
they are there because the code itself cannot be run here.

## 8. Tests of the theorems against wrong programs

`seeded/LOG.jsonl`: for each deliberate bug in a scratch copy of the model, the theorems that then failed. See there.
