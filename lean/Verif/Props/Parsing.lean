import Verif.Lemmas.Top
import Verif.Spec.Entry
import Verif.Spec.Sample

/-!
# C23, C24, C26, C27, C39, C40, C41, C43: safety of parsing, shape of the results, errors
-/

namespace Over

variable [Unicode]

theorem fromFile_eq {fs : FS} {path contents : Str} (h : fs.read path = .ok contents) (rt : Rt) :
    fromFile fs path rt =
      parseObjStream (parseValue fs (fs.fuel contents)) (PState.init (some path) contents rt) := by
  simp [fromFile, h]

/-- What holds of the result of every run. -/
def RunPost (fs : FS) (main : Option Str × Str) : Res Obj → Prop
  | .ok o _ => GoodObj o ∧ ∃ d, SpDoc d main.2
  | .err e => ErrOk fs main e
  | .panic => ∃ p c, main.1 = some p ∧ fs.resolve p = some c ∧ fs.utf8 c = false
  | .oof => False

theorem Runs.spec {fs : FS} {rt : Rt} {main : Option Str × Str} {r : Res Obj} (h : Runs fs rt main r) :
    RunPost fs main r := by
  cases h with
  | str contents =>
    have := @fromStrFuel_spec _ noPanic fs (fs.fuel contents) contents rt (by simp only [FS.fuel]; omega)
    simp only [wp] at this
    simp only [fromStr, fromStrFuel]
    revert this
    cases parseObjStream (parseValue fs (fs.fuel contents)) (PState.init none contents rt) <;>
      simp [RunPost, PanicOk.allowed]
  | file path contents hr =>
    rw [fromFile_eq hr]
    obtain ⟨c, hc⟩ := read_resolve hr
    by_cases hu : fs.utf8 c = true
    · have := @fromFileFuel_spec _ noPanic fs (fs.fuel contents) path contents c rt hc (.inl hu)
        (by simp only [FS.fuel]; omega)
      simp only [wp] at this
      revert this
      cases parseObjStream (parseValue fs (fs.fuel contents)) (PState.init (some path) contents rt) <;>
        simp [RunPost, PanicOk.allowed]
    · have := @fromFileFuel_spec _ anyPanic fs (fs.fuel contents) path contents c rt hc (.inr True.intro)
        (by simp only [FS.fuel]; omega)
      simp only [wp] at this
      revert this
      cases parseObjStream (parseValue fs (fs.fuel contents)) (PState.init (some path) contents rt) <;>
        simp [RunPost, PanicOk.allowed]
      exact ⟨c, hc, by simpa using hu⟩

/-! ## C23 -/

/-- C23: `Obj::from_str` ends, with a nesting of calls bounded by the sizes of the text and the files. -/
theorem c23_from_str_terminates (fs : FS) (contents : Str) (rt : Rt) : fromStr fs contents rt ≠ .oof := by
  intro h
  have := (Runs.str (fs := fs) (rt := rt) contents).spec
  rw [h] at this; exact this

/-- C23: `Obj::from_file` ends. -/
theorem c23_from_file_terminates (fs : FS) (path : Str) (rt : Rt) : fromFile fs path rt ≠ .oof := by
  cases hr : fs.read path with
  | error m => simp [fromFile, hr]
  | ok contents =>
    intro h
    have := (Runs.file (fs := fs) (rt := rt) path contents hr).spec
    rw [h] at this; exact this

/-- C23: the bound is not part of the result: any larger bound on the nesting of calls gives the same
result. -/
theorem c23_bound_irrelevant (fs : FS) (contents : Str) (rt : Rt) (n : Nat)
    (hn : contents.length + fs.size ≤ n) :
    fromStrFuel fs n contents rt = fromStrFuel fs (contents.length + fs.size) contents rt := by
  obtain ⟨k, rfl⟩ := Nat.exists_eq_add_of_le hn
  rcases parseObjStream_ext (parseValue_ext fs (contents.length + fs.size) k)
    (PState.init none contents rt) with h | h
  · have := @fromStrFuel_spec _ anyPanic fs _ contents rt (Nat.le_refl _)
    simp only [wp, h] at this
  · exact h

/-- C23: the same for files. -/
theorem c23_bound_irrelevant_file (fs : FS) (path contents : Str) (rt : Rt)
    (hr : fs.read path = .ok contents) (n : Nat) (hn : contents.length + fs.size ≤ n) :
    parseObjStream (parseValue fs n) (PState.init (some path) contents rt) = fromFile fs path rt := by
  rw [fromFile_eq hr]
  obtain ⟨c, hc⟩ := read_resolve hr
  have key : ∀ m, contents.length + fs.size ≤ m →
      parseObjStream (parseValue fs m) (PState.init (some path) contents rt) =
      parseObjStream (parseValue fs (contents.length + fs.size)) (PState.init (some path) contents rt) := by
    intro m hm
    obtain ⟨k, rfl⟩ := Nat.exists_eq_add_of_le hm
    rcases parseObjStream_ext (parseValue_ext fs (contents.length + fs.size) k)
      (PState.init (some path) contents rt) with h | h
    · have := @fromFileFuel_spec _ anyPanic fs _ path contents c rt hc (.inr True.intro) (Nat.le_refl _)
      simp only [wp, h] at this
    · exact h
  rw [key n hn, key (fs.fuel contents) (by simp only [FS.fuel]; omega)]

/-- Two files that include each other: parsing ends with an error. -/
example : @Res.message sampleUnicode _ (@fromFile sampleUnicode (files [(c!"a", c!"x: <\"b\">"), (c!"b", c!"y: <\"a\">")])
    c!"a" startRt) =
      some c!"b: Tried to cyclically include file \"a\" at line 1, column 5" := by decide +kernel

/-! ## C24 -/

/-- C24: `Obj::from_str` never panics. -/
theorem c24_from_str_no_panic (fs : FS) (contents : Str) (rt : Rt) : fromStr fs contents rt ≠ .panic := by
  intro h
  have := (Runs.str (fs := fs) (rt := rt) contents).spec
  rw [h] at this
  obtain ⟨p, c, h1, -⟩ := this
  cases h1

/-- C24: `Obj::from_file` never panics on a file whose canonical path is valid UTF-8. -/
theorem c24_from_file_no_panic (fs : FS) (path : Str) (rt : Rt)
    (hu : ∀ c, fs.resolve path = some c → fs.utf8 c = true) : fromFile fs path rt ≠ .panic := by
  cases hr : fs.read path with
  | error m => simp [fromFile, hr]
  | ok contents =>
    intro h
    have := (Runs.file (fs := fs) (rt := rt) path contents hr).spec
    rw [h] at this
    obtain ⟨p, c, h1, h2, h3⟩ := this
    cases h1
    rw [hu c h2] at h3; cases h3

omit [Unicode] in
/-- C24: the hypothesis is needed: a file whose canonical path is not valid UTF-8 and that includes
another file makes `from_file` panic. -/
theorem c24_from_file_can_panic : ∃ (u : Unicode) (fs : FS) (path : Str) (rt : Rt),
    @fromFile u fs path rt = .panic := by
  refine ⟨sampleUnicode, { files [(c!"m", c!"x: <\"b\">"), (c!"b", c!"y: 1")] with
    utf8 := fun c => c != c!"m" }, c!"m", startRt, ?_⟩
  have h : (@fromFile sampleUnicode { files [(c!"m", c!"x: <\"b\">"), (c!"b", c!"y: 1")] with
    utf8 := fun c => c != c!"m" } c!"m" startRt).panicked = true := by decide +kernel
  revert h
  cases @fromFile sampleUnicode { files [(c!"m", c!"x: <\"b\">"), (c!"b", c!"y: 1")] with
    utf8 := fun c => c != c!"m" } c!"m" startRt <;> simp [Res.panicked]

/-- The hypothesis of `c24_from_file_no_panic` holds for ordinary paths. -/
example : ∀ c, (files [(c!"m", c!"x: 1")]).resolve c!"m" = some c →
    (files [(c!"m", c!"x: 1")]).utf8 c = true := fun _ _ => rfl

/-! ## C26, C27 -/

/-- C26: in every parsed object every array carries the least common refinement of its elements' types
and every tuple its elements' types, at every level. -/
theorem c26_parsed_well_typed (fs : FS) (rt : Rt) (main : Option Str × Str) (o : Obj) (s : PState)
    (h : Runs fs rt main (.ok o s)) : WellTypedObj o := h.spec.1.1

/-- C27: in every parsed object the field names are proper and distinct, at every level. -/
theorem c27_parsed_names_ok (fs : FS) (rt : Rt) (main : Option Str × Str) (o : Obj) (s : PState)
    (h : Runs fs rt main (.ok o s)) : NamesOkObj o := h.spec.1.2

/-- C27: in particular no field name is empty, starts with `@` or `^`, or is a reserved word. -/
theorem c27_names_not_special (fs : FS) (rt : Rt) (main : Option Str × Str) (o : Obj) (s : PState)
    (h : Runs fs rt main (.ok o s)) (f : Str) (hf : f ∈ o.pairs.map Pair.field) :
    f ≠ [] ∧ f.head? ≠ some '@' ∧ f.head? ≠ some '^' ∧ f ∉ reservedWords := by
  have hn := c27_parsed_names_ok fs rt main o s h
  cases hn with
  | mk h1 _ _ _ =>
    obtain ⟨p, hp, rfl⟩ := List.mem_map.1 hf
    obtain ⟨c, cs, h2, h3, -, h5⟩ := h1 p hp
    rw [h2] at h5 ⊢
    have := h3.cases
    refine ⟨by simp, ?_, ?_, h5⟩ <;> (simp only [List.head?_cons, ne_eq, Option.some.injEq]; char_omega)

/-- A run that succeeds, with nested arrays, concatenation and a parent. -/
example : (@fromStr sampleUnicode noFiles c!"a: [[] [1]] b: a+[[2]] @p: {q: (1 \"x\")} c: {^: @p r: 2}"
    startRt).written = some (c!"a: [\n    []\n    [1]\n]\nb: [\n    []\n    [1]\n    [2]\n]\n" ++
      c!"c: {\n    ^: {\n        q: (\n            1\n            \"x\"\n        )\n    }\n    r: 2\n}\n") := by
  decide +kernel

/-! ## C39 -/

/-- C39: a run that fails reports an operating-system error of reading a file, or an error located in
the text it names. -/
theorem c39_error_located (fs : FS) (rt : Rt) (main : Option Str × Str) (e : ParseError)
    (h : Runs fs rt main (.err e)) : ErrOk fs main e := h.spec

/-- C39: every line and column of an error lies inside the text of the file the error names. -/
theorem c39_line_col_inside (fs : FS) (rt : Rt) (main : Option Str × Str) (e : ParseError)
    (h : Runs fs rt main (.err e)) (l c : Nat) (hk : e.kind.lineCol = some (l, c)) :
    ∃ text, Src fs main e.file text ∧ LineColIn text l c := by
  rcases c39_error_located fs rt main e h with ⟨text, h1, h2⟩ | ⟨_, p, msg, _, h2⟩
  · refine ⟨text, h1, ?_⟩
    revert hk h2
    generalize e.kind = k
    intro hk h2
    cases h2 <;> simp only [Kind.lineCol, Option.some.injEq, Prod.mk.injEq, kindFromOver, reduceCtorEq]
      at hk <;> obtain ⟨rfl, rfl⟩ := hk <;> first
      | exact (OperandAt.posIn ‹_›).lineColIn
      | exact (WordAt.posIn ‹_›).lineColIn
      | exact (CharAt.posIn ‹_›).lineColIn
      | exact CharAtOrNewline.lineColIn ‹_›
  · rw [h2] at hk; simp [Kind.lineCol] at hk

omit [Unicode] in
theorem linesOf_length (text : Str) : (linesOf text).length = lineAfter text := by
  induction text with
  | nil => rfl
  | cons c r ih =>
    by_cases h : c = '\n'
    · subst h
      simp only [linesOf, if_true, List.length_cons, ih, lineAfter, List.count_cons_self]; omega
    · obtain ⟨l, ls, h1, h2⟩ := linesOf_cons h r
      rw [h1] at ih
      rw [h2]
      simp only [List.length_cons, lineAfter] at ih ⊢
      rw [List.count_cons_of_ne (by simpa using h)]; exact ih

/-- C39: an unexpected end is reported on the last line of the text of the file the error names. -/
theorem c39_end_is_last_line (fs : FS) (rt : Rt) (main : Option Str × Str) (file : Option Str) (l : Nat)
    (h : Runs fs rt main (.err ⟨file, .unexpectedEnd l⟩)) :
    ∃ text, Src fs main file text ∧ l = (linesOf text).length := by
  rcases c39_error_located fs rt main _ h with ⟨text, h1, h2⟩ | ⟨_, p, msg, _, h2⟩
  · refine ⟨text, h1, ?_⟩
    rw [linesOf_length]
    generalize hk : (⟨file, .unexpectedEnd l⟩ : ParseError).kind = k at h2
    cases h2 <;> simp only [reduceCtorEq, kindFromOver, Kind.unexpectedEnd.injEq] at hk
    rw [hk]; assumption
  · cases h2

/-- C39: an error of the container API is reported with its own message and a position inside the text
of the file the error names. -/
theorem c39_api_error_inside (fs : FS) (rt : Rt) (main : Option Str × Str) (file : Option Str) (m : Str)
    (h : Runs fs rt main (.err ⟨file, .overError m⟩)) :
    ∃ text e l c, Src fs main file text ∧ LineColIn text l c ∧
      m = OverError.display e ++ c!" at line " ++ showNat l ++ c!", col " ++ showNat c := by
  rcases c39_error_located fs rt main _ h with ⟨text, h1, h2⟩ | ⟨_, p, msg, _, h2⟩
  · generalize hk : (⟨file, .overError m⟩ : ParseError).kind = k at h2
    cases h2 <;> simp only [reduceCtorEq, kindFromOver, Kind.overError.injEq] at hk
    exact ⟨text, _, _, _, h1, (OperandAt.posIn ‹_›).lineColIn, hk⟩
  · cases h2

/-- C39: the remaining kinds: an I/O error is the message of a failed read, a number conversion error
never happens. -/
theorem c39_other_kinds (fs : FS) (rt : Rt) (main : Option Str × Str) (e : ParseError)
    (h : Runs fs rt main (.err e)) :
    (∀ m, e.kind = .ioError m → e.file = none ∧ ∃ p, fs.read p = .error m) ∧
    (∀ m, e.kind ≠ .parseIntError m) := by
  rcases c39_error_located fs rt main _ h with ⟨text, h1, h2⟩ | ⟨h1, p, msg, h3, h2⟩
  · revert h2
    generalize e.kind = k
    intro h2
    cases h2 <;> (refine ⟨?_, ?_⟩ <;> intro m hm <;> cases hm)
  · refine ⟨fun m hm => ⟨h1, p, ?_⟩, fun m hm => ?_⟩
    · rw [h2] at hm; cases hm; exact h3
    · rw [h2] at hm; cases hm

/-- A failing run. -/
example : @Res.message sampleUnicode _ (@fromStr sampleUnicode noFiles c!"a: 1\nb: [a \"x\"]" startRt) =
    some c!"Expected Int at line 2, column 7; found Str" := by decide +kernel

/-! ## C40 -/

/-- C40: an invalid character in a value, and an unexpected closing bracket, stand where reported. -/
theorem c40_value_char (fs : FS) (rt : Rt) (main : Option Str × Str) (file : Option Str) (ch : Char)
    (l c : Nat) (h : Runs fs rt main (.err ⟨file, .invalidValueChar ch l c⟩)) :
    ∃ text, Src fs main file text ∧ CharAt text ch l c := by
  rcases c39_error_located fs rt main _ h with ⟨text, h1, h2⟩ | ⟨_, p, msg, _, h2⟩
  · generalize hk : (⟨file, .invalidValueChar ch l c⟩ : ParseError).kind = k at h2
    cases h2 <;> simp only [reduceCtorEq, kindFromOver, Kind.invalidValueChar.injEq] at hk
    obtain ⟨rfl, rfl, rfl⟩ := hk
    exact ⟨text, h1, ‹_›⟩
  · cases h2

/-- C40: an unexpected closing bracket stands where reported. -/
theorem c40_closing_bracket (fs : FS) (rt : Rt) (main : Option Str × Str) (file : Option Str)
    (ex : Option Char) (ch : Char) (l c : Nat)
    (h : Runs fs rt main (.err ⟨file, .invalidClosingBracket ex ch l c⟩)) :
    ∃ text, Src fs main file text ∧ CharAt text ch l c := by
  rcases c39_error_located fs rt main _ h with ⟨text, h1, h2⟩ | ⟨_, p, msg, _, h2⟩
  · generalize hk : (⟨file, .invalidClosingBracket ex ch l c⟩ : ParseError).kind = k at h2
    cases h2 <;> simp only [reduceCtorEq, kindFromOver, Kind.invalidClosingBracket.injEq] at hk
    obtain ⟨-, rfl, rfl, rfl⟩ := hk
    exact ⟨text, h1, ‹_›⟩
  · cases h2

/-- C40: an invalid character in a field name stands where reported (a newline: column 0 of the next
line). -/
theorem c40_field_char (fs : FS) (rt : Rt) (main : Option Str × Str) (file : Option Str) (ch : Char)
    (l c : Nat) (h : Runs fs rt main (.err ⟨file, .invalidFieldChar ch l c⟩)) :
    ∃ text, Src fs main file text ∧ CharAtOrNewline text ch l c := by
  rcases c39_error_located fs rt main _ h with ⟨text, h1, h2⟩ | ⟨_, p, msg, _, h2⟩
  · generalize hk : (⟨file, .invalidFieldChar ch l c⟩ : ParseError).kind = k at h2
    cases h2 <;> simp only [reduceCtorEq, kindFromOver, Kind.invalidFieldChar.injEq] at hk
    obtain ⟨rfl, rfl, rfl⟩ := hk
    exact ⟨text, h1, ‹_›⟩
  · cases h2

/-- C40: an invalid escape character stands where reported (a newline: column 0 of the next line). -/
theorem c40_escape_char (fs : FS) (rt : Rt) (main : Option Str × Str) (file : Option Str) (ch : Char)
    (l c : Nat) (h : Runs fs rt main (.err ⟨file, .invalidEscapeChar ch l c⟩)) :
    ∃ text, Src fs main file text ∧ CharAtOrNewline text ch l c := by
  rcases c39_error_located fs rt main _ h with ⟨text, h1, h2⟩ | ⟨_, p, msg, _, h2⟩
  · generalize hk : (⟨file, .invalidEscapeChar ch l c⟩ : ParseError).kind = k at h2
    cases h2 <;> simp only [reduceCtorEq, kindFromOver, Kind.invalidEscapeChar.injEq] at hk
    obtain ⟨rfl, rfl, rfl⟩ := hk
    exact ⟨text, h1, ‹_›⟩
  · cases h2

/-- Character errors occur. -/
example : @Res.message sampleUnicode _ (@fromStr sampleUnicode noFiles c!"ab: 1\n  cd: 2;" startRt) =
    some c!"Invalid character ';' for value at line 2, column 8" := by decide +kernel
example : @Res.message sampleUnicode _ (@fromStr sampleUnicode noFiles c!"ab: 1\ncd\n: 2" startRt) =
    some c!"Invalid character '\\n' for field at line 3, column 0" := by decide +kernel
example : @Res.message sampleUnicode _ (@fromStr sampleUnicode noFiles c!"ab: \"1\\z\"" startRt) =
    some (c!"Invalid escape character 'z' following backslash at line 1, column 8. " ++
      c!"If you meant to write a backslash, use '\\\\'") := by decide +kernel
example : @Res.message sampleUnicode _ (@fromStr sampleUnicode noFiles c!"ab: [1\n2)" startRt) =
    some c!"Invalid closing bracket ')' at line 2, column 2; expected ']'" := by decide +kernel

/-! ## C53: errors point at what they are about -/

/-- C53: a name that an error reports (unknown variable or global, invalid or duplicate field) stands at the reported
position. -/
theorem c53_name_stands_there (fs : FS) (rt : Rt) (main : Option Str × Str) (e : ParseError)
    (h : Runs fs rt main (.err e)) (w : Str) (l c : Nat) (hk : e.kind.named = some (w, l, c)) :
    ∃ text, Src fs main e.file text ∧ WordAt text w l c := by
  rcases c39_error_located fs rt main e h with ⟨text, h1, h2⟩ | ⟨_, p, msg, _, h2⟩
  · refine ⟨text, h1, ?_⟩
    revert hk h2
    generalize e.kind = k
    intro hk h2
    cases h2 <;> simp only [Kind.named, Option.some.injEq, Prod.mk.injEq, kindFromOver, reduceCtorEq] at hk <;>
      obtain ⟨rfl, rfl, rfl⟩ := hk <;> assumption
  · rw [h2] at hk; simp [Kind.named] at hk

/-- C53: where an error about the value of an operand points (operators, array elements, indices, includes), a complete
operand starts. -/
theorem c53_operand_stands_there (fs : FS) (rt : Rt) (main : Option Str × Str) (e : ParseError)
    (h : Runs fs rt main (.err e)) (l c : Nat) (hk : e.kind.aboutOperand = some (l, c)) :
    ∃ text, Src fs main e.file text ∧ OperandAt text l c := by
  rcases c39_error_located fs rt main e h with ⟨text, h1, h2⟩ | ⟨_, p, msg, _, h2⟩
  · refine ⟨text, h1, ?_⟩
    revert hk h2
    generalize e.kind = k
    intro hk h2
    cases h2 <;> simp only [Kind.aboutOperand, Option.some.injEq, Prod.mk.injEq, kindFromOver, reduceCtorEq] at hk <;>
      obtain ⟨rfl, rfl⟩ := hk <;> assumption
  · rw [h2] at hk; simp [Kind.aboutOperand] at hk

/-- C53: an error of the container API is reported with its own message at the operand that caused it. -/
theorem c53_api_error (fs : FS) (rt : Rt) (main : Option Str × Str) (file : Option Str) (m : Str)
    (h : Runs fs rt main (.err ⟨file, .overError m⟩)) :
    ∃ text e l c, Src fs main file text ∧ OperandAt text l c ∧
      m = OverError.display e ++ c!" at line " ++ showNat l ++ c!", col " ++ showNat c := by
  rcases c39_error_located fs rt main _ h with ⟨text, h1, h2⟩ | ⟨_, p, msg, _, h2⟩
  · generalize hk : (⟨file, .overError m⟩ : ParseError).kind = k at h2
    cases h2 <;> simp only [reduceCtorEq, kindFromOver, Kind.overError.injEq] at hk
    exact ⟨text, _, _, _, h1, ‹_›, hk⟩
  · cases h2

/-- C53: an error about a dot points at a name that a dot follows. -/
theorem c53_dot (fs : FS) (rt : Rt) (main : Option Str × Str) (file : Option Str) (t : Ty) (l c : Nat)
    (h : Runs fs rt main (.err ⟨file, .invalidDot t l c⟩)) :
    ∃ text x, Src fs main file text ∧ VarName x ∧ WordAt text (x ++ c!".") l c := by
  rcases c39_error_located fs rt main _ h with ⟨text, h1, h2⟩ | ⟨_, p, msg, _, h2⟩
  · generalize hk : (⟨file, .invalidDot t l c⟩ : ParseError).kind = k at h2
    cases h2 <;> simp only [reduceCtorEq, kindFromOver, Kind.invalidDot.injEq] at hk
    obtain ⟨rfl, rfl, rfl⟩ := hk
    exact ⟨text, _, h1, ‹_›, ‹_›⟩
  · cases h2

/-- C53: an error about a number points at a number, or (division by zero) at the divisor. -/
theorem c53_number (fs : FS) (rt : Rt) (main : Option Str × Str) (file : Option Str) (l c : Nat)
    (h : Runs fs rt main (.err ⟨file, .invalidNumeric l c⟩)) :
    ∃ text, Src fs main file text ∧
      ((∃ ch, CharAt text ch l c ∧ (decDigit ch = true ∨ ch = '.' ∨ ch = ',')) ∨ OperandAt text l c) := by
  rcases c39_error_located fs rt main _ h with ⟨text, h1, h2⟩ | ⟨_, p, msg, _, h2⟩
  · generalize hk : (⟨file, .invalidNumeric l c⟩ : ParseError).kind = k at h2
    cases h2 <;> simp only [reduceCtorEq, kindFromOver, Kind.invalidNumeric.injEq] at hk
    · obtain ⟨rfl, rfl⟩ := hk
      exact ⟨text, h1, .inl ⟨_, ‹_›, ‹_›⟩⟩
    · obtain ⟨rfl, rfl⟩ := hk
      exact ⟨text, h1, .inr ‹_›⟩
  · cases h2

/-- C25: the error about too deep nesting points at an opening bracket. -/
theorem c25_points_at_bracket (fs : FS) (rt : Rt) (main : Option Str × Str) (file : Option Str) (l c : Nat)
    (h : Runs fs rt main (.err ⟨file, .maxDepth l c⟩)) :
    ∃ text ch, Src fs main file text ∧ CharAt text ch l c ∧ (ch = '{' ∨ ch = '[' ∨ ch = '(' ∨ ch = '<') := by
  rcases c39_error_located fs rt main _ h with ⟨text, h1, h2⟩ | ⟨_, p, msg, _, h2⟩
  · generalize hk : (⟨file, .maxDepth l c⟩ : ParseError).kind = k at h2
    cases h2 <;> simp only [reduceCtorEq, kindFromOver, Kind.maxDepth.injEq] at hk
    obtain ⟨rfl, rfl⟩ := hk
    exact ⟨text, _, h1, ‹_›, by have h : _ ∈ c!"{[(<" := ‹_›; simpa using h⟩
  · cases h2

/-- Failing runs of these kinds: an unknown name, an element of another type, a division by zero. -/
example : @Res.message sampleUnicode _ (@fromStr sampleUnicode noFiles c!"a: 1\nb: [a c]" startRt) =
    some c!"Variable \"c\" at line 2, column 7 could not be found" := by decide +kernel

example : @Res.message sampleUnicode _ (@fromStr sampleUnicode noFiles c!"a: 0\nb: 1/a" startRt) =
    some c!"Invalid numeric value at line 2, column 6" := by decide +kernel

/-! ## C41 -/

/-- The line an error is about, if it is located. -/
def ParseError.AtLine (e : ParseError) (l : Nat) : Prop :=
  (∃ c, e.kind.lineCol = some (l, c)) ∨ e.kind = .unexpectedEnd l ∨ ∃ o c, e.kind = kindFromOver o l c

/-- The message says "line" and this number, which is not followed by a digit. -/
def SaysLine (m : Str) (l : Nat) : Prop :=
  ∃ a b, m = a ++ c!"line " ++ showNat l ++ b ∧ ∀ ch ∈ b.head?, decDigit ch = false

omit [Unicode] in
theorem SaysLine.right {m : Str} {l : Nat} (h : SaysLine m l) (a : Str) : SaysLine (a ++ m) l := by
  obtain ⟨a', b, rfl, hb⟩ := h
  exact ⟨a ++ a', b, by simp only [List.append_assoc], hb⟩

omit [Unicode] in
theorem SaysLine.left {a : Str} {l c : Nat} (b : Str) : SaysLine (a ++ atLineCol l c ++ b) l :=
  ⟨a ++ c!" at ", c!", column " ++ showNat c ++ b, by simp [atLineCol], by
    intro ch hc
    simp only [List.cons_append, List.head?_cons, Option.mem_def, Option.some.injEq] at hc
    subst hc
    decide⟩

omit [Unicode] in
theorem SaysLine.last {a : Str} {l c : Nat} : SaysLine (a ++ atLineCol l c) l := by
  have := SaysLine.left (a := a) (l := l) (c := c) []
  rwa [List.append_nil] at this

/-- C41: the message of every error begins with the name of the file it is about (if it has one) and says the number of a
line of that file, which is the line of the error; unless it is the message of a failed read.  The caller gets it as
`OverError::ParseError`. -/
theorem c41_messages_locate (fs : FS) (rt : Rt) (main : Option Str × Str) (e : ParseError)
    (h : Runs fs rt main (.err e)) : ∃ m, e.toOver = .parseError m ∧ e.toOver.display = m ∧
    ((∃ text l, Src fs main e.file text ∧ 1 ≤ l ∧ l ≤ (linesOf text).length ∧ e.AtLine l ∧ SaysLine m l ∧
        ∀ f, e.file = some f → f ++ c!": " <+: m) ∨
      ∃ p msg, fs.read p = .error msg ∧ m = msg) := by
  refine ⟨_, rfl, rfl, ?_⟩
  rcases c39_error_located fs rt main e h with ⟨text, h0, h2⟩ | ⟨h1, p, msg, h3, h2⟩
  · left
    obtain ⟨file, k⟩ := e
    have key : ∃ l, 1 ≤ l ∧ l ≤ (linesOf text).length ∧ ParseError.AtLine ⟨file, k⟩ l ∧ SaysLine k.display l := by
      have hi : ∀ {l c}, LineColIn text l c → 1 ≤ l ∧ l ≤ (linesOf text).length := by
        rintro l c ⟨h1, line, h2, -⟩
        have := (List.getElem?_eq_some_iff.1 h2).1
        exact ⟨h1, by omega⟩
      have hlc : ∀ l c, k.lineCol = some (l, c) → SaysLine k.display l := by
        intro l c hk
        cases k <;> simp only [Kind.lineCol, Option.some.injEq, Prod.mk.injEq, reduceCtorEq] at hk <;>
          obtain ⟨rfl, rfl⟩ := hk <;> simp only [Kind.display] <;>
          first
          | exact SaysLine.last
          | exact SaysLine.left _
          | (simp only [List.append_assoc]; repeat (first | exact SaysLine.left (a := []) _ | exact SaysLine.last (a := []) | apply SaysLine.right))
      cases hk : k.lineCol with
      | some lc =>
        obtain ⟨l, c⟩ := lc
        obtain ⟨h6, h7⟩ := hi (show LineColIn text l c by
          revert hk h2
          clear h hlc
          intro h2 hk
          cases h2 <;> simp only [Kind.lineCol, Option.some.injEq, Prod.mk.injEq, reduceCtorEq]
            at hk <;> obtain ⟨rfl, rfl⟩ := hk <;> first
            | exact (OperandAt.posIn ‹_›).lineColIn
            | exact (WordAt.posIn ‹_›).lineColIn
            | exact (CharAt.posIn ‹_›).lineColIn
            | exact CharAtOrNewline.lineColIn ‹_›)
        exact ⟨l, h6, h7, .inl ⟨c, hk⟩, hlc l c hk⟩
      | none =>
        cases h2 <;> simp only [Kind.lineCol, reduceCtorEq] at hk
        · rename_i l hl
          refine ⟨l, by rw [hl]; simp [lineAfter], by rw [linesOf_length, hl], .inr (.inl rfl), c!"Unexpected end at ", [], ?_, ?_⟩
          · simp [Kind.display]
          · simp
        · rename_i o l c ho
          obtain ⟨h6, h7⟩ := hi (OperandAt.posIn ho).lineColIn
          refine ⟨l, h6, h7, .inr (.inr ⟨o, c, rfl⟩), o.display ++ c!" at ", c!", col " ++ showNat c, ?_, ?_⟩
          · simp [Kind.display]
          · intro ch hc
            simp only [List.cons_append, List.head?_cons, Option.mem_def, Option.some.injEq] at hc
            subst hc
            decide
    obtain ⟨l, h4, h5, h6, h7⟩ := key
    refine ⟨text, l, h0, h4, h5, h6, h7.right _, ?_⟩
    rintro f rfl
    exact List.prefix_append _ _
  · right
    refine ⟨p, msg, h3, ?_⟩
    simp [ParseError.display, h1, h2, Kind.display]

/-- C41: when the main file cannot be read, the message is that of the failed read. -/
theorem c41_unreadable_main (fs : FS) (rt : Rt) (path msg : Str) (h : fs.read path = .error msg) :
    fromFile fs path rt = .err ⟨none, .ioError msg⟩ := by
  simp [fromFile, h]

/-- The exception occurs: an included file that cannot be read. -/
example : @Res.message sampleUnicode _ (@fromFile sampleUnicode { files [(c!"m", c!"x: <\"b\">")] with
      canon := fun p => some p
      nodes := [(c!"m", .ok c!"x: <\"b\">"), (c!"b", .error c!"Permission denied (os error 13)")] }
    c!"m" startRt) =
      some c!"Permission denied (os error 13)" := by decide +kernel

/-! ## C43 -/

/-- Calling `next` as many times as `n`. -/
def Stream.nextN : Nat → Stream → Stream
  | 0, s => s
  | n + 1, s => Stream.nextN n s.next.2

omit [Unicode] in
/-- C43: after reading any prefix of a text, the line is one plus the number of newlines read, the
column is one plus the number of characters read since the last newline, and the rest of the text
remains. -/
theorem c43_position_after_prefix (file : Option Str) (pre post : Str) :
    let s := (Stream.ofString file (pre ++ post)).nextN pre.length
    s.rest = post ∧ s.file = file ∧ s.pos.line = 1 + pre.count '\n' ∧
      s.pos.col = 1 + (pre.reverse.takeWhile (fun c => c != '\n')).length := by
  have key : ∀ (pre : Str) (s : Stream), s.rest = pre ++ post →
      s.nextN pre.length = ⟨s.file, post, s.pos.advs pre⟩ := by
    intro pre
    induction pre with
    | nil => rintro ⟨f, r, p⟩ h; simp only [List.nil_append] at h; subst h; rfl
    | cons c pre ih =>
      intro s h
      simp only [List.length_cons, Stream.nextN]
      rw [ih _ (by simp [Stream.next, h]), Stream.next_cons h]
      rfl
  simp only
  rw [key pre _ rfl]
  refine ⟨rfl, rfl, ?_, ?_⟩
  · show (pos0.advs pre).line = _
    rw [pos_after]; rfl
  · show (pos0.advs pre).col = _
    rw [pos_after]; rfl

omit [Unicode] in
/-- C43: `next` returns the first remaining character (and `peek` the same one); at the end `next`
changes nothing. -/
theorem c43_next_returns_peek (s : Stream) :
    s.next.1 = s.peek ∧ s.peek = s.rest.head? ∧ (s.rest = [] → s.next.2 = s) := by
  cases h : s.rest with
  | nil => simp [Stream.next, Stream.peek, h]
  | cons c r => simp [Stream.next, Stream.peek, h]

omit [Unicode] in
/-- C43: in a parser, peeking changes nothing at all. -/
theorem c43_peek_does_not_move (s : PState) : peekP s = .ok s.stream.rest.head? s := rfl

example : ((Stream.ofString none c!"ab\ncde\nf").nextN 6).pos = ⟨2, 4⟩ := by decide

end Over
