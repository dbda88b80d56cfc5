import Verif.Model.Basic

/-!
# Character stream (src/parse/char_stream.rs)

`Rc<RefCell<…>>` makes every clone of a `CharStream` an alias of the same state, so the model keeps one
stream value and threads it.  `contents` (kept alive for the `unsafe` transmute) is not represented:
the remaining characters are.
-/

namespace Over

/-- Line and column (src/parse/char_stream.rs:18-19). -/
structure Pos where
  line : Nat
  col : Nat
  deriving DecidableEq, Repr

/-- src/parse/char_stream.rs:104-112: position update of `next`. -/
def Pos.adv (p : Pos) (ch : Char) : Pos :=
  if ch = '\n' then ⟨p.line + 1, 1⟩ else ⟨p.line, p.col + 1⟩

/-- Position after reading a whole string. -/
def Pos.advs (p : Pos) (s : Str) : Pos := s.foldl Pos.adv p

/-- src/parse/char_stream.rs:13-25 `Inner`/`CharStream`. -/
structure Stream where
  file : Option Str
  rest : Str
  pos : Pos
  deriving DecidableEq

/-- src/parse/char_stream.rs:39-56 `from_string`, `from_string_impl`. -/
def Stream.ofString (file : Option Str) (contents : Str) : Stream := ⟨file, contents, ⟨1, 1⟩⟩

/-- src/parse/char_stream.rs:58-66 `peek`. -/
def Stream.peek (s : Stream) : Option Char := s.rest.head?

/-- src/parse/char_stream.rs:94-118 `next`. -/
def Stream.next (s : Stream) : Option Char × Stream :=
  match s.rest with
  | [] => (none, s)
  | ch :: cs => (some ch, { s with rest := cs, pos := s.pos.adv ch })

/-- src/parse/parser.rs:1319-1342 `find_char`, over the remaining characters; the flag says that we
are inside a comment (the inner loop at 1324-1332). -/
def findCharGo : Bool → Str → Pos → Bool × Str × Pos
  | _, [], p => (false, [], p)
  | true, ch :: cs, p =>
    if ch = '\n' then findCharGo false cs (p.adv ch) else findCharGo true cs (p.adv ch)
  | false, ch :: cs, p =>
    if ch = '#' then findCharGo true cs (p.adv ch)
    else if isUniWhitespace ch then findCharGo false cs (p.adv ch)
    else (true, ch :: cs, p)

/-- src/parse/parser.rs:1319-1342 `find_char`. -/
def Stream.findChar (s : Stream) : Bool × Stream :=
  match findCharGo false s.rest s.pos with
  | (b, rest, pos) => (b, { s with rest := rest, pos := pos })

end Over
