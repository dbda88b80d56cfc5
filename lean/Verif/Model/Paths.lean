import Verif.Model.Basic

/-!
# Paths (`std::path` on Unix), as used at src/parse/parser.rs:1095-1098

`Path::parent` and `Path::join`, character by character as the standard library computes them: a path is split at `/`; empty components
and `.` are skipped, except for a `.` at the very beginning.
-/

namespace Over

/-- `Components::include_cur_dir`: the path is `.` or begins with `./`. -/
def startsWithCurDir : Str → Bool
  | ['.'] => true
  | '.' :: '/' :: _ => true
  | _ => false

/-- `Components::len_before_body`: the length of the `/` or `.` at the beginning. -/
def pathStart (p : Str) : Nat := if p.head? = some '/' ∨ startsWithCurDir p = true then 1 else 0

/-- `Components::trim_right` on the reversed rest of a path: components at the end that are empty or `.` are left out. -/
def trimSilent : Str → Str
  | [] => []
  | '/' :: b => trimSilent b
  | ['.'] => []
  | '.' :: '/' :: b => trimSilent b
  | b => b

/-- `Path::parent`: `none` when the path is empty or the root. -/
def pathParent (p : Str) : Option Str :=
  match trimSilent (p.drop (pathStart p)).reverse with
  | [] => if startsWithCurDir p then some [] else none
  | b => some (p.take (pathStart p) ++ (trimSilent ((b.dropWhile (· != '/')).drop 1)).reverse)

/-- `Path::join` (`PathBuf::push`). -/
def pathJoin (dir inc : Str) : Str :=
  if inc.head? = some '/' then inc
  else if dir ≠ [] ∧ dir.getLast? ≠ some '/' then dir ++ '/' :: inc
  else dir ++ inc

end Over
