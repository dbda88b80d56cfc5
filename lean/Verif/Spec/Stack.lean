import Verif.Model.Parser
import Verif.Spec.Syntax

/-!
# Chains of signs and dots

Brackets can be nested 64 deep at most.  What else nests the calls of the parser: signs, dots and includes.
-/

namespace Over

section
variable [Unicode]

/-- The number of dots in the dotted path (or number) at the beginning of the text. -/
def pathDots : Str → Nat
  | [] => 0
  | c :: s =>
    if c = '.' then pathDots s + 1
    else if isAlphabetic c || decDigit c || c == '_' || c == '@' then pathDots s
    else 0

/-- The number of signs at the beginning of the text, and of dots in the dotted path behind them: in `--a.b.c`, four. -/
def chainLen : Str → Nat
  | [] => 0
  | c :: s => if c = '+' ∨ c = '-' then chainLen s + 1 else pathDots (c :: s)

/-- At no place of the text does a longer chain than `k` begin. -/
def ChainsUpTo (k : Nat) (text : Str) : Prop := ∀ u v, text = u ++ v → chainLen v ≤ k

/-- … nor in any file. -/
def FS.ChainsUpTo (fs : FS) (k : Nat) : Prop := ∀ path text, fs.read path = .ok text → Over.ChainsUpTo k text

end

end Over
