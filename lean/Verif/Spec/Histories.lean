import Verif.Spec.Refs
import Verif.Model.Api

/-!
# A program's values in reference-counted memory
-/

namespace Over

/-- The keyword objects that have been created (src/parse/parser.rs:32-38): statics, which own their object for ever. -/
def Shared.statics (s : Shared) : List Value :=
  [IncKind.obj, .str, .arr, .tup].filterMap fun k => (s.keyword k).map fun i => .obj (.mk i [] none)

/-- The memory `m`, reached from the empty memory, is that of a process in which the threads own the values `vs` and nothing
else (besides the statics), and nothing is being dropped. -/
structure InMemory (m : Mem) (sh : Shared) (vs : List Value) : Prop where
  exec : MemExec Mem.init m
  counter : m.nextId = sh.curId
  quiet : m.dropping = 0
  owned : ∃ ss : List Slot, m.held.map Prod.snd = (ss : Multiset Slot) ∧ MeansL m ss (vs ++ sh.statics)

/-- A history of calls, in which the program also drops values. -/
inductive Lives [Unicode] : Session → Session → Prop
  | start (s : Session) : Lives s s
  | call {s s' s'' : Session} : Lives s s' → ApiStep s' s'' → Lives s s''
  | drop {s : Session} {sh : Shared} {ps qs : List Value} {v : Value} : Lives s ⟨sh, ps ++ v :: qs⟩ → Lives s ⟨sh, ps ++ qs⟩

end Over
