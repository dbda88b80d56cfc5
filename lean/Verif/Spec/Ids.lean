import Verif.Model.Ids

/-!
# Ids in an execution
-/

namespace Over

/-- The ids given out in an execution (to containers and sentinels), in order. -/
def given (es : List Event) : List Nat := es.filterMap fun
  | .create _ i => some i
  | .make _ _ i => some i
  | _ => none

/-- The ids of the containers created by one thread, in order. -/
def createdBy (t : Nat) (es : List Event) : List Nat := es.filterMap fun
  | .create t' i => if t' = t then some i else none
  | _ => none

/-- The state that matters to a parsing thread: the counter, and the sentinels whose id is settled (one that is
being initialised by another thread will have been published by the time it can be read). -/
def World.shared (w : World) : Shared :=
  let id : IncKind → Option Nat := fun k => match w.lazy k with
    | .unset => none
    | .busy _ => none
    | .taken _ i => some i
    | .ready i => some i
  ⟨w.counter, id .obj, id .str, id .arr, id .tup⟩

end Over
