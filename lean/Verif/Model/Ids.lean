import Verif.Model.Parser
import Mathlib.Logic.Function.Basic

/-!
# The id counter and the sentinels under concurrent use (src/lib.rs:59-66, src/parse/parser.rs:32-38)

Any number of threads (named by numbers) create containers and use the four sentinel objects.  The atomic steps are the
`fetch_add` of `gen_id` and the three phases of the initialisation of a `lazy_static`: a thread claims it, runs the
initialiser (`Obj::empty()`, which calls `gen_id`), and publishes the result.  A thread that needs a sentinel which
another thread has claimed waits until it is published.  `Ordering::Relaxed` does not matter for a single atomic
variable: the modification order of the counter is total, and each `fetch_add` reads the value before it in this order.
-/

namespace Over

/-- Number of ids, `usize::MAX + 1` on a 64-bit target. -/
def idRange : Nat := 2 ^ 64

/-- The state of a `lazy_static` (src/parse/parser.rs:32-38; the `Once` behind it). -/
inductive Lazy where
  | unset
  /-- claimed by a thread, which has not yet called `gen_id` -/
  | busy (thread : Nat)
  /-- the initialiser of this thread has called `gen_id` -/
  | taken (thread id : Nat)
  /-- published -/
  | ready (id : Nat)

/-- Process-wide state: the value of `CUR_ID` (src/lib.rs:60) and the sentinels. -/
structure World where
  counter : Nat
  lazy : IncKind → Lazy

/-- src/lib.rs:60: `CUR_ID` starts at 0; no sentinel has been used. -/
def World.init : World := ⟨0, fun _ => .unset⟩

/-- Effect of `fetch_add(1)` on the counter (src/lib.rs:65): it wraps around. -/
def World.bump (w : World) : World := { w with counter := (w.counter + 1) % idRange }

/-- What a thread gets to see. -/
inductive Event where
  /-- the thread has created a container with this id (src/arr.rs:70, src/tup.rs:39, src/obj.rs:133) -/
  | create (thread id : Nat)
  /-- the thread has called `gen_id` for a sentinel -/
  | make (thread : Nat) (kind : IncKind) (id : Nat)
  /-- the thread has read a sentinel with this id -/
  | look (thread : Nat) (kind : IncKind) (id : Nat)
  /-- bookkeeping of a `lazy_static` -/
  | internal

/-- The atomic steps. -/
inductive Step : World → Event → World → Prop
  /-- src/lib.rs:64-66 for a container -/
  | create (w : World) (t : Nat) : Step w (.create t w.counter) w.bump
  /-- a thread claims an unused sentinel -/
  | claim (w : World) (t : Nat) (k : IncKind) : w.lazy k = .unset →
      Step w .internal { w with lazy := Function.update w.lazy k (.busy t) }
  /-- its initialiser calls `gen_id` (src/obj.rs:133) -/
  | make (w : World) (t : Nat) (k : IncKind) : w.lazy k = .busy t →
      Step w (.make t k w.counter) { w.bump with lazy := Function.update w.lazy k (.taken t w.counter) }
  /-- it publishes the sentinel -/
  | publish (w : World) (t i : Nat) (k : IncKind) : w.lazy k = .taken t i →
      Step w .internal { w with lazy := Function.update w.lazy k (.ready i) }
  /-- a thread reads a published sentinel -/
  | look (w : World) (t i : Nat) (k : IncKind) : w.lazy k = .ready i → Step w (.look t k i) w

/-- Executions: any interleaving of the steps of any threads, with the events in order. -/
inductive Exec : World → List Event → World → Prop
  | nil (w : World) : Exec w [] w
  | cons {w w' w'' : World} {e : Event} {es : List Event} : Step w e w' → Exec w' es w'' → Exec w (e :: es) w''

end Over
