import Verif.Model.Value
import Mathlib.Data.Multiset.Count
import Mathlib.Data.Multiset.MapFold
import Mathlib.Data.Multiset.AddSub

/-!
# Memory: reference-counted containers (the `Arc` in src/arr.rs, src/tup.rs, src/obj.rs)

`Model/Value.lean` treats a container as its id and its contents.  Here the containers are allocations with an address
and a strong count; any number of threads own values, clone them, build new containers from them, read them, send them to
each other and drop them, in any interleaving.  `Arc::clone` and the decrement of `Drop for Arc` are atomic
read-modify-write operations on one variable, so that the steps of the threads can be put in one order.  Allocation
failure and the abort at `isize::MAX` references are not modelled.
-/

namespace Over

/-- src/value.rs:12-34 `Value` as it is stored: a scalar, or the address of an `ArrInner`, `TupInner` or `ObjInner`
(src/arr.rs:21-23, src/tup.rs:21-23, src/obj.rs:32-36).  An `Arr`, `Tup` or `Obj` outside of a `Value` is the same
address. -/
inductive Slot where
  | null
  | bool (b : Bool)
  | int (i : Int)
  | frac (q : Rat)
  | str (s : Str)
  | arr (a : Nat)
  | tup (a : Nat)
  | obj (a : Nat)
  deriving DecidableEq

/-- The address in a slot. -/
def Slot.addr : Slot → Option Nat
  | .arr a => some a
  | .tup a => some a
  | .obj a => some a
  | _ => none

/-- src/arr.rs:11-18 `ArrInner`, src/tup.rs:10-17 `TupInner`, src/obj.rs:21-29 `ObjInner`. -/
inductive Cell where
  | arr (id : Nat) (t : Ty) (vs : List Slot)
  | tup (id : Nat) (ts : List Ty) (vs : List Slot)
  | obj (id : Nat) (ps : List (Str × Slot)) (par : Option Nat)

/-- The `id` field (`ReferenceType::id`, src/arr.rs:122-124, src/tup.rs:91-93, src/obj.rs:297-299). -/
def Cell.id : Cell → Nat
  | .arr i _ _ => i
  | .tup i _ _ => i
  | .obj i _ _ => i

/-- The values owned by a container. -/
def Cell.slots : Cell → List Slot
  | .arr _ _ vs => vs
  | .tup _ _ vs => vs
  | .obj _ ps par => ps.map Prod.snd ++ (par.map Slot.obj).toList

/-- The handle of a container at an address. -/
def Cell.handle (c : Cell) (a : Nat) : Slot :=
  match c with
  | .arr .. => .arr a
  | .tup .. => .tup a
  | .obj .. => .obj a

/-- An allocation: `ArcInner` with its strong count. -/
structure Block where
  addr : Nat
  count : Nat
  cell : Cell

/-- (`ReferenceType`, src/lib.rs:36-54.)  The memory, the id counter (src/lib.rs:60), the values that threads own, and the values that the drop glue of a
thread still has to drop. -/
structure Mem where
  blocks : List Block
  nextId : Nat
  held : Multiset (Nat × Slot)
  dropping : Multiset (Nat × Slot)

/-- Nothing is allocated. -/
def Mem.init : Mem := ⟨[], 0, 0, 0⟩

/-- What is at an address. -/
def Mem.at (m : Mem) (a : Nat) : Option Block := m.blocks.find? (fun b => b.addr == a)

/-- src/value.rs:92-105 `Value::get_type`. -/
def Mem.typeOf (m : Mem) : Slot → Ty
  | .null => .null
  | .bool _ => .bool
  | .int _ => .int
  | .frac _ => .frac
  | .str _ => .str
  | .arr a => match m.at a with
    | some ⟨_, _, .arr _ t _⟩ => .arr t
    | _ => .any
  | .tup a => match m.at a with
    | some ⟨_, _, .tup _ ts _⟩ => .tup ts
    | _ => .any
  | .obj _ => .obj

/-- Strong count: `num_references` (src/arr.rs:126-128, src/tup.rs:95-97, src/obj.rs:301-303). -/
def Mem.numReferences (m : Mem) (s : Slot) : Option Nat :=
  match s.addr with
  | some a => (m.at a).map Block.count
  | none => none

/-- `Arc::ptr_eq` (src/arr.rs:130-132, src/tup.rs:99-101, src/obj.rs:305-307). -/
def Slot.ptrEq (s s' : Slot) : Bool := s.addr == s'.addr

/-- `Arc::clone` on the count of a slot's allocation; nothing for scalars. -/
def Mem.bump (m : Mem) (s : Slot) : List Block :=
  m.blocks.map fun b => if s.addr = some b.addr then { b with count := b.count + 1 } else b

/-- The decrement of `Drop for Arc` when the count is more than one. -/
def Mem.lower (m : Mem) (a : Nat) : List Block :=
  m.blocks.map fun b => if b.addr = a then { b with count := b.count - 1 } else b

/-- Deallocation. -/
def Mem.without (m : Mem) (a : Nat) : List Block := m.blocks.filter (fun b => b.addr != a)

/-- A reference into the memory can be followed from a value to the values inside (`values_ref`, `pairs_ref`, `iter`,
`with_each`, and inside `get`, `get_parent`, `get_with_source`, `eq`, formatting). -/
inductive Mem.Reach (m : Mem) (s : Slot) : Slot → Prop
  | refl : Mem.Reach m s s
  | step {s' s'' : Slot} {a : Nat} {b : Block} : Mem.Reach m s s' → s'.addr = some a → m.at a = some b →
      s'' ∈ b.cell.slots → Mem.Reach m s s''

/-- `Arc::new` for a container built from values that the thread owns: they move into it
(src/arr.rs:65-73, src/tup.rs:32-42, src/obj.rs:132-138). -/
def Mem.alloc (m : Mem) (t a : Nat) (c : Cell) : Mem :=
  ⟨⟨a, 1, c⟩ :: m.blocks, m.nextId + 1, (t, c.handle a) ::ₘ (m.held - (c.slots.map (Prod.mk t) : Multiset (Nat × Slot))),
    m.dropping⟩

/-- The steps of the drop glue of a thread (`Drop for Arc`, and the fields of what is deallocated). -/
inductive DropStep : Mem → Mem → Prop
  /-- drop glue on a scalar -/
  | forget (m : Mem) (t : Nat) (s : Slot) : (t, s) ∈ m.dropping → s.addr = none →
      DropStep m { m with dropping := m.dropping.erase (t, s) }
  /-- drop glue on a handle that is not the last one -/
  | lower (m : Mem) (t a : Nat) (s : Slot) (b : Block) : (t, s) ∈ m.dropping → s.addr = some a → m.at a = some b →
      b.count ≠ 1 → DropStep m { m with blocks := m.lower a, dropping := m.dropping.erase (t, s) }
  /-- drop glue on the last handle: the contents are dropped, too, by the same thread -/
  | free (m : Mem) (t a : Nat) (s : Slot) (b : Block) : (t, s) ∈ m.dropping → s.addr = some a → m.at a = some b →
      b.count = 1 →
      DropStep m { m with
        blocks := m.without a
        dropping := (b.cell.slots.map (Prod.mk t) : Multiset (Nat × Slot)) + m.dropping.erase (t, s) }

/-- The steps of threads. -/
inductive MemStep : Mem → Mem → Prop
  /-- a thread makes a scalar -/
  | scalar (m : Mem) (t : Nat) (s : Slot) : s.addr = none → MemStep m { m with held := (t, s) ::ₘ m.held }
  /-- a thread clones a value that it can reach from a value that it, or a thread it borrows from, owns: `clone`,
  `Arr::get`, `Tup::get`, `Obj::get`, `get_parent`, `get_with_source`, typed getters (src/arr.rs:92-98, src/tup.rs:61-67,
  src/obj.rs:210-253, src/value.rs:50-138) -/
  | clone (m : Mem) (t t' : Nat) (s s' : Slot) : (t', s) ∈ m.held → m.Reach s s' →
      MemStep m { m with blocks := m.bump s', held := (t, s') ::ₘ m.held }
  /-- src/arr.rs:65-73 `Arr::from_values_unchecked` (and 34-55 `from_values`, with the type it has found) -/
  | newArr (m : Mem) (t a : Nat) (ty : Ty) (vs : List Slot) : m.at a = none →
      (vs.map (Prod.mk t) : Multiset (Nat × Slot)) ≤ m.held → MemStep m (m.alloc t a (.arr m.nextId ty vs))
  /-- src/tup.rs:32-42 `Tup::from_values` -/
  | newTup (m : Mem) (t a : Nat) (vs : List Slot) : m.at a = none →
      (vs.map (Prod.mk t) : Multiset (Nat × Slot)) ≤ m.held → MemStep m (m.alloc t a (.tup m.nextId (vs.map m.typeOf) vs))
  /-- src/obj.rs:132-138 `Obj::from_pairs_unchecked` (and 116-124 `from_pairs` after its check) -/
  | newObj (m : Mem) (t a : Nat) (ps : List (Str × Slot)) (par : Option Nat) : m.at a = none →
      ((Cell.obj m.nextId ps par).slots.map (Prod.mk t) : Multiset (Nat × Slot)) ≤ m.held →
      MemStep m (m.alloc t a (.obj m.nextId ps par))
  /-- another use of `gen_id` in the process -/
  | tick (m : Mem) : MemStep m { m with nextId := m.nextId + 1 }
  /-- a value is sent to another thread -/
  | send (m : Mem) (t t' : Nat) (s : Slot) : (t, s) ∈ m.held →
      MemStep m { m with held := (t', s) ::ₘ m.held.erase (t, s) }
  /-- a thread lets go of a value -/
  | drop (m : Mem) (t : Nat) (s : Slot) : (t, s) ∈ m.held →
      MemStep m { m with held := m.held.erase (t, s), dropping := (t, s) ::ₘ m.dropping }
  /-- the drop glue of some thread goes on -/
  | glue {m m' : Mem} : DropStep m m' → MemStep m m'

/-- Executions: any interleaving. -/
inductive MemExec : Mem → Mem → Prop
  | nil (m : Mem) : MemExec m m
  | snoc {m m' m'' : Mem} : MemExec m m' → MemStep m' m'' → MemExec m m''

/-- Executions of drop glue only. -/
inductive DropExec : Mem → Mem → Prop
  | nil (m : Mem) : DropExec m m
  | cons {m m' m'' : Mem} : DropStep m m' → DropExec m' m'' → DropExec m m''

/-- Executions in which something stays true from the first to the last state. -/
inductive MemExecWhile (Q : Mem → Prop) : Mem → Mem → Prop
  | nil (m : Mem) : Q m → MemExecWhile Q m m
  | snoc {m m' m'' : Mem} : MemExecWhile Q m m' → MemStep m' m'' → Q m'' → MemExecWhile Q m m''

/-- src/arr.rs:92-98 `Arr::get`, src/tup.rs:61-67 `Tup::get`: the slot that is cloned; `none` when this is not the handle of
an array or tuple. -/
def Mem.getIndex (m : Mem) (s : Slot) (i : Nat) : Option (Except OverError Slot) :=
  match s with
  | .arr a => match m.at a with
    | some ⟨_, _, .arr _ _ vs⟩ => match vs[i]? with
      | some x => some (.ok x)
      | none => some (.error (.arrOutOfBounds i))
    | _ => none
  | .tup a => match m.at a with
    | some ⟨_, _, .tup _ _ vs⟩ => match vs[i]? with
      | some x => some (.ok x)
      | none => some (.error (.tupOutOfBounds i))
    | _ => none
  | _ => none

/-- src/obj.rs:210-223, 227-240 `Obj::get`, `Obj::get_with_source`: the slot that is found, and the address of the object
in which it is found. -/
inductive Mem.GetField (m : Mem) (f : Str) : Nat → Option (Slot × Nat) → Prop
  | here {a id k : Nat} {ps : List (Str × Slot)} {par : Option Nat} {p : Str × Slot} : m.at a = some ⟨a, k, .obj id ps par⟩ →
      ps.find? (fun p => p.1 == f) = some p → Mem.GetField m f a (some (p.2, a))
  | nowhere {a id k : Nat} {ps : List (Str × Slot)} : m.at a = some ⟨a, k, .obj id ps none⟩ →
      ps.find? (fun p => p.1 == f) = none → Mem.GetField m f a none
  | above {a id k q : Nat} {ps : List (Str × Slot)} {r : Option (Slot × Nat)} : m.at a = some ⟨a, k, .obj id ps (some q)⟩ →
      ps.find? (fun p => p.1 == f) = none → Mem.GetField m f q r → Mem.GetField m f a r

end Over
