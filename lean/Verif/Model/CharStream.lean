import Verif.Model.Stream
import Mathlib.Data.Multiset.Count
import Mathlib.Data.Multiset.AddSub

/-!
# The character stream in memory (src/parse/char_stream.rs)

`Model/Stream.lean` keeps one stream value and threads it through the parser.  Here the `Rc<RefCell<Inner>>` is an allocation with a strong
count and a borrow flag, `contents` is a buffer of bytes, and `stream` points into this buffer with a lifetime that the `unsafe` line 44
has made up.  A step can end well, with a panic (the flag of the `RefCell`), or in undefined behaviour: a read of memory that has been
freed, a read past the end of the bytes, a number that is not a `char`.  Streams are not `Send`: all handles of one stream belong to one
thread, and the threads of a process work on disjoint streams, so operations on streams can be put in one order.
-/

namespace Over

/-- How a piece of code ends. -/
inductive MemEnds (α : Type) where
  | ok (a : α)
  | panic
  | undefined
  deriving DecidableEq

/-- The bytes of a string. -/
def utf8 (s : Str) : List UInt8 := s.flatMap String.utf8EncodeChar

/-- `std::str::Chars`: the bytes from `off` to `stop` of the buffer at an address. -/
structure CharsIter where
  buf : Nat
  off : Nat
  stop : Nat
  deriving DecidableEq

/-- src/parse/char_stream.rs:13-20 `Inner`.  `contents` is the address of the bytes of the `String`; `stream` and `peeked` are the two parts
of the `Peekable`. -/
structure StreamInner where
  file : Option Str
  contents : Nat
  stream : CharsIter
  peeked : Option (Option Char)
  line : Nat
  col : Nat
  deriving DecidableEq

/-- The flag of a `RefCell`. -/
inductive Flag where
  | unused
  | reading (n : Nat)
  | writing
  deriving DecidableEq

/-- src/parse/char_stream.rs:22-25: what `Rc<RefCell<Inner>>` points to. -/
structure RcCell where
  strong : Nat
  flag : Flag
  inner : StreamInner
  deriving DecidableEq

/-- The memory: buffers of strings and allocations of streams, by address. -/
structure StreamHeap where
  bufs : Nat → Option (List UInt8)
  cells : Nat → Option RcCell

/-- Storing something at an address. -/
def setAt {α : Type} (f : Nat → Option α) (a : Nat) (x : Option α) : Nat → Option α := fun b => if b = a then x else f b

/-- Code that works on the memory. -/
def SM (α : Type) := StreamHeap → MemEnds (α × StreamHeap)

/-- One after the other. -/
def SM.bind {α β : Type} (m : SM α) (k : α → SM β) : SM β := fun h =>
  match m h with
  | .ok (a, h') => k a h'
  | .panic => .panic
  | .undefined => .undefined

instance : Monad SM where
  pure a := fun h => .ok (a, h)
  bind := SM.bind

/-- A byte of a buffer. -/
def readByte (buf off : Nat) : SM UInt8 := fun h =>
  match h.bufs buf with
  | some bytes => match bytes[off]? with
    | some b => .ok (b, h)
    | none => .undefined
  | none => .undefined

/-- The next byte of a `Chars`, where its code does not check for the end (`unwrap_unchecked`). -/
def CharsIter.byte (it : CharsIter) : SM (UInt8 × CharsIter) := do
  let b ← readByte it.buf it.off
  pure (b, { it with off := it.off + 1 })

/-- `char::from_u32_unchecked`. -/
def charUnchecked (n : Nat) : SM Char := fun h =>
  if hn : n.isValidChar then .ok (Char.ofNatAux n hn, h) else .undefined

/-- `Chars::next` of the standard library (`next_code_point`), with the bit operations written as arithmetic. -/
def CharsIter.next (it : CharsIter) : SM (Option Char × CharsIter) :=
  if it.off = it.stop then pure (none, it)
  else do
    let (x, it) ← it.byte
    if x.toNat < 0x80 then do
      let c ← charUnchecked x.toNat
      pure (some c, it)
    else do
      let init := x.toNat % 32
      let (y, it) ← it.byte
      if x.toNat < 0xe0 then do
        let c ← charUnchecked (init * 64 + y.toNat % 64)
        pure (some c, it)
      else do
        let (z, it) ← it.byte
        let yz := y.toNat % 64 * 64 + z.toNat % 64
        if x.toNat < 0xf0 then do
          let c ← charUnchecked (init * 4096 + yz)
          pure (some c, it)
        else do
          let (w, it) ← it.byte
          let c ← charUnchecked (init % 8 * 262144 + (yz * 64 + w.toNat % 64))
          pure (some c, it)

/-- `RefCell::borrow_mut`, the code that uses the borrow, and its end. -/
def withMut {α : Type} (a : Nat) (f : StreamInner → SM (α × StreamInner)) : SM α := fun h =>
  match h.cells a with
  | none => .undefined
  | some c =>
    if c.flag = .unused then
      match f c.inner { h with cells := setAt h.cells a (some { c with flag := .writing }) } with
      | .ok ((x, inner), h') => .ok (x, { h' with cells := setAt h'.cells a (some { c with inner := inner }) })
      | .panic => .panic
      | .undefined => .undefined
    else .panic

/-- `RefCell::borrow`, the code that uses the borrow, and its end. -/
def withRef {α : Type} (a : Nat) (f : StreamInner → α) : SM α := fun h =>
  match h.cells a with
  | none => .undefined
  | some c => match c.flag with
    | .writing => .panic
    | _ => .ok (f c.inner, h)

/-- `Peekable::peek`. -/
def StreamInner.peek (s : StreamInner) : SM (Option Char × StreamInner) :=
  match s.peeked with
  | some r => pure (r, s)
  | none => do
    let (r, it) ← s.stream.next
    pure (r, { s with stream := it, peeked := some r })

/-- `Peekable::next`. -/
def StreamInner.next (s : StreamInner) : SM (Option Char × StreamInner) :=
  match s.peeked with
  | some r => pure (r, { s with peeked := none })
  | none => do
    let (r, it) ← s.stream.next
    pure (r, { s with stream := it })

/-- src/parse/char_stream.rs:58-66 `peek`. -/
def csPeek (a : Nat) : SM (Option Char) := withMut a StreamInner.peek

/-- src/parse/char_stream.rs:68-71 `file`. -/
def csFile (a : Nat) : SM (Option Str) := withRef a StreamInner.file

/-- src/parse/char_stream.rs:73-76 `line`. -/
def csLine (a : Nat) : SM Nat := withRef a StreamInner.line

/-- src/parse/char_stream.rs:78-81 `col`. -/
def csCol (a : Nat) : SM Nat := withRef a StreamInner.col

/-- src/parse/char_stream.rs:83-86 `set_line`. -/
def csSetLine (a value : Nat) : SM Unit := withMut a fun s => pure ((), { s with line := value })

/-- src/parse/char_stream.rs:88-91 `set_col`. -/
def csSetCol (a value : Nat) : SM Unit := withMut a fun s => pure ((), { s with col := value })

/-- src/parse/char_stream.rs:97-117 `next`: the borrow for the character ends before `line`, `set_line` … borrow again. -/
def csNext (a : Nat) : SM (Option Char) := do
  match ← withMut a StreamInner.next with
  | some ch => do
    if ch = '\n' then do
      let line ← csLine a
      csSetLine a (line + 1)
      csSetCol a 1
    else do
      let col ← csCol a
      csSetCol a (col + 1)
    pure (some ch)
  | none => pure none

/-- src/parse/char_stream.rs:22 `CharStream::clone`: `Rc::clone`. -/
def csClone (a : Nat) : SM Unit := fun h =>
  match h.cells a with
  | some c => .ok ((), { h with cells := setAt h.cells a (some { c with strong := c.strong + 1 }) })
  | none => .undefined

/-- The end of a handle: `Drop for Rc`; with the last one `Inner` and the bytes of `contents` are freed. -/
def csDrop (a : Nat) : SM Unit := fun h =>
  match h.cells a with
  | some c =>
    if c.strong = 1 then .ok ((), ⟨setAt h.bufs c.inner.contents none, setAt h.cells a none⟩)
    else .ok ((), { h with cells := setAt h.cells a (some { c with strong := c.strong - 1 }) })
  | none => .undefined

/-- src/parse/char_stream.rs:43-56 `from_string_impl` for a string whose bytes are at the address `b`, where the new allocation gets the
address `a`.  (Moving a `String` does not move its bytes.) -/
def csOpen (a b : Nat) (file : Option Str) (text : Str) (h : StreamHeap) : StreamHeap :=
  ⟨setAt h.bufs b (some (utf8 text)),
    setAt h.cells a (some ⟨1, .unused, ⟨file, b, ⟨b, 0, (utf8 text).length⟩, none, 1, 1⟩⟩)⟩

/-- What can be done with a handle. -/
inductive StreamOp where
  | peek
  | next
  | file
  | line
  | col

/-- What comes out. -/
inductive StreamRes where
  | char (c : Option Char)
  | file (f : Option Str)
  | num (n : Nat)

/-- An operation on a handle. -/
def StreamOp.run (a : Nat) : StreamOp → SM StreamRes
  | .peek => do return .char (← csPeek a)
  | .next => do return .char (← csNext a)
  | .file => do return .file (← csFile a)
  | .line => do return .num (← csLine a)
  | .col => do return .num (← csCol a)

/-- What happened. -/
inductive StreamEvent where
  | opened (a : Nat) (file : Option Str) (text : Str)
  | cloned (a : Nat)
  | dropped (a : Nat)
  | did (a : Nat) (op : StreamOp)

/-- The memory, and the handles that the program owns. -/
structure StreamSys where
  heap : StreamHeap
  owned : Multiset Nat

/-- Executions, with what happened: streams are opened (the allocator gives out any unused addresses), handles are cloned, used and dropped
in any order; safe code uses only handles that it owns. -/
inductive StreamExec : List StreamEvent → StreamSys → Prop
  | nil : StreamExec [] ⟨⟨fun _ => none, fun _ => none⟩, 0⟩
  | opened {tr : List StreamEvent} {s : StreamSys} (a b : Nat) (file : Option Str) (text : Str) : StreamExec tr s →
      s.heap.cells a = none → s.heap.bufs b = none →
      StreamExec (tr ++ [.opened a file text]) ⟨csOpen a b file text s.heap, a ::ₘ s.owned⟩
  | cloned {tr : List StreamEvent} {s : StreamSys} {a : Nat} {h : StreamHeap} : StreamExec tr s → a ∈ s.owned →
      csClone a s.heap = .ok ((), h) → StreamExec (tr ++ [.cloned a]) ⟨h, a ::ₘ s.owned⟩
  | dropped {tr : List StreamEvent} {s : StreamSys} {a : Nat} {h : StreamHeap} : StreamExec tr s → a ∈ s.owned →
      csDrop a s.heap = .ok ((), h) → StreamExec (tr ++ [.dropped a]) ⟨h, s.owned.erase a⟩
  | did {tr : List StreamEvent} {s : StreamSys} {a : Nat} {op : StreamOp} {r : StreamRes} {h : StreamHeap} : StreamExec tr s →
      a ∈ s.owned → op.run a s.heap = .ok (r, h) → StreamExec (tr ++ [.did a op]) ⟨h, s.owned⟩

end Over
