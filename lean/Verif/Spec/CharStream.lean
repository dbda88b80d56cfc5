import Verif.Model.CharStream

/-!
# What a stream should do

A stream is a text of which some characters have been read; all handles of a stream see the same.
-/

namespace Over

/-- The result of an operation on a stream in this state. -/
def StreamOp.result (s : Stream) : StreamOp → StreamRes
  | .peek => .char s.peek
  | .next => .char s.next.1
  | .file => .file s.file
  | .line => .num s.pos.line
  | .col => .num s.pos.col

/-- The state after an operation: only `next` changes something. -/
def StreamOp.after (s : Stream) : StreamOp → Stream
  | .next => s.next.2
  | _ => s

/-- What an event means for the stream at an address. -/
def StreamEvent.effect (a : Nat) (s : Option Stream) : StreamEvent → Option Stream
  | .opened a' file text => if a' = a then some (.ofString file text) else s
  | .did a' op => if a' = a then s.map op.after else s
  | .cloned _ => s
  | .dropped _ => s

/-- The stream at an address (the one that was opened there last) after everything that happened. -/
def streamAt (tr : List StreamEvent) (a : Nat) : Option Stream := tr.foldl (StreamEvent.effect a) none

/-- A stream is opened at `a`. -/
def StreamEvent.opens (a : Nat) : StreamEvent → Bool
  | .opened a' _ _ => a' == a
  | _ => false

/-- A character is read from the stream at `a`. -/
def StreamEvent.reads (a : Nat) : StreamEvent → Bool
  | .did a' .next => a' == a
  | _ => false

end Over
