import Verif.Model.Parser
import Verif.Model.Format

/-!
# Writing files (src/util.rs, src/obj.rs)
-/

namespace Over

/-- What `File::open` + `read_to_string` (src/parse/char_stream.rs:28-37) make of a file with these bytes: its characters,
or the error of the standard library when they are not valid UTF-8. -/
def readBytes (b : ByteArray) : Except Str Str :=
  match b.utf8Decode? with
  | some cs => .ok cs.toList
  | none => .error c!"stream did not contain valid UTF-8"

/-- What the operating system may do when `path` is created or emptied, and filled (`File::create` opens the regular file
the path leads to, following links, and empties it, or creates a new one): the path leads to a file with the given
contents `r` (as a reader sees them), no other file has changed; paths that led to something still lead there, other
paths (the new one and its aliases) may begin to lead to the new file. -/
structure FileHolds (fs : FS) (path : Str) (r : Except Str Str) (fs' : FS) : Prop where
  /-- the path leads to a file with the new contents -/
  target : ∃ c, fs'.resolve path = some c ∧ StrMap.get fs'.nodes c = some r ∧
    ∀ c', c' ≠ c → StrMap.get fs'.nodes c' = StrMap.get fs.nodes c'
  /-- known paths keep their meaning -/
  stable : ∀ p c, fs.resolve p = some c → fs'.resolve p = some c

/-- src/util.rs:29-36 `write_file_str`: how a call can end, and the file system it leaves.  `none` says that the process
died in the middle of the call (what a stopped machine leaves on its disk is up to the operating system, not modelled). -/
inductive WriteFileStr (fs : FS) (path contents : Str) : Option (Except Str Unit) → FS → Prop
  /-- `File::create` failed -/
  | notCreated (msg : Str) : WriteFileStr fs path contents (some (.error msg)) fs
  /-- died before `File::create` -/
  | diedBefore : WriteFileStr fs path contents none fs
  /-- `write_all` failed after some bytes -/
  | failed (msg : Str) (n : Nat) {fs' : FS} : FileHolds fs path (readBytes (contents.utf8Encode.extract 0 n)) fs' →
      WriteFileStr fs path contents (some (.error msg)) fs'
  /-- died after some bytes (none of them: just after `File::create`; all of them: just before the return) -/
  | died (n : Nat) {fs' : FS} : FileHolds fs path (readBytes (contents.utf8Encode.extract 0 n)) fs' →
      WriteFileStr fs path contents none fs'
  /-- success: all bytes were written -/
  | done {fs' : FS} : FileHolds fs path (readBytes contents.utf8Encode) fs' → WriteFileStr fs path contents (some (.ok ())) fs'

/-- src/obj.rs:159-162 `Obj::write_to_file`: the text of the object goes to the file; an error of the operating system
becomes an `IoError` (src/error.rs:55-59). -/
inductive Obj.WriteToFile (o : Obj) (fs : FS) (path : Str) : Option (Except OverError Unit) → FS → Prop
  | ok {text : Str} {fs' : FS} : o.writeToString = some text → WriteFileStr fs path text (some (.ok ())) fs' →
      Obj.WriteToFile o fs path (some (.ok ())) fs'
  | err {text msg : Str} {fs' : FS} : o.writeToString = some text → WriteFileStr fs path text (some (.error msg)) fs' →
      Obj.WriteToFile o fs path (some (.error (.ioError msg))) fs'
  | died {text : Str} {fs' : FS} : o.writeToString = some text → WriteFileStr fs path text none fs' →
      Obj.WriteToFile o fs path none fs'

end Over
