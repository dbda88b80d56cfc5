import Verif.Model.Parser
import Verif.Model.Format

/-!
# Concrete instances for the examples beside the theorems
-/

namespace Over

/-- A table in which no character above U+007F is alphabetic. -/
@[reducible] def sampleUnicode : Unicode := ⟨fun _ => false, fun c => [c]⟩

/-- No files at all. -/
def noFiles : FS := ⟨fun _ => none, [], fun _ => true, fun _ => c!"No such file or directory (os error 2)"⟩

/-- There is no file to include. -/
theorem noFiles_isFile (p : Str) : noFiles.isFile p = false := by
  have : noFiles.resolve p = none := by unfold FS.resolve; split <;> rfl
  simp [FS.isFile, this]

/-- A file system with the given files, no directories and no links. -/
def files (l : List (Str × Str)) : FS :=
  ⟨fun p => if l.any (fun e => e.1 == p) then some p else none,
    l.map (fun e => (e.1, .ok e.2)), fun _ => true, fun _ => c!"No such file or directory (os error 2)"⟩

/-- A process in which nothing has happened yet (src/lib.rs:60: the counter starts at 0). -/
def startRt : Rt := ⟨⟨0, none, none, none, none⟩, 0, fun _ s => s,
  fun _ _ => ⟨Nat.le_refl _, fun _ _ h => h, fun _ _ h h' => by rw [h] at h'; cases h'⟩⟩

/-- The written form of a successful result. -/
def Res.written : Res Obj → Option Str
  | .ok o _ => o.writeToString
  | _ => none

/-- The message of an error, as the caller sees it. -/
def Res.message [Unicode] {α : Type} : Res α → Option Str
  | .err e => some e.toOver.display
  | _ => none

/-- The action panicked. -/
def Res.panicked {α : Type} : Res α → Bool
  | .panic => true
  | _ => false

end Over
