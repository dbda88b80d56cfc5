import Verif.Model.World

/-!
# Snapshots
-/

namespace Over

/-- The two file systems have the same directories, links and files; the files can have different texts, and can be unreadable in one of
them. -/
structure FS.SameTree (fs fs' : FS) : Prop where
  resolve : fs'.resolve = fs.resolve
  utf8 : fs'.utf8 = fs.utf8
  files : ∀ c, (StrMap.get fs'.nodes c).isSome = (StrMap.get fs.nodes c).isSome

/-- `snap` is a snapshot of a file system that was `fs` at the beginning and `w` later: it has the same directories, links and files, and
every file is (as a whole: its text, or why it cannot be read) what it was at some moment. -/
structure Snapshot (fs : FS) (w : FSWorld) (snap : FS) : Prop where
  tree : fs.SameTree snap
  contents : ∀ c x, StrMap.get snap.nodes c = some x → StrMap.get fs.nodes c = some x ∨ ∃ s, StrMap.get (w s).nodes c = some x

/-- No file ever has more than `L` characters. -/
def FSWorld.SmallFiles (w : FSWorld) (fs : FS) (L : Nat) : Prop :=
  ∀ c t, (StrMap.get fs.nodes c = some (.ok t) ∨ ∃ s, StrMap.get (w s).nodes c = some (.ok t)) → t.length ≤ L

end Over
