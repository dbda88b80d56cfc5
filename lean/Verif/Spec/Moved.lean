import Verif.Spec.Paths

/-!
# The same files seen from two places
-/

namespace Over

/-- Two ways to name files, `f` in the file system `fs` and `f'` in `fs'`, where `R f f'`, name the same files: what is included in
corresponding files corresponds, there are files at corresponding paths, with the same text, and it is the same file or another one that
is found twice.  (`none` is a text that is in no file.) -/
structure FilesAlike (fs fs' : FS) (R : Option Str → Option Str → Prop) : Prop where
  kind : ∀ f f', R f f' → (f = none ↔ f' = none)
  meant : ∀ f f' p, R f f' → (∀ g, f = some g → fs.isFile g = true) → R (some (meantIn f p)) (some (meantIn f' p))
  isFile : ∀ g g', R (some g) (some g') → fs'.isFile g' = fs.isFile g
  read : ∀ g g', R (some g) (some g') → fs.isFile g = true → fs'.read g' = fs.read g
  utf8 : ∀ g g' c c', R (some g) (some g') → fs.resolve g = some c → fs'.resolve g' = some c' → fs'.utf8 c' = fs.utf8 c
  same : ∀ g g' h h', R (some g) (some g') → R (some h) (some h') → fs.isFile g = true → fs.isFile h = true →
    (fs.resolve g = fs.resolve h ↔ fs'.resolve g' = fs'.resolve h')

/-- The files of `fs` are found in `fs'`, where there may be more: when what is included is a file of `fs`, it corresponds to what is included
in the corresponding file. -/
structure Holds (fs fs' : FS) (R : Option Str → Option Str → Prop) : Prop where
  kind : ∀ f f', R f f' → (f = none ↔ f' = none)
  meant : ∀ f f' p, R f f' → (∀ g, f = some g → fs.isFile g = true) → fs.isFile (meantIn f p) = true →
    R (some (meantIn f p)) (some (meantIn f' p))
  isFile : ∀ g g', R (some g) (some g') → fs.isFile g = true → fs'.isFile g' = true
  read : ∀ g g', R (some g) (some g') → fs.isFile g = true → fs'.read g' = fs.read g
  utf8 : ∀ g g' c c', R (some g) (some g') → fs.isFile g = true → fs.resolve g = some c → fs'.resolve g' = some c' → fs.utf8 c = true → fs'.utf8 c' = true
  same : ∀ g g' h h', R (some g) (some g') → R (some h) (some h') → fs.isFile g = true → fs.isFile h = true →
    (fs.resolve g = fs.resolve h ↔ fs'.resolve g' = fs'.resolve h')

/-- Corresponding outcomes: the same object, or the same error in the corresponding file; a panic for a panic. -/
def ReadAlike (R : Option Str → Option Str → Prop) (r r' : Res Obj) : Prop :=
  (∃ o s s', r = .ok o s ∧ r' = .ok o s' ∧ s'.rt = s.rt) ∨
  (∃ e e', r = .err e ∧ r' = .err e' ∧ e'.kind = e.kind ∧ (R e.file e'.file ∨ e.file = none ∧ e'.file = none)) ∨
  (r = .panic ∧ r' = .panic)

/-- An included file was not found. -/
def ParseError.Missing (e : ParseError) : Prop := ∃ p l c, e.kind = .invalidIncludePath p l c

/-- The second outcome as far as the first tells it: the same object, the same error in the corresponding file; nothing, if a file was
not found. -/
def AlsoRead (R : Option Str → Option Str → Prop) (r r' : Res Obj) : Prop :=
  (∀ o s, r = .ok o s → ∃ s', r' = .ok o s' ∧ s'.rt = s.rt) ∧
  (∀ e, r = .err e → e.Missing ∨ ∃ e', r' = .err e' ∧ e'.kind = e.kind ∧ (R e.file e'.file ∨ e.file = none ∧ e'.file = none))

/-- The path `g` is the relative path `q` as seen from the directory `D`; in the working directory, `./q` is `q`. -/
def Below (D q g : Str) : Prop := g = D ++ q ∨ D = [] ∧ g = c!"./" ++ q

/-- The paths `g` and `g'` are the same relative path from the directories `D` and `D'`, or the same absolute path. -/
def SamePlace (D D' : Str) (g g' : Str) : Prop :=
  (∃ q, ¬ Absolute q ∧ Below D q g ∧ Below D' q g') ∨ (Absolute g ∧ g' = g)

/-- The same for names of files; a text that is in no file is read from the working directory. -/
def SameName (D D' : Str) : Option Str → Option Str → Prop
  | some g, some g' => SamePlace D D' g g'
  | none, none => D = [] ∧ D' = []
  | _, _ => False

/-- The files as seen from the directory `D` in `fs` are the same as those seen from `D'` in `fs'`: there are files at corresponding
paths, with the same text, and it is the same file or another one that is found at two paths.  `D` itself is no file. -/
structure SameFrom (fs : FS) (D : Str) (fs' : FS) (D' : Str) : Prop where
  isFile : ∀ g g', SamePlace D D' g g' → fs'.isFile g' = fs.isFile g
  read : ∀ g g', SamePlace D D' g g' → fs.isFile g = true → fs'.read g' = fs.read g
  utf8 : ∀ g g' c c', SamePlace D D' g g' → fs.resolve g = some c → fs'.resolve g' = some c' → fs'.utf8 c' = fs.utf8 c
  same : ∀ g g' h h', SamePlace D D' g g' → SamePlace D D' h h' → fs.isFile g = true → fs.isFile h = true →
    (fs.resolve g = fs.resolve h ↔ fs'.resolve g' = fs'.resolve h')
  noFile : ∀ q g, segments q = [] → ¬ Absolute q → Below D q g → fs.isFile g = false

/-- From a directory `n` steps below another, the steps never lead above the other. -/
def Inside : Nat → List Str → Prop
  | _, [] => True
  | n, x :: r => if x = c!".." then 0 < n ∧ Inside (n - 1) r else Inside (n + 1) r

/-- A relative path that never leads above the directory where it begins. -/
def Stays (q : Str) : Prop := ¬ Absolute q ∧ Inside 0 (segments q)

/-- `fs` is a project: its files are in the directory `D` (and not at other paths, as seen from here). -/
structure Project (fs : FS) (D : Str) : Prop where
  only : ∀ g, fs.isFile g = true → ∃ q, Stays q ∧ segments q ≠ [] ∧ Below D q g

/-- The project in the directory `D` of `fs` is also in the directory `D'` of `fs'`: all of its files are, with the same text, and it is the
same file or another one that is found at two paths. -/
structure Copied (fs : FS) (D : Str) (fs' : FS) (D' : Str) : Prop where
  isFile : ∀ q g g', Stays q → Below D q g → Below D' q g' → fs.isFile g = true → fs'.isFile g' = true
  read : ∀ q g g', Stays q → Below D q g → Below D' q g' → fs.isFile g = true → fs'.read g' = fs.read g
  utf8 : ∀ q g g' c c', Stays q → Below D q g → Below D' q g' → fs.isFile g = true → fs.resolve g = some c → fs'.resolve g' = some c' →
    fs.utf8 c = true → fs'.utf8 c' = true
  same : ∀ q g g' r h h', Stays q → Below D q g → Below D' q g' → Stays r → Below D r h → Below D' r h' →
    fs.isFile g = true → fs.isFile h = true → (fs.resolve g = fs.resolve h ↔ fs'.resolve g' = fs'.resolve h')

/-- The corresponding file of the project; a text that is in no file is read from the working directory. -/
def OfProject (D D' : Str) : Option Str → Option Str → Prop
  | some g, some g' => ∃ q, Stays q ∧ segments q ≠ [] ∧ Below D q g ∧ Below D' q g'
  | none, none => D = [] ∧ D' = []
  | _, _ => False

end Over
