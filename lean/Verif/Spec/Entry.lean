import Verif.Model.Parser

/-!
# Runs of the two entry points

The main text of a run is what was passed to `Obj::from_str` (it has no name), or the contents of the file
passed to `Obj::from_file` (it has the name that was passed).
-/

namespace Over

/-- `Runs fs rt main r`: `from_str`/`from_file`, called on the main text `main` (name and text) with the
file system `fs` in the process state `rt`, ends with `r`. -/
inductive Runs [Unicode] (fs : FS) (rt : Rt) : Option Str × Str → Res Obj → Prop
  | str (contents : Str) : Runs fs rt (none, contents) (fromStr fs contents rt)
  | file (path contents : Str) : fs.read path = .ok contents →
      Runs fs rt (some path, contents) (fromFile fs path rt)

end Over
