import Verif
open Over
instance : Unicode := ⟨fun _ => true, fun c => [c]⟩
def norm (s : String) : String :=
  let parts := s.splitOn "/"
  let r := parts.foldl (fun (acc : List String) p => if p = "." then acc else if p = ".." then acc.drop 1 else p :: acc) []
  "/".intercalate r.reverse
def dirOf (s : String) : String := "/".intercalate (s.splitOn "/").dropLast
partial def collect (d : System.FilePath) : IO (List System.FilePath) := do
  let mut r := []
  for e in ← d.readDir do
    if ← e.path.isDir then r := r ++ (← collect e.path) else r := e.path :: r
  return r
def main (args : List String) : IO Unit := do
  let fsl ← collect "tests/test_files"
  let nodes ← fsl.mapM fun p => do
    let c ← try let s ← IO.FS.readFile p; pure (Except.ok s.toList) catch _ => pure (Except.error "bad".toList)
    return ((norm p.toString).toList, c)
  let fs : FS := { join := fun a b => (dirOf (String.ofList a) ++ "/" ++ String.ofList b).toList
                   resolve := fun p => let q := (norm (String.ofList p)).toList
                                       if nodes.any (fun e => e.1 == q) then some q else none
                   nodes := nodes, utf8 := fun _ => true, openErr := fun _ => "openErr".toList }
  for a in args do
    match fromFile fs a.toList ⟨0, none, none, none, none⟩ with
    | .ok o s =>
      let w := (o.writeToString.getD "WRITEPANIC".toList)
      IO.println s!"OK {a} ids={s.rt.curId} opened={s.inc.opened.length}"
      IO.println (String.ofList w)
      match fromStr fs w s.rt with
      | .ok o2 _ => IO.println s!"ROUNDTRIP {o.eq o2}"
      | .err e => IO.println s!"ROUNDTRIP ERR {String.ofList e.display}"
      | _ => IO.println "RT PANIC"
    | .err e => IO.println s!"ERR {a}\t{String.ofList e.display}"
    | .panic => IO.println s!"PANIC {a}"
    | .oof => IO.println s!"OOF {a}"
