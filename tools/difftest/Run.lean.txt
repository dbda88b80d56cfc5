import Verif.Model.Parser
import Verif.Model.Format
import Verif.Spec.Sample
/-! Reads cases (see run.py) and prints what the model does with them.  Not part of the proof development. -/
open Over
local instance : Unicode := ⟨fun c => c == 'é', fun c => [c]⟩
def str (s : String) : Str := s.toList
mutual
partial def dump : Value → String
  | .null => "null" | .bool b => if b then "true" else "false" | .int i => toString i
  | .frac q => s!"{q.num}/{q.den}"
  | .str s => "s" ++ ".".intercalate (s.map fun c => toString c.toNat)
  | .arr i t vs => s!"[{i}:{String.ofList t.display}|" ++ " ".intercalate (vs.map dump) ++ "]"
  | .tup i ts vs => s!"({i}:{",".intercalate (ts.map fun t => String.ofList t.display)}|" ++ " ".intercalate (vs.map dump) ++ ")"
  | .obj o => dumpO o
partial def dumpO : Obj → String
  | .mk i ps par => s!"\{{i}:" ++ (match par with | some p => dumpO p | none => "-") ++ "|" ++
      " ".intercalate (ps.map fun p => String.ofList p.field ++ "=" ++ dump p.value) ++ "}"
end
def norm (p : Str) : Str :=
  let segs := (String.ofList p).splitOn "/"
  let r := segs.foldl (fun (acc : List String) s => if s == "." || s == "" then acc else if s == ".." then acc.tail else s :: acc) []
  str ("/" ++ "/".intercalate r.reverse)
def fsOf (l : List (Str × Option Str)) (dirs : List Str) : FS where
  canon p := if p == [] then none else
    let n := norm p
    if l.any (fun e => e.1 == n) || dirs.contains n then some n else none
  nodes := l.map fun e => (e.1, match e.2 with | some s => .ok s | none => .error (str "stream did not contain valid UTF-8"))
  utf8 _ := true
  openErr _ := str "cannot open"
def unhex (s : String) : Str := if s == "" then [] else (s.splitOn ",").map fun x => Char.ofNat x.toNat!
def esc (s : Str) : String := "s" ++ ".".intercalate (s.map fun c => toString c.toNat)
def out (r : Res Obj) : String := match r with
  | .ok o s => "ok " ++ dumpO o ++ " next " ++ toString s.rt.curId ++ " text " ++ (match o.writeToString with | some t => esc t | none => "PANIC") ++
      " disp " ++ (match o.display with | some t => esc t | none => "PANIC")
  | .err e => "err " ++ esc e.display
  | .panic => "panic" | .oof => "oof"
def one (line : String) : String :=
  match line.splitOn "|" with
  | [mode, main, dirs, fs] =>
    let l := if fs == "" then [] else (fs.splitOn ";").map fun e => match e.splitOn "=" with
      | [a, b] => (unhex a, if b == "X" then none else some (unhex b)) | _ => ([], none)
    let sys := fsOf l (if dirs == "" then [] else (dirs.splitOn ";").map unhex)
    if mode == "s" then out (fromStr sys (unhex main) startRt) else out (fromFile sys (unhex main) startRt)
  | _ => "bad"
partial def loop (h : IO.FS.Stream) : IO Unit := do
  let line ← h.getLine
  if line == "" then return
  IO.println (one (line.trimAsciiEnd.toString))
  loop h
def main : IO Unit := do loop (← IO.getStdin)
