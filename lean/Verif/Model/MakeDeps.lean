import Verif.Spec.MakeDeps
/-!
# Model of how bpf2go rewrites dependency files

Text is ASCII (bytes). Reading never fails, and bufio.Scanner has no limit for the length of a line.
-/
namespace Ebpf.MakeDeps
open MakeDepsSpec

/-- bufio.ScanLines: lines without the newline; an unterminated last line counts unless empty. `cur` is the line so far
(cmd/bpf2go/makedep.go:64-67). -/
def splitLines : Text → Text → List Text
  | cur, [] => if cur = [] then [] else [cur]
  | cur, c :: s => if c = '\n' then cur :: splitLines [] s else splitLines (cur ++ [c]) s

/-- A carriage return at the end of a line is dropped by bufio.ScanLines (cmd/bpf2go/makedep.go:64). -/
def dropCR (l : Text) : Text := if l.getLast? = some '\r' then l.dropLast else l

/-- scanner.Scan and Bytes (cmd/bpf2go/makedep.go:64-68). -/
def scan (s : Text) : List Text := (splitLines [] s).map dropCR

/-- unicode.IsSpace, ASCII (strings.FieldsSeq, cmd/bpf2go/makedep.go:93). -/
def isSpace (c : Char) : Bool := c = ' ' || c = '\t' || c = '\n' || c = '\x0b' || c = '\x0c' || c = '\r'

/-- strings.FieldsSeq (cmd/bpf2go/makedep.go:93). -/
def fields : Text → Text → List Text
  | cur, [] => if cur = [] then [] else [cur]
  | cur, c :: s => if isSpace c then (if cur = [] then fields [] s else cur :: fields [] s) else fields (cur ++ [c]) s

/-- strings.SplitN at the first colon (cmd/bpf2go/makedep.go:85-88). -/
def splitColon : Text → Option (Text × Text)
  | [] => none
  | c :: s => if c = ':' then some ([], s) else (splitColon s).map (fun p => (c :: p.1, p.2))

/-- strings.Join with a slash. -/
def joinSlash : List Text → Text
  | [] => []
  | [c] => c
  | c :: cs => c ++ '/' :: joinSlash cs

/-- filepath.Clean of an absolute path, as components; filepath.Join cleans (cmd/bpf2go/makedep.go:61). -/
def cleanAbs (p : Text) : List Text :=
  (components p).foldl (fun acc c => if c = [] || c = ['.'] then acc else if c = ['.', '.'] then acc.dropLast else acc ++ [c]) []

/-- An absolute path as text. -/
def render (cs : List Text) : Text := '/' :: joinSlash cs

/-- abs (cmd/bpf2go/makedep.go:57-62), with filepath.IsAbs and filepath.Join. -/
def absPath (base p : Text) : Text :=
  if p.head? = some '/' then p else render (cleanAbs (base ++ '/' :: p))

/-- filepath.Rel of components (cmd/bpf2go/makedep.go:15, 30): the common part is left out, what remains of the base is walked up. -/
def relComponents : List Text → List Text → List Text
  | b :: bs, t :: ts => if b = t then relComponents bs ts else List.replicate (bs.length + 1) ['.', '.'] ++ t :: ts
  | bs, ts => List.replicate bs.length ['.', '.'] ++ ts

/-- filepath.Rel of absolute paths, which can't fail (cmd/bpf2go/makedep.go:15, 30). -/
def relPath (base p : Text) : Text :=
  let r := relComponents (cleanAbs base) (cleanAbs p)
  if r = [] then ['.'] else joinSlash r

/-- The loop of parseDependencies (cmd/bpf2go/makedep.go:67-102): `line` is the builder. -/
def parseLoop (limit : Nat) (base : Text) : Text → List Text → Option (List Rule)
  | _, [] => some []
  | line, buf :: rest =>
    if line.length + buf.length > limit then none
    else if buf.getLast? = some '\\' then parseLoop limit base (line ++ buf.dropLast) rest
    else
      let line := line ++ buf
      if line = [] then parseLoop limit base [] rest
      else
        match splitColon line with
        | none => none
        | some (f, ps) =>
          (parseLoop limit base [] rest).map (fun rs => ⟨absPath base f, (fields [] ps).map (absPath base)⟩ :: rs)

/-- parseDependencies (cmd/bpf2go/makedep.go:56-112). -/
def parseDependencies (base text : Text) : Option (List Rule) :=
  match parseLoop (1024 * 1024) base [] (scan text) with
  | some [] => none
  | r => r

/-- strings.Join of the prerequisites (cmd/bpf2go/makedep.go:38). -/
def joinLines : List Text → Text
  | [] => []
  | [p] => p
  | p :: ps => p ++ " \\\n ".toList ++ joinLines ps

/-- adjustDependencies (cmd/bpf2go/makedep.go:13-46). -/
def adjustDependencies (base : Text) : List Rule → Text
  | [] => []
  | r :: rs =>
    (if r.prereqs = [] then relPath base r.file ++ ":\n\n".toList
     else relPath base r.file ++ ": \\\n ".toList ++ joinLines (r.prereqs.map (relPath base)) ++ "\n\n".toList) ++
    adjustDependencies base rs

/-- The dependency file written by convert (cmd/bpf2go/main.go:458-482): the target of the first rule becomes the Go file. Without one it
panics. -/
def depFile (cwd makeBase goFile text : Text) : Option Text :=
  match parseDependencies cwd text with
  | none => none
  | some [] => none
  | some (r :: rs) => some (adjustDependencies makeBase ({ r with file := goFile } :: rs))

end Ebpf.MakeDeps
