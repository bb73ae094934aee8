import Verif.Model.OnceCache
import Verif.Model.Tracefs
/-!
# Model of the paths of tracefs: `internal/tracefs/kprobe.go:36-45, 100-177, 202-224`

Strings are their bytes. `filepath.Clean` and `filepath.Join` (Go's path/filepath on Unix) are modelled by components; symbolic links are not followed by them.
What the files of the kernel say is a parameter. `sync.OnceValues` is not modelled: the first answer is kept.
-/
namespace Ebpf.TracefsPath
open Ebpf.Tracefs (validIdentifier)

/-- The separator of paths, `/` (path/filepath, used by internal/tracefs/kprobe.go:105-106). -/
def slash : Byte := 0x2f

/-- "." -/
def dot : Bytes := [0x2e]

/-- ".." -/
def dots : Bytes := [0x2e, 0x2e]

/-- path/filepath `Clean`: the components of a path (internal/tracefs/kprobe.go:105-106). -/
def comps : Bytes → List Bytes
  | [] => [[]]
  | c :: cs =>
    if c = slash then [] :: comps cs
    else match comps cs with
      | [] => [[c]]
      | w :: ws => (c :: w) :: ws

/-- strings.Join with a slash, as in path/filepath `Join` (internal/tracefs/kprobe.go:105-106). -/
def joinSlash : List Bytes → Bytes
  | [] => []
  | [w] => w
  | w :: v :: ws => w ++ slash :: joinSlash (v :: ws)

/-- path/filepath `Clean`: one component (internal/tracefs/kprobe.go:105-106). `out` is what was written so far. -/
def cleanStep (rooted : Bool) (out : List Bytes) (c : Bytes) : List Bytes :=
  if c = [] ∨ c = dot then out
  else if c = dots then
    if out = [] then (if rooted then [] else [dots])
    else if out.getLast? = some dots then out ++ [dots]
    else out.dropLast
  else out ++ [c]

/-- path/filepath `Clean` (internal/tracefs/kprobe.go:105-106). -/
def clean (p : Bytes) : Bytes :=
  if p = [] then dot
  else if p.head? = some slash then slash :: joinSlash ((comps p).foldl (cleanStep true) [])
  else if (comps p).foldl (cleanStep false) [] = [] then dot
  else joinSlash ((comps p).foldl (cleanStep false) [])

/-- path/filepath `Join`: leading empty elements are ignored (internal/tracefs/kprobe.go:105-106). -/
def join (es : List Bytes) : Bytes :=
  if es.dropWhile (· = []) = [] then [] else clean (joinSlash (es.dropWhile (· = [])))

/-- Why there is no path or no ID. -/
inductive Err where
  | platform | notMounted | escape | invalidName
  | read (e : OnceCache.Err)
deriving DecidableEq

/-- internal/mountinfo/mountinfo.go:20-35 `Entry`, the fields which are used, as bytes. -/
structure Entry where
  mountPoint : Bytes
  root : Bytes
  fsType : Bytes
deriving DecidableEq

/-- What the kernel says: internal/tracefs/kprobe.go:133 (`none`: mountinfo can't be read), 171, 148. -/
structure Env where
  linux : Bool
  entries : Option (List Entry)
  isDir : Bytes → Bool
  fsType : Bytes → Option (BitVec 64)

/-- internal/tracefs/kprobe.go:165-175: the loop over debugfs. -/
def findDebugfs (isDir : Bytes → Bool) : List Entry → Bytes
  | [] => []
  | e :: es =>
    if e.fsType ≠ [0x64, 0x65, 0x62, 0x75, 0x67, 0x66, 0x73] ∨ e.root ≠ [0x2f] then findDebugfs isDir es
    else if isDir (join [e.mountPoint, [0x74, 0x72, 0x61, 0x63, 0x69, 0x6e, 0x67]]) then join [e.mountPoint, [0x74, 0x72, 0x61, 0x63, 0x69, 0x6e, 0x67]]
    else findDebugfs isDir es

/-- internal/tracefs/kprobe.go:160-164: the loop over tracefs. -/
def findTracefs : List Entry → Option Bytes
  | [] => none
  | e :: es => if e.fsType = [0x74, 0x72, 0x61, 0x63, 0x65, 0x66, 0x73] ∧ e.root = [0x2f] then some e.mountPoint else findTracefs es

/-- internal/tracefs/kprobe.go:159-177 `findTracefsInEntries`. -/
def findInEntries (isDir : Bytes → Bool) (es : List Entry) : Bytes :=
  match findTracefs es with
  | some p => p
  | none => findDebugfs isDir es

/-- internal/tracefs/kprobe.go:138-146: the usual places. -/
def usual : List (Bytes × BitVec 64) :=
  [([0x2f, 0x73, 0x79, 0x73, 0x2f, 0x6b, 0x65, 0x72, 0x6e, 0x65, 0x6c, 0x2f, 0x74, 0x72, 0x61, 0x63, 0x69, 0x6e, 0x67], 0x74726163), ([0x2f, 0x73, 0x79, 0x73, 0x2f, 0x6b, 0x65, 0x72, 0x6e, 0x65, 0x6c, 0x2f, 0x64, 0x65, 0x62, 0x75, 0x67, 0x2f, 0x74, 0x72, 0x61, 0x63, 0x69, 0x6e, 0x67], 0x74726163), ([0x2f, 0x73, 0x79, 0x73, 0x2f, 0x6b, 0x65, 0x72, 0x6e, 0x65, 0x6c, 0x2f, 0x64, 0x65, 0x62, 0x75, 0x67, 0x2f, 0x74, 0x72, 0x61, 0x63, 0x69, 0x6e, 0x67], 0x64626720)]

/-- internal/tracefs/kprobe.go:138-150: the loop over the usual places. -/
def probe (fsType : Bytes → Option (BitVec 64)) : List (Bytes × BitVec 64) → Except Err Bytes
  | [] => .error .notMounted
  | (p, m) :: l => if fsType p = some m then .ok p else probe fsType l

/-- internal/tracefs/kprobe.go:127-153 `getTracefsPath`. -/
def getTracefsPath (env : Env) : Except Err Bytes :=
  if env.linux = false then .error .platform
  else match env.entries with
    | none => probe env.fsType usual
    | some es =>
      if findInEntries env.isDir es ≠ [] then .ok (findInEntries env.isDir es)
      else probe env.fsType usual

/-- internal/tracefs/kprobe.go:100-111 `sanitizeTracefsPath`, after what `getTracefsPath` gave. -/
def sanitize (base : Except Err Bytes) (path : List Bytes) : Except Err Bytes :=
  match base with
  | .error e => .error e
  | .ok base =>
    if base.isPrefixOf (join [base, join path]) then .ok (join [base, join path]) else .error .escape

/-- internal/tracefs/kprobe.go:202-224 `EventID`: the files which are read, and the ID. -/
def eventID (base : Except Err Bytes) (file : Bytes → Except Nat Bytes) (group name : Bytes) : List Bytes × Except Err (BitVec 64) :=
  if validIdentifier group = false then ([], .error .invalidName)
  else if validIdentifier name = false then ([], .error .invalidName)
  else match sanitize base [[0x65, 0x76, 0x65, 0x6e, 0x74, 0x73], group, name, [0x69, 0x64]] with
    | .error e => ([], .error e)
    | .ok p =>
      ([p], match OnceCache.readUint64 [] (file p) with
        | .error e => .error (.read e)
        | .ok v => .ok v)

/-- internal/tracefs/kprobe.go:36-45 `eventsFile`: the file which is opened. -/
def eventsFile (base : Except Err Bytes) (uprobe : Bool) : Except Err Bytes :=
  sanitize base [(if uprobe then [0x75, 0x70, 0x72, 0x6f, 0x62, 0x65] else [0x6b, 0x70, 0x72, 0x6f, 0x62, 0x65]) ++ [0x5f, 0x65, 0x76, 0x65, 0x6e, 0x74, 0x73]]

end Ebpf.TracefsPath
