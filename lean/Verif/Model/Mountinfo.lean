import Verif.Base
/-! # Model of `internal/mountinfo/mountinfo.go`

Strings are lists of runes (`Char`). Simplification: invalid UTF-8 is not modelled. -/
namespace Ebpf.Mountinfo

abbrev Str := List Char

/-- Go `unicode.IsSpace`, used by `strings.Fields` and `strings.TrimSpace`. -/
def isSpace (c : Char) : Bool :=
  let n := c.toNat
  n == 0x20 || (0x09 ≤ n && n ≤ 0x0d) || n == 0x85 || n == 0xa0 || n == 0x1680 ||
    (0x2000 ≤ n && n ≤ 0x200a) || n == 0x2028 || n == 0x2029 || n == 0x202f || n == 0x205f || n == 0x3000

/-- Go `strings.TrimSpace`. -/
def trimSpace (s : Str) : Str := ((s.dropWhile isSpace).reverse.dropWhile isSpace).reverse

/-- Go `strings.Fields` with the current word as accumulator. -/
def fieldsGo (cur : Str) : Str → List Str
  | [] => if cur = [] then [] else [cur]
  | c :: cs =>
    if isSpace c then (if cur = [] then fieldsGo [] cs else cur :: fieldsGo [] cs)
    else fieldsGo (cur ++ [c]) cs

/-- Go `strings.Fields`. -/
def fields (s : Str) : List Str := fieldsGo [] s

/-- Go `strings.Cut(s, " - ")`. -/
def cutDash : Str → Option (Str × Str)
  | [] => none
  | c :: cs =>
    if [' ', '-', ' '].isPrefixOf (c :: cs) then some ([], (c :: cs).drop 3)
    else (cutDash cs).map fun (a, b) => (c :: a, b)

/-- internal/mountinfo/mountinfo.go:127-136 `unescape`. -/
def unescape : Str → Str
  | '\\' :: '0' :: '4' :: '0' :: r => ' ' :: unescape r
  | '\\' :: '0' :: '1' :: '1' :: r => '\t' :: unescape r
  | '\\' :: '0' :: '1' :: '2' :: r => '\n' :: unescape r
  | '\\' :: '1' :: '3' :: '4' :: r => '\\' :: unescape r
  | c :: r => c :: unescape r
  | [] => []

/-- internal/mountinfo/mountinfo.go:20-35 `Entry`. -/
structure Entry where
  mountPoint : Str
  root : Str
  fsType : Str
deriving DecidableEq

/-- internal/mountinfo/mountinfo.go:102-123 `parseLine` (`none` = error). -/
def parseLine (line : Str) : Option Entry :=
  match cutDash line with
  | none => none
  | some (a, b) =>
    match fields (trimSpace b) with
    | [] => none
    | fs :: _ =>
      match fields (trimSpace a) with
      | _ :: _ :: _ :: root :: mp :: _ :: _ => some ⟨unescape mp, unescape root, fs⟩
      | _ => none

/-- `bufio.Reader.ReadString('\n')` until EOF with the line ends removed. -/
def splitLines (cur : Str) : Str → List Str
  | [] => [cur]
  | c :: cs => if c = '\n' then cur :: splitLines [] cs else splitLines (cur ++ [c]) cs

/-- internal/mountinfo/mountinfo.go:73-100 `parseEntries` on a file that can be read. -/
def parseEntries (s : Str) : Option (List Entry) :=
  ((splitLines [] s).filter (· ≠ [])).mapM parseLine

/-- internal/mountinfo/mountinfo.go:56-70 `filterByFSType`. -/
def filterByFSType (fstype : Str) : List Entry → List Str → List Str
  | [], mounts => mounts
  | e :: es, mounts =>
    if e.fsType ≠ fstype then filterByFSType fstype es mounts
    else if e.mountPoint ∈ mounts then filterByFSType fstype es mounts
    else filterByFSType fstype es (mounts ++ [e.mountPoint])

end Ebpf.Mountinfo
