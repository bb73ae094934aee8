import Verif.Base
/-!
# Model of `internal/sys/pinning_other.go` and of `Pin`, `Unpin`, `Clone`, `LoadPinned…` of maps, programs and links

The BPF file system is a map from paths to objects. System calls may fail for any reason (`fault`), except that `ENOENT` from `renameat2`
means that the old path doesn't exist. A directory is missing, on a BPF file system or elsewhere.
-/
namespace Ebpf.Pin

/-- A path; the empty path stands for "not pinned" as in the code. -/
abbrev Path := Bytes

/-- What `linux.FSType(filepath.Dir(path))` says. -/
inductive Dir
  | missing
  | bpf
  | other
deriving DecidableEq

/-- Pinned objects by path. -/
abbrev Files := Path → Option Nat

/-- Change one path. -/
def Files.set (f : Files) (p : Path) (o : Option Nat) : Files := fun q => if q = p then o else f q

/-- `BPF_OBJ_PIN`; `none` = error. -/
def objPin (dir : Path → Dir) (fault : Bool) (f : Files) (p : Path) (o : Nat) : Option Files :=
  if fault then none
  else if dir p ≠ .bpf then none
  else if (f p).isSome then none
  else some (f.set p (some o))

/-- The outcome of `renameat2`. -/
inductive Renamed
  | ok (f : Files)
  | notExist
  | other

/-- `renameat2(cur, new, RENAME_NOREPLACE)`. -/
def renameNoReplace (dir : Path → Dir) (fault : Bool) (f : Files) (cur new : Path) : Renamed :=
  match f cur with
  | none => .notExist
  | some o =>
    if dir new = .missing then .notExist
    else if fault then .other
    else if (f new).isSome then .other
    else .ok ((f.set cur none).set new (some o))

/-- `unlink`: what it says. -/
inductive Removed
  | ok (f : Files)
  | notExist
  | other

/-- `os.Remove`. -/
def remove (fault : Bool) (f : Files) (p : Path) : Removed :=
  match f p with
  | none => .notExist
  | some _ => if fault then .other else .ok (f.set p none)

/-- internal/sys/pinning_other.go:16-56 `Pin`; `none` = error. The faults of the two calls of `BPF_OBJ_PIN` and of `renameat2` are given. -/
def sysPin (dir : Path → Dir) (pinFault renameFault : Bool) (cur new : Path) (o : Nat) (f : Files) : Option Files :=
  if new = [] then none
  else if cur = new then some f
  else match dir new with
    | .missing => none
    | .other => none
    | .bpf =>
      if cur = [] then objPin dir pinFault f new o
      else match renameNoReplace dir renameFault f cur new with
        | .ok f => some f
        | .other => none
        | .notExist => objPin dir pinFault f new o

/-- internal/sys/pinning_other.go:58-67 `Unpin`; `none` = error. -/
def sysUnpin (fault : Bool) (cur : Path) (f : Files) : Option Files :=
  if cur = [] then some f
  else match remove fault f cur with
    | .ok f => some f
    | .notExist => some f
    | .other => none

/-- A `Map`, `Program` or `RawLink`: the object behind the descriptor and `pinnedPath`. -/
structure Handle where
  obj : Nat
  path : Path
deriving DecidableEq

/-- The file system and the handles of a process. -/
structure State where
  files : Files
  handles : Nat → Option Handle

/-- Change one handle. -/
def State.setHandle (s : State) (i : Nat) (h : Handle) : State := { s with handles := fun j => if j = i then some h else s.handles j }

/-- What a process does, and what happens to the file system otherwise. -/
inductive Op
  | pin (i : Nat) (p : Path) (pinFault renameFault : Bool)
  | unpin (i : Nat) (fault : Bool)
  | clone (i j : Nat)
  | load (i : Nat) (p : Path)
  | extRemove (p : Path)
  | extCreate (p : Path) (o : Nat)

/-- map.go:1575-1581, prog.go:790-796, link/link.go:164-170 `Pin`; map.go:1588-1594, prog.go:803-809, link/link.go:173-179 `Unpin`;
map.go:1542-1564, prog.go:758-780 `Clone`; map.go:1730-1751 `LoadPinnedMap`. The result says whether the call succeeded. New handles take
a free slot. -/
def step (dir : Path → Dir) (s : State) : Op → Bool × State
  | .pin i p pf rf =>
    match s.handles i with
    | none => (false, s)
    | some h =>
      match sysPin dir pf rf h.path p h.obj s.files with
      | none => (false, s)
      | some f => (true, { s with files := f }.setHandle i { h with path := p })
  | .unpin i fault =>
    match s.handles i with
    | none => (false, s)
    | some h =>
      match sysUnpin fault h.path s.files with
      | none => (false, s)
      | some f => (true, { s with files := f }.setHandle i { h with path := [] })
  | .clone i j =>
    match s.handles i, s.handles j with
    | some h, none => (true, s.setHandle j { h with path := [] })
    | _, _ => (false, s)
  | .load i p =>
    match s.handles i, s.files p with
    | none, some o => (true, s.setHandle i ⟨o, p⟩)
    | _, _ => (false, s)
  | .extRemove p => (true, { s with files := s.files.set p none })
  | .extCreate p o => if (s.files p).isSome then (false, s) else (true, { s with files := s.files.set p (some o) })

/-- A history. -/
def run (dir : Path → Dir) : State → List Op → State
  | s, [] => s
  | s, op :: ops => run dir (step dir s op).2 ops

end Ebpf.Pin
