/-!
# Model of the package pin: `WalkDir`, `Load`, `Pin.Take`

What the walk does with the outside world is a trace of events. The program ranging over the walk is a function of the trace so far. Descriptors are
numbered in the order in which they are opened (a simplification: the kernel reuses numbers of closed descriptors, and `sys.NewFD` moves descriptor 0). A
path is the list of its names below the root; `filepath.Join(root, …)` is left out. Names are lists of characters.
-/
namespace Ebpf.PinWalk

/-- A file name. -/
abbrev Name := List Char

/-- The path of an entry, below the root. -/
abbrev Path := List Name

/-- What the system calls say about an entry that isn't a directory. -/
structure File where
  /-- BPF_OBJ_GET succeeds. -/
  objGet : Bool
  /-- What /proc/self/fd/N of the new descriptor points to. -/
  fdLink : Option (List Char)
  /-- BPF_OBJ_GET_INFO_BY_FD (or fdinfo) succeeds. -/
  infoOk : Bool
  /-- It is a map with values per CPU. -/
  perCPU : Bool

mutual
/-- A file tree. -/
inductive Node where
  | file (f : File)
  | dir (readable : Bool) (es : Entries)
/-- The entries of a directory, in the order of the file system. -/
inductive Entries where
  | nil
  | cons (name : Name) (n : Node) (es : Entries)
end

/-- The types of objects of internal/sys/types.go `ObjType`. -/
inductive Kind where
  | map
  | prog
  | link
deriving DecidableEq

/-- An object returned by `Load`, with the path a `Pin` gives for it. -/
structure Obj where
  path : Path
  kind : Kind
  fd : Nat
  /-- The field pinnedPath of the map, program or link. -/
  pinnedPath : Option Path
deriving DecidableEq

/-- Errors. -/
inductive Err where
  /-- statfs of the root. -/
  | statfs
  /-- "… is not on a bpf filesystem". -/
  | notBpf
  /-- The root can't be opened as a directory. -/
  | rootStat
  /-- The directory or file at a path. -/
  | entry (p : Path)
deriving DecidableEq

/-- Who closes a descriptor. -/
inductive Who where
  | walk
  | caller
deriving DecidableEq

/-- What can be observed. -/
inductive Ev where
  | opened (fd : Nat) (p : Path)
  | closed (w : Who) (fd : Nat)
  | yielded (o : Obj)
  | failed (e : Err)
deriving DecidableEq

/-- How the loop body ends. -/
inductive Flow where
  | next
  | stop
  | panic
deriving DecidableEq

/-- What the loop body does with a pin: whether it calls `Take`, whether it closes the object, how it ends. -/
structure Reply where
  take : Bool
  close : Bool
  flow : Flow

/-- The state of a walk. `gone`: descriptors whose `FD` was closed. -/
structure St where
  trace : List Ev
  next : Nat
  gone : List Nat

/-- Add an event. -/
def St.emit (s : St) (e : Ev) : St := { s with trace := s.trace ++ [e] }

/-- internal/sys/types.go `ObjGet`: a new descriptor. -/
def St.openFd (s : St) (p : Path) : St := { s with trace := s.trace ++ [.opened s.next p], next := s.next + 1 }

/-- internal/sys/fd_other.go:38-44 `Close`: closing twice does nothing. -/
def St.close (s : St) (w : Who) (fd : Nat) : St :=
  if fd ∈ s.gone then s else { s with trace := s.trace ++ [.closed w fd], gone := fd :: s.gone }

/-- The type of the field Type of `unix.Statfs_t`: 32 or 64 bits, by architecture. -/
inductive Magic where
  | w32 (b : BitVec 32)
  | w64 (b : BitVec 64)

/-- internal/linux/statfs.go:9-23 `FSType`, after a successful statfs: without sign extension on 32 bit. -/
def fsType : Magic → BitVec 64
  | .w32 b => b.zeroExtend 64
  | .w64 b => b

/-- internal/unix/types_linux.go `BPF_FS_MAGIC`. -/
def bpfFsMagic : BitVec 64 := 0xcafe4a11#64

/-- `strings.TrimPrefix(s, "anon_inode:")`. -/
def trimAnon (s : List Char) : List Char :=
  if "anon_inode:".toList.isPrefixOf s then s.drop 11 else s

/-- internal/sys/syscall_other.go:90-112 `readType`. -/
def readType (f : File) : Option Kind :=
  match f.fdLink with
  | none => none
  | some s =>
    if trimAnon s = "bpf-map".toList then some .map
    else if trimAnon s = "bpf-prog".toList then some .prog
    else if trimAnon s = "bpf-link".toList then some .link
    else none

/-- map.go:344-361,738-763 `NewMapFromFD`, `newMapFromParts`. `cpus`: `PossibleCPU` succeeds. If it fails the descriptor isn't closed. -/
def newMapFromFD (cpus : Bool) (p : Path) (f : File) (fd : Nat) (s : St) : St × Except Err Obj :=
  if !f.infoOk then (s.close .walk fd, .error (.entry p))
  else if !f.perCPU then (s, .ok ⟨p, .map, fd, none⟩)
  else if !cpus then (s, .error (.entry p))
  else (s, .ok ⟨p, .map, fd, none⟩)

/-- prog.go:626-658 `NewProgramFromFD`, `newProgramFromFD`. -/
def newProgramFromFD (p : Path) (f : File) (fd : Nat) (s : St) : St × Except Err Obj :=
  if !f.infoOk then (s.close .walk fd, .error (.entry p))
  else (s, .ok ⟨p, .prog, fd, none⟩)

/-- link/link.go:61-68 `NewFromFD`, link/link_other.go:69-113 `wrapRawLink`. -/
def newLinkFromFD (p : Path) (f : File) (fd : Nat) (s : St) : St × Except Err Obj :=
  if !f.infoOk then (s.close .walk fd, .error (.entry p))
  else (s, .ok ⟨p, .link, fd, none⟩)

/-- pin/load.go:22-42 `Load`, internal/sys/syscall_other.go:72-85 `ObjGetTyped`. -/
def load (cpus : Bool) (p : Path) (f : File) (s : St) : St × Except Err Obj :=
  if !f.objGet then (s, .error (.entry p))
  else
    match readType f with
    | none => ((s.openFd p).close .walk s.next, .error (.entry p))
    | some .map => newMapFromFD cpus p f s.next (s.openFd p)
    | some .prog => newProgramFromFD p f s.next (s.openFd p)
    | some .link => newLinkFromFD p f s.next (s.openFd p)

/-- What the callback of `fs.WalkDir` returns. -/
inductive Res where
  | nil
  | skipAll
  | panic
  | err (e : Err)

/-- pin/pin.go:19-23 `Take`: what `Pin.Object` is after the loop body. -/
def objectAfter (r : Reply) (o : Obj) : Option Nat := if r.take then none else some o.fd

/-- pin/pin.go:11-15 `close`, deferred. -/
def pinClose (obj : Option Nat) (s : St) : St :=
  match obj with
  | none => s
  | some fd => s.close .walk fd

/-- How the loop body ended. -/
def resOf : Flow → Res
  | .next => .nil
  | .stop => .skipAll
  | .panic => .panic

/-- pin/walk_other.go:44-51: yield a pin and close it. -/
def deliver (body : List Ev → Reply) (o : Obj) (s : St) : St × Res :=
  let s := s.emit (.yielded o)
  let r := body s.trace
  let s := if r.close then s.close .caller o.fd else s
  (pinClose (objectAfter r o) s, resOf r.flow)

/-- pin/walk_other.go:33-54: the callback for an entry that isn't a directory. -/
def visit (cpus : Bool) (body : List Ev → Reply) (p : Path) (f : File) (s : St) : St × Res :=
  match load cpus p f s with
  | (s, .error e) => (s, .err e)
  | (s, .ok o) => deliver body o s

/-- io/fs/walk.go `walkDir`, the loop over the entries: until something is returned. -/
def runAll : List (Name × (St → St × Res)) → St → St × Res
  | [], s => (s, .nil)
  | x :: xs, s =>
    match x.2 s with
    | (s, .nil) => runAll xs s
    | (s, r) => (s, r)

mutual
/-- io/fs/walk.go `walkDir` with the callback of pin/walk_other.go:33-54 (nil for a directory, the error if it can't be read); `os.ReadDir` sorts by name. -/
def walkNode (cpus : Bool) (body : List Ev → Reply) : Node → Path → St → St × Res
  | .file f, p => visit cpus body p f
  | .dir readable es, p =>
    if !readable then fun s => (s, .err (.entry p))
    else runAll ((walkEntries cpus body es p).mergeSort (fun a b => decide (a.1 ≤ b.1)))
/-- The walks of the entries. -/
def walkEntries (cpus : Bool) (body : List Ev → Reply) : Entries → Path → List (Name × (St → St × Res))
  | .nil, _ => []
  | .cons name n es, p => (name, walkNode cpus body n (p ++ [name])) :: walkEntries cpus body es p
end

/-- How the walk ends. -/
inductive Outcome where
  | returned
  | panicked
deriving DecidableEq

/-- What the system says about the root: statfs, and opening it as a directory. -/
structure Root where
  statfs : Option Magic
  dir : Option (Bool × Entries)

/-- pin/walk_other.go:57-61: the end of the walk. -/
def finish : St × Res → List Ev × Outcome
  | (s, .nil) => (s.trace, .returned)
  | (s, .skipAll) => (s.trace, .returned)
  | (s, .panic) => (s.trace, .panicked)
  | (s, .err e) => ((s.emit (.failed e)).trace, .returned)

/-- The start of a walk. -/
def start : St := ⟨[], 0, []⟩

/-- pin/walk_other.go:20-63 `WalkDir`. -/
def walkDir (cpus : Bool) (body : List Ev → Reply) (root : Root) : List Ev × Outcome :=
  match root.statfs with
  | none => finish (start, .err .statfs)
  | some m =>
    if fsType m ≠ bpfFsMagic then finish (start, .err .notBpf)
    else
      match root.dir with
      | none => finish (start, .err .rootStat)
      | some (readable, es) => finish (walkNode cpus body (.dir readable es) [] start)

end Ebpf.PinWalk
