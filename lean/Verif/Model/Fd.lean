import Verif.Base
/-! # Model of `internal/sys/fd.go` and `internal/sys/fd_other.go`

The kernel's descriptor table is a map from descriptor to the party responsible for closing it;
this bookkeeping is a ghost (the code does not have it), only "free or not" is kernel state. -/
namespace Ebpf.Sys

/-- Who is responsible for a descriptor. `lib i` is the `FD` object number `i`. -/
inductive Owner where
  | free
  | ext
  | lib (i : Nat)
deriving DecidableEq

/-- internal/sys/fd_other.go:13-16 `FD`: `raw`, and the registered cleanup with the value it
captured (fd.go:21-30); `none` after `cleanup.Stop` or after it ran. `reachable` is Go reachability. -/
structure Obj where
  raw : Int
  cleanup : Option Nat
  reachable : Bool
deriving DecidableEq

/-- A `close(2)` issued by the library: which object issued it, the descriptor, and who was
responsible for the descriptor at that time. -/
structure Closed where
  by_ : Nat
  fd : Nat
  owner : Owner
deriving DecidableEq

/-- Process state. -/
structure Fds where
  owner : Nat → Owner
  objs : List Obj
  log : List Closed

/-- Nothing wrapped yet; some descriptors may be open. -/
def Fds.init (isOpen : Nat → Bool) : Fds := ⟨fun n => if isOpen n then .ext else .free, [], []⟩

namespace Fds

def setOwner (s : Fds) (n : Nat) (o : Owner) : Fds := { s with owner := fun m => if m = n then o else s.owner m }

/-- `close(2)` by object `i`. -/
def sysClose (s : Fds) (i n : Nat) : Fds :=
  { (s.setOwner n .free) with log := ⟨i, n, s.owner n⟩ :: s.log }

/-- internal/sys/fd.go:21-30 `newFD`: a new object with a registered cleanup. -/
def newObj (s : Fds) (n : Nat) : Fds :=
  { (s.setOwner n (.lib s.objs.length)) with objs := s.objs ++ [⟨n, some n, true⟩] }

/-- internal/sys/fd.go:52-59 `Disown`: the caller becomes responsible. -/
def disown (s : Fds) (i : Nat) : Int × Fds :=
  match s.objs[i]? with
  | none => (-1, s)
  | some o =>
    let s := { s with objs := s.objs.set i { o with raw := -1, cleanup := none } }
    (o.raw, if o.raw ≥ 0 then s.setOwner o.raw.toNat .ext else s)

/-- internal/sys/fd_other.go:38-44 `Close`. The ownership passes through `Disown`, but the
descriptor is closed at once by the same object; the log records the owner before. -/
def close (s : Fds) (i : Nat) : Fds :=
  match s.objs[i]? with
  | none => s
  | some o =>
    if o.raw < 0 then s
    else { s with objs := s.objs.set i { o with raw := -1, cleanup := none } }.sysClose i o.raw.toNat

/-- Answer of `fcntl(F_DUPFD_CLOEXEC, 1)`: a free descriptor ≥ 1, or failure. -/
def dupAnswer (s : Fds) (ans : Option Nat) : Option Nat :=
  match ans with
  | some m => if 1 ≤ m ∧ s.owner m = .free then some m else none
  | none => none

/-- internal/sys/fd_other.go:46-59 `Dup`; returns the number of the new object, if any. -/
def dup (s : Fds) (i : Nat) (ans : Option Nat) : Option Nat × Fds :=
  match s.objs[i]? with
  | none => (none, s)
  | some o =>
    if o.raw < 0 then (none, s)
    else match s.dupAnswer ans with
      | none => (none, s)
      | some m => (some s.objs.length, s.newObj m)

/-- internal/sys/fd_other.go:23-36 `NewFD`; the caller hands over descriptor `value`. -/
def newFD (s : Fds) (value : Int) (ans : Option Nat) : Option Nat × Fds :=
  if value < 0 then (none, s)
  else
    let i := s.objs.length
    let s := s.newObj value.toNat
    if value ≠ 0 then (some i, s)
    else
      let (r, s) := s.dup i ans
      let s := s.close i
      -- the object wrapping 0 is not returned
      (r, { s with objs := s.objs.modify i fun o => { o with reachable := false } })

/-- internal/sys/fd_other.go:66-72 `File`: ownership passes to the returned `os.File`. -/
def file (s : Fds) (i : Nat) : Option Int × Fds :=
  match s.objs[i]? with
  | none => (none, s)
  | some o => if o.raw = -1 then (none, s) else let (v, s) := s.disown i; (some v, s)

/-- internal/sys/fd.go:25-28: the garbage collector runs the cleanup of an unreachable object. -/
def gc (s : Fds) (i : Nat) : Fds :=
  match s.objs[i]? with
  | none => s
  | some o =>
    match o.reachable, o.cleanup with
    | false, some n => { s with objs := s.objs.set i { o with cleanup := none, raw := -1 } }.sysClose i n
    | _, _ => s

/-- Operations of a process using the package. -/
inductive Op where
  | extOpen (n : Nat)              -- outside code obtains a free descriptor
  | extClose (n : Nat)             -- outside code closes a descriptor it is responsible for
  | newFD (v : Int) (ans : Option Nat)
  | close (i : Nat)
  | disown (i : Nat)
  | dup (i : Nat) (ans : Option Nat)
  | file (i : Nat)
  | drop (i : Nat)                 -- last reference to the object goes away
  | gc (i : Nat)

/-- One operation. Outside code is assumed to close and to hand over only descriptors it is
responsible for; methods are called on reachable objects only. -/
def step (s : Fds) : Op → Fds
  | .extOpen n => if s.owner n = .free then s.setOwner n .ext else s
  | .extClose n => if s.owner n = .ext then s.setOwner n .free else s
  | .newFD v ans => if v < 0 ∨ s.owner v.toNat = .ext then (s.newFD v ans).2 else s
  | .close i => if (s.objs[i]?.map Obj.reachable) = some true then s.close i else s
  | .disown i => if (s.objs[i]?.map Obj.reachable) = some true then (s.disown i).2 else s
  | .dup i ans => if (s.objs[i]?.map Obj.reachable) = some true then (s.dup i ans).2 else s
  | .file i => if (s.objs[i]?.map Obj.reachable) = some true then (s.file i).2 else s
  | .drop i => { s with objs := s.objs.modify i fun o => { o with reachable := false } }
  | .gc i => s.gc i

def run (s : Fds) (ops : List Op) : Fds := ops.foldl step s

end Fds
end Ebpf.Sys
