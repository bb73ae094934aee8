import Verif.Base
/-!
# Model of finding attach targets: `prog.go:419-472, 1172-1323`, `btf/handle.go:127-354`

The kernel is arbitrary: every system call may answer differently each time it is made; calls are numbered by a clock. A handle is the number of
its opening together with the ID it was opened by. Errors keep only what callers distinguish with errors.Is. A type is represented by what is
used of it: its ID (`TypeID` may fail) and the names of its members. Looking up types by name in one spec is C28, the cache C73. IDs are natural numbers.
Descriptors that are not closed are eventually closed by the garbage collector (C43); here only explicit closing counts.
-/
namespace Ebpf.AttachTarget

/-- Errors by what errors.Is finds in them. -/
inductive Err where
  | notExist
  | perm
  | notFound
  | multiple
  | notSupported
  | unrecognized
  | badAttachTo
  | noMember
  | typeID
  | other (n : Nat)
deriving DecidableEq

/-- btf/handle.go:201-214 `HandleInfo`. -/
structure Info where
  name : Bytes
  isKernel : Bool
deriving DecidableEq

/-- "vmlinux". -/
def vmlinux : Bytes := [0x76#8, 0x6d#8, 0x6c#8, 0x69#8, 0x6e#8, 0x75#8, 0x78#8]

/-- btf/handle.go:256-258 `IsModule`. -/
def Info.isModule (i : Info) : Bool := i.isKernel && i.name ≠ vmlinux

/-- The Go types that attach targets have. -/
inductive Kind where
  | struct
  | func
  | typedef
deriving DecidableEq

/-- A type found in a spec. -/
structure Found where
  typeID : Option Nat
  members : List Bytes
deriving DecidableEq

/-- A spec: `TypeByName`. -/
abbrev Types := Bytes → Kind → Except Err Found

/-- The kernel and the cache. -/
structure World where
  nextId : Nat → Nat → Except Err Nat
  openId : Nat → Nat → Except Err Unit
  info : Nat → Nat → Except Err Info
  kernel : Except Err Types
  module : Bytes → Except Err Types

/-- The handle opened as number `n`, for an ID. -/
structure Handle where
  n : Nat
  id : Nat
deriving DecidableEq

/-- The clock, how many handles have been opened, and which have been closed. -/
structure St where
  clock : Nat
  opened : Nat
  closed : List Nat

/-- btf/handle.go:174-180 `Close`; nothing for nil. -/
def close (h : Option Handle) (st : St) : St :=
  match h with
  | none => st
  | some h => { st with closed := h.n :: st.closed }

/-- btf/handle.go:262-269 `HandleIterator`. -/
structure It where
  id : Nat
  handle : Option Handle
  err : Option Err

/-- btf/handle.go:281-309: the loop of `Next`. -/
def nextLoop (w : World) : Nat → Nat → It → St → Option (Bool × It × St)
  | 0, _, _, _ => none
  | fuel + 1, id, it, st =>
    match w.nextId st.clock id with
    | .error .notExist => some (false, { it with handle := none }, close it.handle { st with clock := st.clock + 1 })
    | .error e => some (false, { it with handle := none, err := some e }, close it.handle { st with clock := st.clock + 1 })
    | .ok id' =>
      match w.openId (st.clock + 1) id' with
      | .error .notExist => nextLoop w fuel id' it { st with clock := st.clock + 2 }
      | .error e => some (false, { it with handle := none, err := some e }, close it.handle { st with clock := st.clock + 2 })
      | .ok () => some (true, { it with id := id', handle := some ⟨st.opened, id'⟩ }, close it.handle { st with clock := st.clock + 2, opened := st.opened + 1 })

/-- btf/handle.go:275-315 `Next`. -/
def next (w : World) (fuel : Nat) (it : It) (st : St) : Option (Bool × It × St) := nextLoop w fuel it.id it st

/-- btf/handle.go:339-350: the loop of `FindHandle`. The deferred `it.Handle.Close()` is evaluated while the handle is nil and closes nothing. -/
def findHandleLoop (w : World) (pred : Info → Bool) (n : Nat) : Nat → It → St → Option (Except Err Handle × St)
  | 0, _, _ => none
  | fuel + 1, it, st =>
    match next w n it st with
    | none => none
    | some (false, it, st) =>
      match it.err with
      | some e => some (.error e, st)
      | none => some (.error .notFound, st)
    | some (true, it, st) =>
      match it.handle with
      | none => none
      | some h =>
        match w.info st.clock h.id with
        | .error e => some (.error e, { st with clock := st.clock + 1 })
        | .ok i =>
          if pred i then some (.ok h, { st with clock := st.clock + 1 })
          else findHandleLoop w pred n fuel it { st with clock := st.clock + 1 }

/-- btf/handle.go:335-354 `FindHandle`. -/
def findHandle (w : World) (pred : Info → Bool) (fuel : Nat) (st : St) : Option (Except Err Handle × St) :=
  findHandleLoop w pred fuel fuel ⟨0, none, none⟩ st

/-- prog.go:1292-1318: the loop of `findTargetInModule`; again nothing is closed by the deferred call. -/
def findInModuleLoop (w : World) (name : Bytes) (kind : Kind) (n : Nat) : Nat → It → St → Option (Except Err (Found × Handle) × St)
  | 0, _, _ => none
  | fuel + 1, it, st =>
    match next w n it st with
    | none => none
    | some (false, it, st) =>
      match it.err with
      | some e => some (.error e, st)
      | none => some (.error .notFound, st)
    | some (true, it, st) =>
      match it.handle with
      | none => none
      | some h =>
        match w.info st.clock h.id with
        | .error e => some (.error e, { st with clock := st.clock + 1 })
        | .ok i =>
          if i.isModule then
            match w.module i.name with
            | .error e => some (.error e, { st with clock := st.clock + 1 })
            | .ok types =>
              match types name kind with
              | .error .notFound => findInModuleLoop w name kind n fuel it { st with clock := st.clock + 1 }
              | .error e => some (.error e, { st with clock := st.clock + 1 })
              | .ok t => some (.ok (t, h), { st with clock := st.clock + 1 })
          else findInModuleLoop w name kind n fuel it { st with clock := st.clock + 1 }

/-- prog.go:1256-1280 `findTargetInKernel`: the type, and the handle if it is in a module. -/
def findInKernel (w : World) (name : Bytes) (kind : Kind) (fuel : Nat) (st : St) : Option (Except Err (Found × Option Handle) × St) :=
  match w.kernel with
  | .error _ => some (.error .notFound, st)
  | .ok types =>
    match types name kind with
    | .ok t => some (.ok (t, none), st)
    | .error .notFound =>
      match findInModuleLoop w name kind fuel fuel ⟨0, none, none⟩ st with
      | none => none
      | some (.ok (t, h), st) => some (.ok (t, some h), st)
      | some (.error .perm, st) => some (.error .notFound, st)
      | some (.error e, st) => some (.error e, st)
    | .error e => some (.error e, st)

/-- types.go: the program types with attach targets in the kernel, and all others. -/
inductive ProgType where
  | structOps
  | lsm
  | tracing
  | extension
  | other (n : Nat)
deriving DecidableEq

/-- types.go: the attach types used here. -/
inductive AttachType where
  | none
  | structOps
  | lsmMac
  | traceIter
  | fentry
  | fexit
  | modifyReturn
  | rawTp
  | other (n : Nat)
deriving DecidableEq

/-- prog.go:1193-1225: the name and kind of the type to look for. -/
def targetName (name : Bytes) : ProgType → AttachType → Option (Bytes × Kind)
  | .structOps, .structOps => some (name, .struct)
  | .lsm, .lsmMac => some ([0x62#8, 0x70#8, 0x66#8, 0x5f#8, 0x6c#8, 0x73#8, 0x6d#8, 0x5f#8] ++ name, .func)
  | .tracing, .traceIter => some ([0x62#8, 0x70#8, 0x66#8, 0x5f#8, 0x69#8, 0x74#8, 0x65#8, 0x72#8, 0x5f#8] ++ name, .func)
  | .tracing, .fentry => some (name, .func)
  | .tracing, .fexit => some (name, .func)
  | .tracing, .modifyReturn => some (name, .func)
  | .tracing, .rawTp => some ([0x62#8, 0x74#8, 0x66#8, 0x5f#8, 0x74#8, 0x72#8, 0x61#8, 0x63#8, 0x65#8, 0x5f#8] ++ name, .typedef)
  | _, _ => none

/-- prog.go:1182-1248 `findProgramTargetInKernel`. -/
def findProgramTarget (w : World) (name : Bytes) (p : ProgType) (a : AttachType) (fuel : Nat) (st : St) : Option (Except Err (Option Handle × Nat) × St) :=
  match targetName name p a with
  | none => some (.error .unrecognized, st)
  | some (typeName, kind) =>
    match findInKernel w typeName kind fuel st with
    | none => none
    | some (.error .notFound, st) => some (.error .notSupported, st)
    | some (.error e, st) => some (.error e, st)
    | some (.ok (t, h), st) =>
      match t.typeID with
      | none => some (.error .typeID, close h st)
      | some id => some (.ok (h, id), st)

/-- What goes into `sys.ProgLoadAttr`: `AttachBtfId`, the handle of `AttachBtfObjFd`, and `ExpectedAttachType` if it is replaced. -/
structure Target where
  btfId : Nat
  objFd : Option Handle
  member : Option Nat
deriving DecidableEq

/-- `strings.Cut(s, ":")`. -/
def cut : Bytes → Bytes × Bytes
  | [] => ([], [])
  | b :: bs => if b = 0x3a#8 then ([], bs) else ((b :: (cut bs).1), (cut bs).2)

/-- prog.go:441-465: the second lookup for struct_ops programs. `module` of the first lookup is overwritten. -/
def structOpsTarget (w : World) (name member : Bytes) (fuel : Nat) (st : St) : Option (Except Err Target × St) :=
  match findInKernel w name .struct fuel st with
  | none => none
  | some (.error e, st) => some (.error e, st)
  | some (.ok (t, h), st) =>
    match t.typeID with
    | none => some (.error .typeID, st)
    | some id =>
      match t.members.findIdx? (· = member) with
      | none => some (.error .noMember, st)
      | some i => some (.ok ⟨id, h, some i⟩, st)

/-- prog.go:428-467: the attach target of a program with `AttachTo` and without `AttachTarget`. -/
def attachTarget (w : World) (attachTo : Bytes) (p : ProgType) (a : AttachType) (fuel : Nat) (st : St) : Option (Except Err Target × St) :=
  if p = .structOps then
    if (cut attachTo).2 = [] then some (.error .badAttachTo, st)
    else
      match findProgramTarget w (cut attachTo).1 p a fuel st with
      | none => none
      | some (.error .unrecognized, st) => structOpsTarget w (cut attachTo).1 (cut attachTo).2 fuel st
      | some (.error e, st) => some (.error e, st)
      | some (.ok _, st) => structOpsTarget w (cut attachTo).1 (cut attachTo).2 fuel st
  else
    match findProgramTarget w attachTo p a fuel st with
    | none => none
    | some (.error .unrecognized, st) => some (.ok ⟨0, none, none⟩, st)
    | some (.error e, st) => some (.error e, st)
    | some (.ok (h, id), st) => some (.ok ⟨id, h, none⟩, st)

/-- prog.go:428-528: finding the target, loading, and the deferred `module.Close()`. -/
def loadWithTarget (w : World) (attachTo : Bytes) (p : ProgType) (a : AttachType) (fuel : Nat) (st : St) : Option (Except Err Target × St) :=
  match attachTarget w attachTo p a fuel st with
  | none => none
  | some (.error e, st) => some (.error e, st)
  | some (.ok t, st) => some (.ok t, close t.objFd st)

end Ebpf.AttachTarget
