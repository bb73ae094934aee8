import Verif.Model.StructOps
/-!
# Model of the virtual sections and struct_ops sections of an object, and of creating struct_ops maps

`elf_reader.go:1456-1607`, `struct_ops.go:70-116`, `map.go:596-655`. Names are bytes. `Spec.TypeByName` (C28) and finding a type in the kernel
(C76) are oracles. Offsets and sizes are natural numbers, except where the code's `uint32` arithmetic decides which bytes are used. Error texts
are dropped.
-/
namespace Ebpf.ElfVirtual
open Ebpf.StructOps

/-- BTF types, as far as they matter here: `qual` are const, volatile, restrict and type tags. -/
inductive Ty where
  | struct (s : Struct)
  | qual (t : Ty)
  | typedef (t : Ty)
  | var (name : Bytes) (t : Ty)
  | func (name : Bytes)
  | other (n : Nat)

/-- btf/types.go:863-868: what a qualifier or typedef is for. -/
def next : Ty → Option Ty
  | .qual t => some t
  | .typedef t => some t
  | _ => none

/-- btf/types.go:855-874 `As`: `depth` iterations are left. -/
def as {α : Type} (p : Ty → Option α) : Nat → Ty → Option α
  | 0, _ => none
  | depth + 1, t =>
    match p t with
    | some a => some a
    | none =>
      match next t with
      | some t' => as p depth t'
      | none => none

/-- The type switch to `*btf.Var`. -/
def isVar : Ty → Option (Bytes × Ty)
  | .var n t => some (n, t)
  | _ => none

/-- The type switch to `*btf.Struct`. -/
def isStruct : Ty → Option Struct
  | .struct s => some s
  | _ => none

/-- btf/types.go:855-874 `As[*Var]`; `maxResolveDepth` is 32 (btf/types.go:17). -/
def asVar (t : Ty) : Option (Bytes × Ty) := as isVar 33 t

/-- btf/types.go:855-874 `As[*Struct]`. -/
def asStruct (t : Ty) : Option Struct := as isStruct 33 t

/-- btf/types.go:579-584 `VarSecinfo`. -/
structure VarSecinfo where
  type : Ty
  offset : Nat

/-- btf/types.go:555-559 `Datasec`. -/
structure Datasec where
  size : Nat
  vars : List VarSecinfo

/-- The outcome of `Spec.TypeByName` for a Datasec. -/
inductive Lookup where
  | notFound
  | failed
  | found (ds : Datasec)

/-- What the value of a map is declared as. -/
inductive Value where
  | datasec (ds : Datasec)
  | struct (s : Struct)

/-- map.go:41-100 `MapSpec`. -/
structure MapSpec where
  name : Bytes
  type : Nat
  keySize : Nat
  valueSize : Nat
  maxEntries : Nat
  flags : Nat
  value : Value
  contents : List (Nat × Bytes)

/-- Errors. -/
inductive Err where
  | lookup
  | zeroKconfig
  | ksymsType
  | readSection
  | noBTF
  | noDatasec
  | notVar
  | notStruct
  | exceeds
  | exists
  | panic
  | reloc
deriving DecidableEq

/-- `.kconfig`. -/
def kconfigName : Bytes := [0x2e#8, 0x6b#8, 0x63#8, 0x6f#8, 0x6e#8, 0x66#8, 0x69#8, 0x67#8]

/-- `.ksyms`. -/
def ksymsName : Bytes := [0x2e#8, 0x6b#8, 0x73#8, 0x79#8, 0x6d#8, 0x73#8]

/-- elf_reader.go:1458-1488 `loadKconfigSection`: the map, if there is one. `btf` is nil (`none`) or answers `TypeByName`. -/
def loadKconfig (btf : Option (Bytes → Lookup)) : Except Err (Option MapSpec) :=
  match btf with
  | none => .ok none
  | some f =>
    match f kconfigName with
    | .notFound => .ok none
    | .failed => .error .lookup
    | .found ds =>
      if ds.size = 0 then .error .zeroKconfig
      else .ok (some ⟨kconfigName, 2, 4, ds.size, 1, 128, .datasec ds, []⟩)

/-- elf_reader.go:1506-1515: the loop; maps are lists, newest first. -/
def loadKsymsVars : List VarSecinfo → List (Bytes × Ty) × List (Bytes × Ty) → Except Err (List (Bytes × Ty) × List (Bytes × Ty))
  | [], acc => .ok acc
  | v :: vs, (kfuncs, ksyms) =>
    match v.type with
    | .func n => loadKsymsVars vs ((n, .func n) :: kfuncs, ksyms)
    | .var n t => loadKsymsVars vs (kfuncs, (n, .var n t) :: ksyms)
    | _ => .error .ksymsType

/-- elf_reader.go:1492-1518 `loadKsymsSection`: functions and variables by name. -/
def loadKsyms (btf : Option (Bytes → Lookup)) : Except Err (List (Bytes × Ty) × List (Bytes × Ty)) :=
  match btf with
  | none => .ok ([], [])
  | some f =>
    match f ksymsName with
    | .notFound => .ok ([], [])
    | .failed => .error .lookup
    | .found ds => loadKsymsVars ds.vars ([], [])

/-! ## struct_ops -/

/-- `ec.maps` and the programs. -/
structure St where
  maps : List (Bytes × MapSpec)
  progs : List Prog

/-- elf_reader.go:1565-1607 `createStructOpsMap`: the map's spec, the struct and the variable's offset. The bounds of the slice are `uint32`s. -/
def createMap (v : VarSecinfo) (data : Bytes) (flags : Nat) (maps : List (Bytes × MapSpec)) : Except Err (MapSpec × Struct × Nat) :=
  match asVar v.type with
  | none => .error .notVar
  | some (name, t) =>
    match asStruct t with
    | none => .error .notStruct
    | some st =>
      if v.offset + st.size > data.length then .error .exceeds
      else if maps.any (fun m => m.1 == name) then .error .exists
      else if (v.offset + st.size) % 2 ^ 32 < v.offset then .error .panic
      else .ok (⟨name, 26, 4, st.size, 1, flags, .struct st, [(0, (data.drop v.offset).take ((v.offset + st.size) % 2 ^ 32 - v.offset))]⟩, st, v.offset)

/-- elf_reader.go:1549-1558: the loop over the variables of a section. -/
def associateVars (data : Bytes) (flags : Nat) (relocs : Nat → Option Bytes) : List VarSecinfo → St → Except Err St
  | [], s => .ok s
  | v :: vs, s =>
    match createMap v data flags s.maps with
    | .error e => .error e
    | .ok (m, st, base) =>
      match setAttachTo relocs base st.name st.members s.progs with
      | .error _ => .error .reloc
      | .ok progs => associateVars data flags relocs vs ⟨s.maps ++ [(m.name, m)], progs⟩

/-- A section of kind structOpsSection: its name, its data (`none`: reading fails) and its relocations. -/
structure Sec where
  name : Bytes
  data : Option Bytes
  relocs : Nat → Option Bytes

/-- `.struct_ops.link`. -/
def linkSec : Bytes :=
  [0x2e#8, 0x73#8, 0x74#8, 0x72#8, 0x75#8, 0x63#8, 0x74#8, 0x5f#8, 0x6f#8, 0x70#8, 0x73#8, 0x2e#8, 0x6c#8, 0x69#8, 0x6e#8, 0x6b#8]

/-- elf_reader.go:1522-1562 `associateStructOpsRelocs`; the sections in the order in which the map is ranged over. -/
def associate (btf : Option (Bytes → Lookup)) : List Sec → St → Except Err St
  | [], s => .ok s
  | sec :: secs, s =>
    match sec.data with
    | none => .error .readSection
    | some data =>
      match btf with
      | none => .error .noBTF
      | some f =>
        match f sec.name with
        | .notFound => .error .noDatasec
        | .failed => .error .noDatasec
        | .found ds =>
          match associateVars data (if sec.name = linkSec then 8192 else 0) sec.relocs ds.vars s with
          | .error e => .error e
          | .ok s' => associate btf secs s'

/-! ## the kernel's type -/

/-- `bpf_struct_ops_`. -/
def valuePrefix : Bytes :=
  [0x62#8, 0x70#8, 0x66#8, 0x5f#8, 0x73#8, 0x74#8, 0x72#8, 0x75#8, 0x63#8, 0x74#8, 0x5f#8, 0x6f#8, 0x70#8, 0x73#8, 0x5f#8]

/-- `strings.TrimPrefix`. -/
def trimPrefix (pre s : Bytes) : Bytes := if pre.isPrefixOf s then s.drop pre.length else s

/-- A struct of the kernel: its name, size and the types and offsets (in bytes) of its members. -/
structure KStruct where
  name : Bytes
  size : Nat
  members : List (Ty × Nat)

/-- struct_ops.go:87-91: the loop over the members. -/
def findInnerLoop (inner : Bytes) : List (Ty × Nat) → Option (Struct × Nat)
  | [] => none
  | (t, off) :: ms =>
    match asStruct t with
    | some st => if st.name = inner then some (st, off) else findInnerLoop inner ms
    | none => findInnerLoop inner ms

/-- struct_ops.go:84-94 `structOpsFindInnerType`. -/
def findInner (v : KStruct) : Option (Struct × Nat) := findInnerLoop (trimPrefix valuePrefix v.name) v.members

/-- prog.go:1257-1281 `findTargetInKernel` (C76) and `Spec.TypeID`: a struct of that name with its ID, in the kernel or in a module whose handle has been opened (its descriptor). `idFails`: TypeID fails. -/
inductive Target where
  | notFound
  | failed
  | found (st : KStruct) (typeID : Nat) (handle : Option Nat) (idFails : Bool)

/-- Events: descriptors opened and closed, system calls with the attributes. -/
structure Attr where
  type : Nat
  keySize : Nat
  valueSize : Nat
  maxEntries : Nat
  flags : Nat
  btfFd : Nat
  btfKey : Nat
  btfValue : Nat
  vmlinuxValue : Nat
  objFd : Nat
deriving DecidableEq

/-- See `Attr`. -/
inductive Ev where
  | opened (fd : Nat)
  | closed (fd : Nat)
  | create (a : Attr)
deriving DecidableEq

/-- Errors of creating a map. -/
inductive CErr where
  | loadBTF
  | requiresBTF
  | notStruct
  | notSupported
  | lookup
  | typeID
  | kernel (errno : Nat)
deriving DecidableEq

/-- struct_ops.go:97-116 `structOpsFindTarget`: the events, and the result. If TypeID fails the handle is not closed. -/
def findTarget (lookup : Bytes → Target) (user : Struct) : List Ev × Except CErr (KStruct × Nat × Option Nat) :=
  match lookup (valuePrefix ++ user.name) with
  | .notFound => ([], .error .notSupported)
  | .failed => ([], .error .lookup)
  | .found st tid h idFails => (h.toList.map .opened, if idFails then .error .typeID else .ok (st, tid, h))

/-- The result of `btf.MarshalMapKV`. -/
inductive KV where
  | unsupported
  | failed
  | ok (fd key value : Nat)

/-- map.go:641-649: the system call, once more without BTF if it fails with ENOTSUPP (524) or EINVAL and there was BTF. -/
def mapCreate (kernel : Attr → Except Nat Nat) (a : Attr) : List Ev × Except CErr Nat :=
  match kernel a with
  | .ok fd => ([.create a, .opened fd], .ok fd)
  | .error e =>
    if (e = 524 ∨ e = 22) ∧ a.btfFd ≠ 0 then
      match kernel { a with btfFd := 0, btfKey := 0, btfValue := 0 } with
      | .ok fd => ([.create a, .create { a with btfFd := 0, btfKey := 0, btfValue := 0 }, .opened fd], .ok fd)
      | .error e => ([.create a, .create { a with btfFd := 0, btfKey := 0, btfValue := 0 }], .error (.kernel e))
    else ([.create a], .error (.kernel e))

/-- map.go:611-639: the attributes for a struct_ops map. 0x8000: BPF_F_VTYPE_BTF_OBJ_FD. -/
def structOpsAttr (m : MapSpec) (kvFd : Nat) (t : KStruct) (tid : Nat) (h : Option Nat) : Attr :=
  ⟨m.type, m.keySize, t.size, m.maxEntries, if h.isSome then m.flags ||| 0x8000 else m.flags, kvFd, 0, 0, tid, h.getD 0⟩

/-- map.go:596-655: `createMap` for a struct_ops map with key and value types: what is opened and closed, and the new map's descriptor and the size of its values. -/
def createStructOps (kv : KV) (lookup : Bytes → Target) (kernel : Attr → Except Nat Nat) (m : MapSpec) : List Ev × Except CErr (Nat × Nat) :=
  match kv with
  | .failed => ([], .error .loadBTF)
  | .unsupported => ([], .error .requiresBTF)
  | .ok fd _ _ =>
    match m.value with
    | .datasec _ => ([.opened fd, .closed fd], .error .notStruct)
    | .struct st =>
      match findTarget lookup st with
      | (evs, .error e) => (.opened fd :: evs ++ [.closed fd], .error e)
      | (evs, .ok (t, tid, h)) =>
        match mapCreate kernel (structOpsAttr m fd t tid h) with
        | (evs', .error e) => (.opened fd :: evs ++ evs' ++ h.toList.map .closed ++ [.closed fd], .error e)
        | (evs', .ok mfd) => (.opened fd :: evs ++ evs' ++ h.toList.map .closed ++ [.closed fd], .ok (mfd, t.size))

end Ebpf.ElfVirtual
