import Verif.Model.MapSpec
/-!
# Model of creating maps: `NewMapWithOptions`, `newMapWithOptions`, `createMap`, `LoadPinnedMap`, `finalize` (`map.go`)

File descriptors, kernel objects and pinned files are explicit; every system call may fail, as given by `Env`. struct_ops maps are C75 and C76.
Another process may pin something at any time between looking for the file and pinning.
-/
namespace Ebpf.MapCreate
open Ebpf.MapSpec

/-- A kernel object. `btf`: it has BTF types; `inner`: the object used as template; `contents`: what was put into it, in order. -/
structure Obj where
  isMap : Bool
  attr : MSpec
  btf : Bool
  inner : Option Nat
  contents : List (Nat × Nat)
  frozen : Bool
deriving DecidableEq

/-- Open file descriptors, kernel objects, pinned files. `bad`: something was closed that wasn't open. -/
structure St where
  fds : Nat → Option Nat
  nextFd : Nat
  objs : Nat → Option Obj
  nextObj : Nat
  files : Nat → Option Nat
  bad : Bool

/-- Change a function in one place. -/
def upd {α : Type} (f : Nat → α) (i : Nat) (a : α) : Nat → α := fun j => if j = i then a else f j

/-- The kernel makes a new object with a descriptor. -/
def St.create (s : St) (o : Obj) : St :=
  { s with fds := upd s.fds s.nextFd (some s.nextObj), nextFd := s.nextFd + 1, objs := upd s.objs s.nextObj (some o), nextObj := s.nextObj + 1 }

/-- internal/sys/fd.go `FD.Close`. -/
def St.close (s : St) (fd : Nat) : St := { s with fds := upd s.fds fd none, bad := s.bad || (s.fds fd).isNone }

/-- What `btf.MarshalMapKV` says. -/
inductive BtfRes where
  | ok
  | unsupported
  | fail
deriving DecidableEq

/-- What BPF_MAP_CREATE says: `retry` is ENOTSUPP or EINVAL. -/
inductive CreateErr where
  | retry
  | other
deriving DecidableEq

/-- How creating one map turns out in the kernel. -/
structure CreateEnv where
  btf : BtfRes
  first : Option CreateErr
  second : Option CreateErr

/-- How everything else turns out. `readType`: reading the type of a descriptor fails, with ENOENT if true. `race`: another process pins this object in between. -/
structure Env where
  cpus : Option (BitVec 32)
  objGet : Bool
  readType : Option Bool
  info : Bool
  inner : CreateEnv
  outer : CreateEnv
  race : Option Nat
  pin : Bool
  put : Nat → Bool
  freeze : Bool

/-- map.go:52-97 `MapSpec`, what creating the map looks at. `btf`: Key or Value is set; `extraOk`: Extra has zeroes only. -/
structure One where
  m : MSpec
  btf : Bool
  extraOk : Bool

/-- types.go `PinType`. -/
inductive Pinning where
  | none
  | byName
  | other
deriving DecidableEq

/-- map.go:52-97 `MapSpec`. `freeze`: the name is `.kconfig` or starts with `.rodata` (map.go:1627). -/
structure Spec where
  one : One
  named : Bool
  pinning : Pinning
  inner : Option One
  innerPinned : Bool
  contents : List (Nat × Nat)
  freeze : Bool

/-- map.go:325-338 `Map`. -/
structure Handle where
  fd : Nat
  attr : MSpec
  path : Option Nat
deriving DecidableEq

/-- Errors. -/
inductive Err where
  | spec
  | incompatible
  | notMap
  | sys
  | cpus
deriving DecidableEq

/-- types.go:133-143 `hasPerCPUValue`. -/
def hasPerCPU (t : BitVec 32) : Bool := t == 5 || t == 6 || t == 10 || t == 21 || t == 0x10000004 || t == 0x10000005 || t == 0x1000000b

/-- map.go:738-763 `newMapFromParts`. -/
def newMapFromParts (cpus : Option (BitVec 32)) (fd : Nat) (attr : MSpec) : Option Handle :=
  if hasPerCPU attr.type && cpus.isNone then none else some ⟨fd, attr, none⟩

/-- map.go:642-650: the system call, without BTF if it is refused with it. -/
def createCalls (e : CreateEnv) (handle : Bool) : Option Bool :=
  match e.first with
  | none => some handle
  | some .other => none
  | some .retry =>
    if handle then
      match e.second with
      | none => some false
      | some _ => none
    else none

/-- Close the BTF handle, if there is one. -/
def St.closeHandle (s : St) (h : Option Nat) : St :=
  match h with
  | none => s
  | some fd => s.close fd

/-- map.go:642-663: create the map and wrap it; `h` is the BTF handle, closed in any case. -/
def createWith (cpus : Option (BitVec 32)) (e : CreateEnv) (ms : MSpec) (inner : Option Nat) (h : Option Nat) (s : St) : St × Except Err Handle :=
  match createCalls e h.isSome with
  | none => (s.closeHandle h, .error .sys)
  | some withBtf =>
    let s' := s.create ⟨true, ms, withBtf, inner.bind s.fds, [], false⟩
    match newMapFromParts cpus s.nextFd ms with
    | none => ((s'.close s.nextFd).closeHandle h, .error .cpus)
    | some m => (s'.closeHandle h, .ok m)

/-- map.go:551-663 `createMap`. -/
def createMap (cpus : Option (BitVec 32)) (e : CreateEnv) (sp : One) (inner : Option Nat) (s : St) : St × Except Err Handle :=
  if sp.extraOk = false then (s, .error .spec)
  else
    match (fixup cpus sp.m).1 with
    | none => (s, .error .spec)
    | some ms =>
      if sp.btf = false then createWith cpus e ms inner none s
      else
        match e.btf with
        | .fail => (s, .error .sys)
        | .unsupported => createWith cpus e ms inner none s
        | .ok => createWith cpus e ms inner (some s.nextFd) (s.create ⟨false, ⟨0, 0, 0, 0, 0⟩, false, none, [], false⟩)

/-- map.go:353-361 `newMapFromFD`. -/
def newMapFromFD (env : Env) (fd : Nat) (o : Obj) (s : St) : St × Except Err Handle :=
  if env.info then (s.close fd, .error .sys)
  else
    match newMapFromParts env.cpus fd o.attr with
    | none => (s, .error .cpus)
    | some m => (s, .ok m)

/-- What `LoadPinnedMap` gives. -/
inductive Loaded where
  | notExist
  | error (e : Err)
  | ok (m : Handle)

/-- map.go:1731-1751 `LoadPinnedMap`; internal/sys/syscall_other.go:72-85 `ObjGetTyped`. -/
def loadPinned (env : Env) (path : Nat) (s : St) : St × Loaded :=
  match s.files path with
  | none => (s, .notExist)
  | some o =>
    match s.objs o with
    | none => (s, .error .sys)
    | some ob =>
      if env.objGet then (s, .error .sys)
      else
        let s' := { s with fds := upd s.fds s.nextFd (some o), nextFd := s.nextFd + 1 }
        match env.readType with
        | some true => (s'.close s.nextFd, .notExist)
        | some false => (s'.close s.nextFd, .error .sys)
        | none =>
          if ob.isMap = false then (s'.close s.nextFd, .error .notMap)
          else
            match newMapFromFD env s.nextFd ob s' with
            | (s'', .ok m) => (s'', .ok { m with path := some path })
            | (s'', .error e) => (s'', .error e)

/-- map.go:1575-1581 `Pin` of an unpinned map. -/
def pin (env : Env) (m : Handle) (path : Nat) (s : St) : St × Except Err Handle :=
  if env.pin ∨ (s.files path).isSome then (s, .error .sys)
  else ({ s with files := upd s.files path (s.fds m.fd) }, .ok { m with path := some path })

/-- map.go:463-470: pin the new map, or close it. -/
def pinNew (env : Env) (sp : Spec) (path : Nat) (m : Handle) (s : St) : St × Except Err Handle :=
  if sp.pinning = .byName then
    match pin env m path s with
    | (s, .ok m) => (s, .ok m)
    | (s, .error e) => (s.close m.fd, .error e)
  else (s, .ok m)

/-- map.go:457-470: create the map with this template. -/
def createOuter (env : Env) (sp : Spec) (path : Nat) (inner : Option Nat) (s : St) : St × Except Err Handle :=
  match createMap env.cpus env.outer sp.one inner s with
  | (s, .error e) => (s, .error e)
  | (s, .ok m) => pinNew env sp path m s

/-- map.go:432-470: the part after looking for a pinned map; the template is closed at the end. -/
def createNew (env : Env) (sp : Spec) (path : Nat) (s : St) : St × Except Err Handle :=
  if canStoreMap sp.one.m.type then
    match sp.inner with
    | none => (s, .error .spec)
    | some i =>
      if sp.innerPinned then (s, .error .spec)
      else
        match createMap env.cpus env.inner i none s with
        | (s, .error e) => (s, .error e)
        | (s, .ok t) =>
          let r := createOuter env sp path (some t.fd) s
          (r.1.close t.fd, r.2)
  else createOuter env sp path none s

/-- Another process pins an object here. -/
def St.race (s : St) (env : Env) (path : Nat) : St :=
  match env.race with
  | none => s
  | some o => if (s.files path).isSome then s else { s with files := upd s.files path (some o) }

/-- map.go:394-470 `newMapWithOptions`; `pinPath`: MapOptions.PinPath joined with the name, if it is set. -/
def newMapWithOptions (env : Env) (sp : Spec) (pinPath : Option Nat) (s : St) : St × Except Err Handle :=
  match sp.pinning with
  | .other => (s, .error .spec)
  | .none => createNew env sp 0 s
  | .byName =>
    if sp.named = false then (s, .error .spec)
    else
      match pinPath with
      | none => (s, .error .spec)
      | some path =>
        match loadPinned env path s with
        | (s, .notExist) => createNew env sp path (s.race env path)
        | (s, .error e) => (s, .error e)
        | (s, .ok m) =>
          if (compatible env.cpus sp.one.m ⟨m.attr.type, m.attr.keySize, m.attr.valueSize, m.attr.maxEntries, m.attr.flags⟩).1 then (s, .ok m)
          else (s.close m.fd, .error .incompatible)

/-- Change the object behind a descriptor. -/
def St.modify (s : St) (fd : Nat) (f : Obj → Obj) : St :=
  match s.fds fd with
  | none => s
  | some o =>
    match s.objs o with
    | none => s
    | some ob => { s with objs := upd s.objs o (some (f ob)) }

/-- map.go:1621-1625: put the contents; `i` counts the calls. False: one failed. -/
def putAll (env : Env) (fd : Nat) : List (Nat × Nat) → Nat → St → St × Bool
  | [], _, s => (s, true)
  | kv :: r, i, s =>
    if env.put i then (s, false)
    else putAll env fd r (i + 1) (s.modify fd (fun o => { o with contents := o.contents ++ [kv] }))

/-- map.go:1620-1634 `finalize`. -/
def finalize (env : Env) (sp : Spec) (m : Handle) (s : St) : St × Bool :=
  match putAll env m.fd sp.contents 0 s with
  | (s, false) => (s, false)
  | (s, true) =>
    if sp.freeze then
      if env.freeze then (s, false)
      else (s.modify m.fd (fun o => { o with frozen := true }), true)
    else (s, true)

/-- map.go:380-392 `NewMapWithOptions`. -/
def newMap (env : Env) (sp : Spec) (pinPath : Option Nat) (s : St) : St × Except Err Handle :=
  match newMapWithOptions env sp pinPath s with
  | (s, .error e) => (s, .error e)
  | (s, .ok m) =>
    match finalize env sp m s with
    | (s, true) => (s, .ok m)
    | (s, false) => (s.close m.fd, .error .sys)

end Ebpf.MapCreate
