import Verif.Model.ProgHandles
import Verif.Model.MapCreate
/-!
# Model of the descriptors and mappings of maps: `map.go:334-364, 470-530, 735-763, 805-823, 1516-1564, 1728-1761, 1885-1896`, `memory.go:45-71`

The kernel has a table of open descriptors (Verif.Model.ProgHandles); a new descriptor is any number that isn't open (`pick`). What the kernel knows of a map
never changes (`Kernel`). Objects that are forgotten without `Close` are garbage until the cleanup of internal/sys/fd.go:21-30 closes their descriptors.
Creating maps is modelled in Verif.Model.MapCreate (C82), mapping memory on the Go heap in Verif.Model.UnsafeMemory (C100), the size of the memory in C60.
Windows is not modelled.
-/
namespace Ebpf.MapHandles
open Ebpf.ProgHandles (K St FD openFd closeFd closeAll dup handleFromID Calls)

/-- map.go:325-338, info.go:82-89: what is taken over from the kernel. -/
structure Attr where
  name : Bytes
  typ : BitVec 32
  keySize : BitVec 32
  valueSize : BitVec 32
  maxEntries : BitVec 32
  flags : BitVec 32
deriving DecidableEq

/-- memory.go:37-43 `Memory`; `addr` names the mapping. -/
structure Mem where
  addr : Nat
  size : Nat
  ro : Bool
  heap : Bool
deriving DecidableEq

/-- map.go:325-338 `Map`. `mid` is the map in the kernel (not part of the Go struct). -/
structure Map where
  attr : Attr
  fd : FD
  mid : Nat
  pinnedPath : Bytes
  fullValueSize : Nat
  memory : Option Mem
deriving DecidableEq

/-- What the kernel knows of a map: its attributes and the ID of its BTF; 0: none. -/
structure Kernel where
  attr : Nat → Attr
  btf : Nat → Nat

/-- The process: descriptors, mappings, and who has them: the user's maps, handles and raw descriptors, and what was forgotten. Handles and
what was forgotten are given with what they refer to (not part of the Go structs). -/
structure World where
  st : St
  mapped : List Mem
  maps : List Map
  handles : List (Option (Nat × Nat))
  garbage : List (Nat × K)
  raw : List (Nat × K)

/-- map.go:738-763 `newMapFromParts`; `cpus`: `PossibleCPU` may fail. -/
def newMapFromParts (cpus : Option Nat) (fd mid : Nat) (a : Attr) : Option Map :=
  if MapCreate.hasPerCPU a.typ = false then some ⟨a, some fd, mid, [], a.valueSize.toNat, none⟩
  else match cpus with
    | none => none
    | some n => some ⟨a, some fd, mid, [], (MapSpec.align32 a.valueSize 8).toNat * n, none⟩

/-- map.go:353-361 `newMapFromFD`; `info`: the system call succeeds. If `newMapFromParts` fails nobody has the descriptor any more. -/
def newMapFromFD (kn : Kernel) (info : Bool) (cpus : Option Nat) (fd mid : Nat) (w : World) : Option Map × World :=
  if info = false then (none, { w with st := closeFd fd w.st })
  else match newMapFromParts cpus fd mid (kn.attr mid) with
    | none => (none, { w with garbage := (fd, .map mid) :: w.garbage })
    | some m => (some m, w)

/-- internal/sys/fd_other.go:23-36 `NewFD` of a descriptor which isn't negative: 0 is duplicated. `ok`: fcntl succeeds. -/
def newFD (pick : List Nat → Nat) (ok : Bool) (fd : Nat) (s : St) : Option Nat × St :=
  if fd ≠ 0 then (some fd, s)
  else ((dup pick ok (some 0) s).1, closeFd 0 (dup pick ok (some 0) s).2)

/-- info.go:71-80: only descriptors of maps have the info of a map; the others are closed (map.go:355-357). -/
def adopt (kn : Kernel) (info : Bool) (cpus : Option Nat) (fd : Nat) (k : K) (w : World) : Option Map × World :=
  match k with
  | .map mid => newMapFromFD kn info cpus fd mid w
  | _ => (none, { w with st := closeFd fd w.st })

/-- map.go:344-351 `NewMapFromFD`, of a descriptor which the user had. -/
def fromRaw (kn : Kernel) (pick : List Nat → Nat) (ok info : Bool) (cpus : Option Nat) (fd : Nat) (k : K) (w : World) : Option Map × World :=
  match newFD pick ok fd w.st with
  | (none, s) => (none, { w with st := s })
  | (some n, s) => adopt kn info cpus n k { w with st := s }

/-- map.go:1887-1896 `NewMapFromID`; `byID`: the system call succeeds. -/
def fromID (kn : Kernel) (pick : List Nat → Nat) (byID info : Bool) (cpus : Option Nat) (mid : Nat) (w : World) : Option Map × World :=
  if byID then newMapFromFD kn info cpus (openFd pick (.map mid) w.st).1 mid { w with st := (openFd pick (.map mid) w.st).2 }
  else (none, w)

/-- map.go:1731-1751 `LoadPinnedMap`; `target`: what is pinned there, if it can be opened; `link`: its type can be found out. -/
def loadPinned (kn : Kernel) (pick : List Nat → Nat) (path : Bytes) (target : Option K) (link info : Bool) (cpus : Option Nat) (w : World) : Option Map × World :=
  match target with
  | none => (none, w)
  | some k =>
    let (fd, s) := openFd pick k w.st
    if link = false then (none, { w with st := closeFd fd s })
    else match k with
      | .map mid =>
        match newMapFromFD kn info cpus fd mid { w with st := s } with
        | (none, w) => (none, w)
        | (some m, w) => (some { m with pinnedPath := path }, w)
      | _ => (none, { w with st := closeFd fd s })

/-- map.go:1542-1564 `Clone`; `ok`: fcntl succeeds. -/
def Map.clone (pick : List Nat → Nat) (ok : Bool) (m : Map) (s : St) : Option Map × St :=
  match dup pick ok m.fd s with
  | (none, s) => (none, s)
  | (some d, s) => (some ⟨m.attr, some d, m.mid, [], m.fullValueSize, none⟩, s)

/-- map.go:1518-1526 `Close`: the memory stays mapped. -/
def Map.close (m : Map) (s : St) : Map × St := ({ m with fd := none }, m.fd.close s)

/-- map.go:811-823 `Handle`: the descriptor and the BTF; `info`: the system call succeeds. -/
def Map.handle (kn : Kernel) (pick : List Nat → Nat) (info : Bool) (c : Calls) (m : Map) (s : St) : Option (Nat × Nat) × St :=
  if m.fd = none ∨ info = false ∨ kn.btf m.mid = 0 then (none, s)
  else ((handleFromID pick c (kn.btf m.mid) s).1.map fun fd => (fd, kn.btf m.mid), (handleFromID pick c (kn.btf m.mid) s).2)

/-- What mmap(2) answers. -/
inductive Mmap where
  | ok | eperm | eacces | other
deriving DecidableEq

/-- memory.go:45-71 `newMemory`: first for reading and writing, then, if that isn't permitted, for reading. `fresh` names the mapping. -/
def newMemory (rw ro : Mmap) (fresh size : Nat) : Option Mem :=
  match rw with
  | .ok => some ⟨fresh, size, false, false⟩
  | .other => none
  | _ => if ro = .ok then some ⟨fresh, size, true, false⟩ else none

/-- map.go:475-498 `Memory`; `size`: `memorySize` may fail. Closed descriptors can't be mapped. -/
def Map.mem (size : Option Nat) (rw ro : Mmap) (m : Map) (mapped : List Mem) : Option Mem × Map × List Mem :=
  match m.memory with
  | some mm => (some mm, m, mapped)
  | none =>
    if m.attr.flags &&& 0x400 = 0 then (none, m, mapped)
    else match size with
      | none => (none, m, mapped)
      | some n =>
        match newMemory (if m.fd = none then .other else rw) ro mapped.length n with
        | none => (none, m, mapped)
        | some mm => (some mm, { m with memory := some mm }, mapped ++ [mm])

/-- What a user does with maps. -/
inductive Op where
  | fromID (mid : Nat) (byID info : Bool) (cpus : Option Nat)
  | fromRaw (i : Nat) (ok info : Bool) (cpus : Option Nat)
  | fromPin (path : Bytes) (target : Option K) (link info : Bool) (cpus : Option Nat)
  | clone (i : Nat) (ok : Bool)
  | close (i : Nat)
  | forget (i : Nat)
  | handle (i : Nat) (info : Bool) (c : Calls)
  | closeHandle (j : Nat)
  | memory (i : Nat) (size : Option Nat) (rw ro : Mmap)
  | gc

/-- The entries for the descriptor of a map. -/
def entries (m : Map) : List (Nat × K) := m.fd.toList.map fun n => (n, .map m.mid)

/-- The entries for a handle. -/
def handleEntries (h : Option (Nat × Nat)) : List (Nat × K) := h.toList.map fun x => (x.1, .btf x.2)

/-- The user keeps the map he was given. -/
def keep (r : Option Map × World) : World :=
  match r.1 with
  | none => r.2
  | some m => { r.2 with maps := r.2.maps ++ [m] }

/-- One operation: map.go as cited at each of them; internal/sys/fd.go:21-30 for `gc`, btf/handle.go:165-171 for `closeHandle`. -/
def step (kn : Kernel) (pick : List Nat → Nat) (w : World) : Op → World
  | .fromID mid byID info cpus => keep (fromID kn pick byID info cpus mid w)
  | .fromRaw i ok info cpus =>
    match w.raw[i]? with
    | none => w
    | some x => keep (fromRaw kn pick ok info cpus x.1 x.2 { w with raw := w.raw.eraseIdx i })
  | .fromPin path target link info cpus => keep (loadPinned kn pick path target link info cpus w)
  | .clone i ok =>
    match w.maps[i]? with
    | none => w
    | some m => keep ((m.clone pick ok w.st).1, { w with st := (m.clone pick ok w.st).2 })
  | .close i =>
    match w.maps[i]? with
    | none => w
    | some m => { w with st := (m.close w.st).2, maps := w.maps.set i (m.close w.st).1 }
  | .forget i =>
    match w.maps[i]? with
    | none => w
    | some m => { w with maps := w.maps.eraseIdx i, garbage := entries m ++ w.garbage }
  | .handle i info c =>
    match w.maps[i]? with
    | none => w
    | some m => { w with st := (m.handle kn pick info c w.st).2, handles := w.handles ++ [(m.handle kn pick info c w.st).1] }
  | .closeHandle j =>
    match w.handles[j]? with
    | none => w
    | some h => { w with st := FD.close (h.map (·.1)) w.st, handles := w.handles.set j none }
  | .memory i size rw ro =>
    match w.maps[i]? with
    | none => w
    | some m => { w with maps := w.maps.set i (m.mem size rw ro w.mapped).2.1, mapped := (m.mem size rw ro w.mapped).2.2 }
  | .gc => { w with st := closeAll (w.garbage.map (·.1)) w.st, garbage := [] }

/-- A history. -/
def run (kn : Kernel) (pick : List Nat → Nat) : World → List Op → World
  | w, [] => w
  | w, op :: ops => run kn pick (step kn pick w op) ops

end Ebpf.MapHandles
