import Verif.Base
/-!
# Model of `MapSpec.fixupMagicFields`, `MapSpec.Compatible`, `createMap` and `Map.memorySize`

The other fields of a `MapSpec` play no role here. The number of CPUs is an argument (`none`: it can't be determined).
-/
namespace Ebpf.MapSpec

/-- map.go:52-97 `MapSpec`, the part that is compared. -/
structure MSpec where
  type : BitVec 32
  keySize : BitVec 32
  valueSize : BitVec 32
  maxEntries : BitVec 32
  flags : BitVec 32
deriving DecidableEq

/-- map.go:325-338 `Map`, the part that is compared. -/
structure MapInfo where
  type : BitVec 32
  keySize : BitVec 32
  valueSize : BitVec 32
  maxEntries : BitVec 32
  flags : BitVec 32
deriving DecidableEq

/-- types.go:20 `Array`. -/
def tArray : BitVec 32 := 2
/-- types.go:29 `PerfEventArray`. -/
def tPerfEventArray : BitVec 32 := 4
/-- types.go:61 `ArrayOfMaps`. -/
def tArrayOfMaps : BitVec 32 := 12
/-- types.go:64 `HashOfMaps`. -/
def tHashOfMaps : BitVec 32 := 13
/-- types.go:66 `DevMap`. -/
def tDevMap : BitVec 32 := 14
/-- types.go:70 `CPUMap`. -/
def tCPUMap : BitVec 32 := 16
/-- types.go:88 `DevMapHash`. -/
def tDevMapHash : BitVec 32 := 25
/-- types.go:105 `Arena`. -/
def tArena : BitVec 32 := 33
/-- types.go:116 `WindowsArrayOfMaps`; the tag is 1 << 28, internal/platform/constants.go:8-11. -/
def tWindowsArrayOfMaps : BitVec 32 := 0x10000007
/-- types.go:115 `WindowsHashOfMaps`. -/
def tWindowsHashOfMaps : BitVec 32 := 0x10000006

/-- types.go:152-154 `canStoreMap`. -/
def canStoreMap (t : BitVec 32) : Bool := t == tArrayOfMaps || t == tHashOfMaps || t == tWindowsArrayOfMaps || t == tWindowsHashOfMaps

/-- internal/sys/types.go:86 `BPF_F_RDONLY_PROG`. -/
def rdonlyProg : BitVec 32 := 128

/-- map.go:136-187 `fixupMagicFields`: the spec returned, and the receiver afterwards. -/
def fixup (cpus : Option (BitVec 32)) (spec : MSpec) : Option MSpec × MSpec :=
  if canStoreMap spec.type then
    if spec.valueSize ≠ 0 ∧ spec.valueSize ≠ 4 then (none, spec)
    else (some { spec with valueSize := 4 }, spec)
  else if spec.type = tPerfEventArray then
    if spec.keySize ≠ 0 ∧ spec.keySize ≠ 4 then (none, spec)
    else if spec.valueSize ≠ 0 ∧ spec.valueSize ≠ 4 then (none, spec)
    else match cpus with
      | none => (none, spec)
      | some n =>
        let spec' := { spec with keySize := 4, valueSize := 4 }
        if spec'.maxEntries = 0 ∨ spec'.maxEntries > n then (some { spec' with maxEntries := n }, spec) else (some spec', spec)
  else if spec.type = tCPUMap then
    match cpus with
    | none => (none, spec)
    | some n =>
      -- There is no copy in this case.
      if spec.maxEntries = 0 ∨ spec.maxEntries > n then (some { spec with maxEntries := n }, { spec with maxEntries := n }) else (some spec, spec)
  else (some spec, spec)

/-- map.go:275-312 `Compatible`: whether it returns nil, and the receiver afterwards. -/
def compatible (cpus : Option (BitVec 32)) (spec : MSpec) (m : MapInfo) : Bool × MSpec :=
  match fixup cpus spec with
  | (none, s) => (false, s)
  | (some ms, s) =>
    let flags := if ms.type = tDevMap ∨ ms.type = tDevMapHash then ms.flags ||| (m.flags &&& rdonlyProg) else ms.flags
    (m.type == ms.type && m.keySize == ms.keySize && m.valueSize == ms.valueSize && m.maxEntries == ms.maxEntries && m.flags == flags, s)

/-- map.go:548-664 `createMap`, if the kernel accepts the attributes, for types other than `StructOpsMap`: the new `Map` and the receiver. -/
def createMap (cpus : Option (BitVec 32)) (spec : MSpec) : Option MapInfo × MSpec :=
  match fixup cpus spec with
  | (none, s) => (none, s)
  | (some ms, s) => (some ⟨ms.type, ms.keySize, ms.valueSize, ms.maxEntries, ms.flags⟩, s)

/-- internal/math.go:4-6 `Align` for `uint32`. -/
def align32 (n a : BitVec 32) : BitVec 32 := (n + a - 1) / a * a

/-- internal/math.go:4-6 `Align` for non-negative `int` (sizes stay far below 2⁶³). -/
def alignInt (n a : Nat) : Nat := (n + a - 1) / a * a

/-- map.go:528-546 `memorySize`; `none` = not supported. -/
def memorySize (page : Nat) (m : MapInfo) : Option Nat :=
  if m.type = tArray then some (alignInt (align32 m.valueSize 8 * m.maxEntries).toNat page)
  else if m.type = tArena then some (m.maxEntries.toNat * page)
  else none

end Ebpf.MapSpec
