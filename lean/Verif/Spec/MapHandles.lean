import Verif.Model.MapHandles
/-!
# Specification: who owns which descriptor of a map
-/
namespace Ebpf.MapHandles.Spec
open Ebpf.ProgHandles (K St)

/-- The types of maps with a value for each CPU: hash, array, LRU hash, cgroup storage, and those of Windows. -/
def PerCPU (typ : BitVec 32) : Prop := typ ∈ [5#32, 6#32, 10#32, 21#32, 0x10000004#32, 0x10000005#32, 0x1000000b#32]

/-- The value size of a map is that of the kernel, rounded up to eight bytes and for each CPU if there is a value for each. -/
def FullSize (a : Attr) (n : Nat) : Prop :=
  (¬ PerCPU a.typ ∧ n = a.valueSize.toNat) ∨ (PerCPU a.typ ∧ ∃ cpus, n = ((a.valueSize + 8 - 1) / 8 * 8).toNat * cpus)

/-- The descriptors of the user's maps, of his handles, of what he has forgotten, and those he opened himself. -/
def owners (w : World) : List Nat :=
  w.maps.flatMap (fun m => m.fd.toList) ++ (w.handles.flatMap (fun h => (h.map (·.1)).toList) ++ (w.garbage.map (·.1) ++ w.raw.map (·.1)))

/-- Every open descriptor that isn't one of `base` (the others of the process) has exactly one owner, and each map and handle refers to what it should. -/
structure Owned (kn : Kernel) (base : List (Nat × K)) (w : World) : Prop where
  distinct : (w.st.table.map (·.1)).Nodup
  exact : (w.st.table.map (·.1)).Perm (owners w ++ base.map (·.1))
  foreign : ∀ x ∈ w.raw ++ base, x ∈ w.st.table
  maps : ∀ m ∈ w.maps, ∀ fd, m.fd = some fd → (fd, .map m.mid) ∈ w.st.table
  attrs : ∀ m ∈ w.maps, m.attr = kn.attr m.mid ∧ FullSize m.attr m.fullValueSize
  handles : ∀ fd bid, some (fd, bid) ∈ w.handles → (fd, .btf bid) ∈ w.st.table ∧ bid ≠ 0
  memory : ∀ m ∈ w.maps, ∀ mm, m.memory = some mm → mm ∈ w.mapped ∧ m.attr.flags.getLsbD 10 = true
  single : w.st.double = false

/-- New descriptors aren't open. -/
def Fresh (pick : List Nat → Nat) : Prop := ∀ l, pick l ∉ l

/-- The process at the start: descriptors which belong to the user (`raw`) and to others. -/
def start (raw base : List (Nat × K)) : World := ⟨⟨raw ++ base, false, []⟩, [], [], [], [], raw⟩

/-- A map as it is when it has just been obtained. -/
structure New (kn : Kernel) (mid : Nat) (m : Map) (path : Bytes) (before : List (Nat × K)) (after : World) : Prop where
  attrs : m.attr = kn.attr mid
  same : m.mid = mid
  full : FullSize m.attr m.fullValueSize
  unmapped : m.memory = none
  pinned : m.pinnedPath = path
  fd : ∃ fd, m.fd = some fd ∧ fd ∉ before.map (·.1) ∧ after.st.table = (fd, .map mid) :: before

end Ebpf.MapHandles.Spec
