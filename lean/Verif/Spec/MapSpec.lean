import Verif.Model.MapSpec
/-! # Specification: which map a spec asks for -/
namespace Ebpf.MapSpec.Spec
open Ebpf.MapSpec

/-- Zero or the given value. -/
def Default (x d : BitVec 32) : Prop := x = 0 ∨ x = d

/-- The number of entries of a map with one entry per CPU: at most one for each CPU, all of them by default. -/
def perCPUEntries (wanted n : BitVec 32) : BitVec 32 := if wanted.toNat = 0 then n else if n.toNat < wanted.toNat then n else wanted

/-- The key size, value size and number of entries the spec asks for on a system with `n` CPUs. -/
inductive AsksFor (n : BitVec 32) (spec : MSpec) : (key value max : BitVec 32) → Prop
  | mapInMap : (spec.type = 12 ∨ spec.type = 13 ∨ spec.type = 0x10000006 ∨ spec.type = 0x10000007) → Default spec.valueSize 4 →
      AsksFor n spec spec.keySize 4 spec.maxEntries
  | perf : spec.type = 4 → Default spec.keySize 4 → Default spec.valueSize 4 → AsksFor n spec 4 4 (perCPUEntries spec.maxEntries n)
  | cpu : spec.type = 16 → AsksFor n spec spec.keySize spec.valueSize (perCPUEntries spec.maxEntries n)
  | plain : spec.type ∉ [12, 13, 0x10000006, 0x10000007, 4, 16] → AsksFor n spec spec.keySize spec.valueSize spec.maxEntries

/-- The flags match, except that the kernel may have added the read-only flag to a device map. -/
def FlagsMatch (spec : MSpec) (flags : BitVec 32) : Prop :=
  flags = spec.flags ∨ (spec.type = 14 ∨ spec.type = 25) ∧ flags = spec.flags ||| 128

end Ebpf.MapSpec.Spec
