import Verif.Base
/-! # Specification for kernel configuration (C45, C46) -/
namespace Ebpf.Spec.Kconfig

/-- `line` is the assignment `key=value`: it starts with `CONFIG_`, `key` has no `=`. -/
def Assigns (line key value : Bytes) : Prop :=
  line = key ++ 0x3d#8 :: value ∧ 0x3d#8 ∉ key ∧
  ([0x43, 0x4f, 0x4e, 0x46, 0x49, 0x47, 0x5f] : Bytes) <+: line

/-- `value` is what the first assignment to `key` in the file assigns. -/
def FirstAssignment (lines : List Bytes) (key value : Bytes) : Prop :=
  ∃ before line after, lines = before ++ line :: after ∧ Assigns line key value ∧
    ∀ l ∈ before, ∀ v, ¬ Assigns l key v

/-- The unsigned number stored in `b`, little endian. -/
def leValue : Bytes → Nat
  | [] => 0
  | b :: bs => b.toNat + 256 * leValue bs

/-- The unsigned number stored in `b` under a byte order. -/
def value (bo : ByteOrder) (b : Bytes) : Nat :=
  match bo with
  | .little => leValue b
  | .big => leValue b.reverse

/-- The two's complement number stored in `b`. -/
def signedValue (bo : ByteOrder) (b : Bytes) : Int :=
  if value bo b < 2 ^ (8 * b.length - 1) then value bo b else value bo b - 2 ^ (8 * b.length)

end Ebpf.Spec.Kconfig
