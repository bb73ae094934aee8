import Verif.Model.PerCPU
import Verif.Lemmas.Blocks
/-! # Specification of per-CPU buffers (kernel `bpf_percpu_hash_copy`/`_update`)

The kernel reads and writes one slot of `round_up(value_size, 8)` bytes per possible CPU. -/
namespace Ebpf.PerCPU

/-- Slot contents: the value followed by zero padding up to the stride. -/
def IsSlot (size stride : Nat) (value slot : Bytes) : Prop :=
  value.length = size ∧ slot = value ++ List.replicate (stride - size) 0

/-- Slot `i` of a buffer with the given stride. -/
def slotAt (buf : Bytes) (stride i : Nat) : Bytes := window buf (i * stride) stride

/-- The value bytes in slot `i`. -/
def valueAt (buf : Bytes) (stride size i : Nat) : Bytes := window buf (i * stride) size

/-- The least multiple of 8 that is at least `n`. -/
def IsRoundUp8 (n m : Nat) : Prop := m % 8 = 0 ∧ n ≤ m ∧ m < n + 8

end Ebpf.PerCPU
