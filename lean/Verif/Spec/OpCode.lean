import Verif.Base
/-! Specification vocabulary for opcode fields: a field is a range of bit positions. -/
namespace Ebpf.Spec

/-- `v` only has bits in positions `lo ≤ i < hi`. -/
def FitsField (lo hi : Nat) (v : BitVec 32) : Prop := ∀ i, v.getLsbD i = true → lo ≤ i ∧ i < hi

/-- `op'` is `op` with the bits `lo ≤ i < hi` replaced by those of `v`, all other bits kept. -/
def FieldReplaced (lo hi : Nat) (op v op' : BitVec 32) : Prop :=
  ∀ i, op'.getLsbD i = if lo ≤ i ∧ i < hi then v.getLsbD i else op.getLsbD i

/-- The value of the three class bits (documented layout: bits 0-2). -/
def classOf (op : BitVec 32) : Nat := op.toNat % 8

end Ebpf.Spec
