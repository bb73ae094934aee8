import Verif.Model.BtfTypes
import Verif.Spec.BtfTraversal
/-! # Specification of type IDs -/
namespace Ebpf.BtfSpec

/-- `ids` is a numbering of `order`: the ID of the type at position `i` is `i + 1` (ID 0 is Void), and nothing else has an ID. -/
def Numbers {α : Type} (ids : α → Option (BitVec 32)) (order : List α) : Prop :=
  (∀ (i : Nat) t, order[i]? = some t → ids t = some (BitVec.ofNat 32 (i + 1))) ∧
  (∀ t id, ids t = some id → id ≠ 0 ∧ order[id.toNat - 1]? = some t)

end Ebpf.BtfSpec
