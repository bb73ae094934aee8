import Verif.Base
/-! # Specification of graph traversal -/
namespace Ebpf.BtfSpec

/-- `y` is reachable from `x` along the edges `ch`. -/
inductive Reach {α : Type} (ch : α → List α) : α → α → Prop where
  | refl (x) : Reach ch x x
  | step {x y z} : y ∈ ch x → Reach ch y z → Reach ch x z

/-- `a` occurs before `b` in `l`. -/
def Before {α : Type} (a b : α) (l : List α) : Prop := ∃ p q, l = p ++ b :: q ∧ a ∈ p

/-- The graph reachable from `x` is finite: `U` contains `x` and is closed. -/
def Closed {α : Type} (ch : α → List α) (U : List α) : Prop := ∀ x ∈ U, ∀ y ∈ ch x, y ∈ U

end Ebpf.BtfSpec
