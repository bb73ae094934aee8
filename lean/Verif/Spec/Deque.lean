import Verif.Model.Deque
/-! # Specification of a double ended queue: a plain list

Only the types `Deque.Op` and `Deque.Out` (names of methods and results) are shared with the model. -/
namespace Ebpf.Spec.Deque
open Ebpf.Deque (Op Out)
variable {α : Type}

/-- One operation on the list of queued elements (front first). -/
def step (zero : α) (l : List α) : Op α → Out α × List α
  | .push e => (.unit, l ++ [e])
  | .shift => (.elem (l.head?.getD zero), l.tail)
  | .pop => (.elem (l.getLast?.getD zero), l.dropLast)
  | .grow _ => (.unit, l)
  | .reset => (.unit, [])
  | .empty => (.bool l.isEmpty, l)

/-- Results of a history. -/
def run (zero : α) (l : List α) : List (Op α) → List (Out α)
  | [] => []
  | o :: os => (step zero l o).1 :: run zero (step zero l o).2 os

/-- The history never asks for room for more than 2^62 elements (a 64-bit machine cannot
allocate that) and passes no negative number to `Grow`. -/
def Fits (zero : α) (l : List α) : List (Op α) → Prop
  | [] => True
  | o :: os =>
    (match o with
      | .push _ => l.length + 1 ≤ 2 ^ 62
      | .grow n => 0 ≤ n ∧ (l.length : Int) + n ≤ 2 ^ 62
      | _ => True) ∧ Fits zero (step zero l o).2 os

end Ebpf.Spec.Deque
