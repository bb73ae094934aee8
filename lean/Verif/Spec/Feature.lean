import Verif.Model.Feature
/-! # What callers of a feature probe observe (only the event log is used) -/
namespace Ebpf.Spec.Feature
open Ebpf.Feature (Ev Outcome Ret)

/-- The answer a conclusive outcome stands for. -/
def answer : Outcome → Option Ret
  | .supported => some .nil
  | .unsupported => some .notSupported
  | .inconclusive _ => none

/-- The answer of the latest conclusive probe in the log (latest event first). -/
def concluded : List Ev → Option Ret
  | [] => none
  | .fin _ o :: l => (answer o).or (concluded l)
  | _ :: l => concluded l

/-- What was known when goroutine `t` made its latest call. -/
def knownAtCall (t : Nat) : List Ev → Option Ret
  | [] => none
  | .call u :: l => if u = t then concluded l else knownAtCall t l
  | _ :: l => knownAtCall t l

/-- Number of probes started but not finished. -/
def active : List Ev → Int
  | [] => 0
  | .start _ :: l => active l + 1
  | .fin _ _ :: l => active l - 1
  | _ :: l => active l

/-- Number of conclusive probes. -/
def conclusions : List Ev → Nat
  | [] => 0
  | .fin _ o :: l => (if (answer o).isSome then 1 else 0) + conclusions l
  | _ :: l => conclusions l

/-- The outcome of the probe goroutine `t` ran during its current (latest) call, if any. -/
def ownProbe (t : Nat) : List Ev → Option Outcome
  | [] => none
  | .call u :: l => if u = t then none else ownProbe t l
  | .fin u o :: l => if u = t then some o else ownProbe t l
  | _ :: l => ownProbe t l

end Ebpf.Spec.Feature
