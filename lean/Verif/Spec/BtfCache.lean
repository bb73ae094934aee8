import Verif.Model.BtfCache
/-!
# Specification: no data race, one spec per module
-/
namespace Ebpf.BtfCacheSpec
open Ebpf.BtfCache

/-- Two goroutines access the same maps at the same time, and one of them writes. In Go this is undefined, and for maps usually the end of
the process. -/
def Race (pc : Nat → PC) : Prop :=
  ∃ t u r w1 w2, t ≠ u ∧ (pc t).access = some (r, w1) ∧ (pc u).access = some (r, w2) ∧ (w1 = true ∨ w2 = true)

/-- No spec in use shares its base with another one in use, or is the base of another one. -/
structure Separate (base : Nat → Option Nat) (used : Nat → Prop) : Prop where
  bases : ∀ s t b, used s → used t → base s = some b → base t = some b → s = t
  notBase : ∀ s b, used s → base s = some b → ¬ used b

end Ebpf.BtfCacheSpec
