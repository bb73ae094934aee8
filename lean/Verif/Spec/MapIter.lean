import Verif.Model.MapIter
/-! # An unmodified map -/
namespace Ebpf.MapIter

/-- The element after `k` in `ks`. -/
def after {K : Type} [DecidableEq K] : List K → K → Option K
  | [], _ => none
  | x :: xs, k => if x = k then xs.head? else after xs k

/-- A kernel whose map does not change: keys in iteration order `ks`; `val` gives the value, `none` for
slots that exist as keys but hold nothing (program arrays and other fd arrays). -/
def honest {K V : Type} [DecidableEq K] (ks : List K) (val : K → Option V) : Kernel Unit K V where
  nextKey := fun s k => (s, match k with
    | none => match ks.head? with | some x => .ok x | none => .notExist
    | some k => match after ks k with | some x => .ok x | none => .notExist)
  lookup := fun s k => (s, match val k with | some v => .ok v | none => .notExist)

/-- The entries of the map in iteration order. -/
def entries {K V : Type} (ks : List K) (val : K → Option V) : List (K × V) :=
  ks.filterMap fun k => (val k).map fun v => (k, v)

end Ebpf.MapIter
