import Verif.Base
/-! # Model of `MapIterator` (map.go:1777-1875) -/
namespace Ebpf.MapIter

/-- Outcome of a map system call. -/
inductive Ans (α : Type) where
  | ok (a : α)
  | notExist
  | fail
deriving DecidableEq

/-- A kernel: any stateful machine answering `BPF_MAP_GET_NEXT_KEY` (first key for `none`) and
`BPF_MAP_LOOKUP_ELEM`. The state may change arbitrarily (concurrent modification). -/
structure Kernel (σ K V : Type) where
  nextKey : σ → Option K → σ × Ans K
  lookup : σ → K → σ × Ans V

/-- map.go:1785-1786 and the errors assigned in `Next`. -/
inductive Err where
  | nextKey
  | lookup
  | aborted
deriving DecidableEq

/-- map.go:1780-1788 `MapIterator`; `calls` is a ghost counting next-key system calls. -/
structure Iter (K : Type) where
  cursor : Option K
  count : BitVec 32
  maxEntries : BitVec 32
  done : Bool
  err : Option Err
  calls : Nat

/-- map.go:1790-1795 `newMapIterator`. -/
def newIter {K : Type} (maxEntries : BitVec 32) : Iter K := ⟨none, 0, maxEntries, false, none, 0⟩

variable {σ K V : Type}

/-- map.go:1814-1860, the loop of `Next`, for at most `fuel` rounds; `none` means it did not end by
then. Returns the pair yielded (`Next` returned true), if any. Decoding of the key into `keyOut` is
not modelled (keys are raw bytes). -/
def loop (k : Kernel σ K V) : Nat → σ → Iter K → Option (σ × Iter K × Option (K × V))
  | 0, _, _ => none
  | fuel + 1, s, mi =>
    if mi.count ≤ mi.maxEntries then
      match k.nextKey s mi.cursor with
      | (s, .notExist) => some (s, { mi with calls := mi.calls + 1, done := true, err := none }, none)
      | (s, .fail) => some (s, { mi with calls := mi.calls + 1, err := some .nextKey }, none)
      | (s, .ok key) =>
        let mi := { mi with calls := mi.calls + 1, cursor := some key, count := mi.count + 1 }
        match k.lookup s key with
        | (s, .notExist) => loop k fuel s mi
        | (s, .fail) => some (s, { mi with err := some .lookup }, none)
        | (s, .ok v) => some (s, { mi with err := none }, some (key, v))
    else some (s, { mi with err := some .aborted }, none)

/-- map.go:1807-1864 `Next`. -/
def next (k : Kernel σ K V) (fuel : Nat) (s : σ) (mi : Iter K) : Option (σ × Iter K × Option (K × V)) :=
  if mi.err.isSome || mi.done then some (s, mi, none) else loop k fuel s mi

/-- A user calling `Next` until it returns false, at most `n` times; the last component says whether
`Next` returned false. -/
def collect (k : Kernel σ K V) (fuel : Nat) : Nat → σ → Iter K → Option (σ × Iter K × List (K × V) × Bool)
  | 0, s, mi => some (s, mi, [], false)
  | n + 1, s, mi =>
    match next k fuel s mi with
    | none => none
    | some (s, mi, none) => some (s, mi, [], true)
    | some (s, mi, some kv) =>
      match collect k fuel n s mi with
      | none => none
      | some (s, mi, kvs, e) => some (s, mi, kv :: kvs, e)

end Ebpf.MapIter
