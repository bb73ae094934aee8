import Verif.Base
/-! # Model of `internal/deque.go`

Panics (index out of range, `panic("overflow")`, `make` with len > cap) are `none`. -/
namespace Ebpf

/-- internal/deque.go:6-10 `Deque[T]`. The slice `elems` always has len = cap here, since
`Grow` re-slices it to its capacity (deque.go:82). -/
structure Deque (α : Type) where
  elems : List α
  read : BitVec 64
  write : BitVec 64
  mask : BitVec 64

namespace Deque
variable {α : Type}

/-- The zero value of `Deque[T]`. -/
def new : Deque α := ⟨[], 0, 0, 0⟩

/-- internal/deque.go:23-25 `Empty`. -/
def empty (d : Deque α) : Bool := d.read == d.write

/-- Go `bits.LeadingZeros64` subtracted from 64, i.e. the bit length of `x`
(used at internal/deque.go:75). -/
def bitLen (x : Nat) : Nat := if x = 0 then 0 else x.log2 + 1

/-- internal/deque.go:75 `max(1<<(64-bits.LeadingZeros64(need-1)), 8)`; the type of the shift is
`int`, so it wraps to `MinInt64` at shift 63 and to 0 at shift 64. -/
def capacityFor (need : BitVec 64) : Nat :=
  (max (BitVec.ofNat 64 (2 ^ bitLen (need - 1).toNat)).toInt 8).toNat

/-- internal/deque.go:65-85 `Grow`. `zero` is the zero value of `T`.
Simplification: the allocation itself never fails. -/
def grow (zero : α) (d : Deque α) (n : Int) : Option (Deque α) :=
  let have_ := d.write - d.read
  let need := have_ + BitVec.ofInt 64 n
  if need < have_ then none
  else if d.elems.length ≥ need.toNat then some d
  else
    let capacity := capacityFor need
    let pivot := (d.read &&& d.mask).toNat
    if have_.toNat > capacity then none          -- make([]T, have, capacity)
    else if pivot > d.elems.length then none     -- dq.elems[pivot:]
    else
      let copied := (d.elems.drop pivot ++ d.elems.take pivot).take have_.toNat
      some { elems := copied ++ List.replicate (capacity - copied.length) zero
             read := 0, write := have_, mask := BitVec.ofNat 64 capacity - 1 }

/-- Go `dq.elems[i&dq.mask] = e`: panics when out of range. -/
def store (d : Deque α) (i : BitVec 64) (e : α) : Option (Deque α) :=
  let ix := (i &&& d.mask).toNat
  if ix < d.elems.length then some { d with elems := d.elems.set ix e } else none

/-- internal/deque.go:28-32 `Push`. -/
def push (zero : α) (d : Deque α) (e : α) : Option (Deque α) := do
  let d ← d.grow zero 1
  let d ← d.store d.write e
  some { d with write := d.write + 1 }

/-- internal/deque.go:35-46 `Shift`. -/
def shift (zero : α) (d : Deque α) : Option (α × Deque α) :=
  if d.empty then some (zero, d)
  else do
    let t ← d.elems[(d.read &&& d.mask).toNat]?
    let d ← d.store d.read zero
    some (t, { d with read := d.read + 1 })

/-- internal/deque.go:49-61 `Pop`. -/
def pop (zero : α) (d : Deque α) : Option (α × Deque α) :=
  if d.empty then some (zero, d)
  else do
    let d := { d with write := d.write - 1 }
    let t ← d.elems[(d.write &&& d.mask).toNat]?
    let d ← d.store d.write zero
    some (t, d)

/-- internal/deque.go:13-21 `Reset`: the loop `for i := read; i < write; i++`, run for
`steps` iterations. -/
def resetLoop (zero : α) (d : Deque α) : Nat → BitVec 64 → Option (Deque α)
  | 0, _ => some d
  | s + 1, i => do
    let d ← d.store i zero
    resetLoop zero d s (i + 1)

/-- internal/deque.go:13-21 `Reset`. The loop runs `write - read` times when `read < write`
(as unsigned numbers), otherwise not at all. -/
def reset (zero : α) (d : Deque α) : Option (Deque α) := do
  let d ← resetLoop zero d (d.write.toNat - d.read.toNat) d.read
  some { d with read := 0, write := 0 }

/-- The public operations of a deque. -/
inductive Op (α : Type) where
  | push (e : α)
  | shift
  | pop
  | grow (n : Int)
  | reset
  | empty

/-- What an operation returns. -/
inductive Out (α : Type) where
  | unit
  | elem (e : α)
  | bool (b : Bool)
deriving DecidableEq

/-- One method call. -/
def step (zero : α) (d : Deque α) : Op α → Option (Out α × Deque α)
  | .push e => (d.push zero e).map fun d => (.unit, d)
  | .shift => (d.shift zero).map fun (t, d) => (.elem t, d)
  | .pop => (d.pop zero).map fun (t, d) => (.elem t, d)
  | .grow n => (d.grow zero n).map fun d => (.unit, d)
  | .reset => (d.reset zero).map fun d => (.unit, d)
  | .empty => some (.bool d.empty, d)

/-- A history of method calls; `none` when one of them panics. -/
def run (zero : α) (d : Deque α) : List (Op α) → Option (List (Out α))
  | [] => some []
  | o :: os => do
    let (out, d) ← step zero d o
    let outs ← run zero d os
    some (out :: outs)

end Deque
end Ebpf
