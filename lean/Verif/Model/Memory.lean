import Verif.Model.PerCPU
import Verif.Model.Sysenc
/-! # Model of `memory.go`, `variable.go` and `MapSpec.updateDataSection` -/
namespace Ebpf.Memory
open Ebpf.PerCPU (Codec sysMarshal zeros)

/-- memory.go:37-43 `Memory`; `b = none` after `close` (`mm.b = nil`). -/
structure Mem where
  b : Option Bytes
  ro : Bool
deriving DecidableEq

inductive Err where
  | closed
  | nilBuffer
  | outOfRange
  | readOnly
  | eof
  | notSupported
  | marshal
deriving DecidableEq

/-- Go `copy(dst[off:], src)` for `off ≤ len(dst)`: the new `dst` and the number of bytes copied. -/
def copyAt (dst : Bytes) (off : Nat) (src : Bytes) : Bytes × Nat :=
  let n := min src.length (dst.length - off)
  (dst.take off ++ src.take n ++ dst.drop (off + n), n)

/-- memory.go:104-109 `bounds` (`uint32` arithmetic; `uint32(len(mm.b))` truncates). -/
def bounds (m : Mem) (off size : BitVec 32) : Bool :=
  if off + size < off then false
  else off + size ≤ BitVec.ofNat 32 (m.b.getD []).length

/-- memory.go:114-133 `ReadAt`: new contents of `p` (`none` = nil slice), count, error. -/
def readAt (m : Mem) (p : Option Bytes) (off : Int) : Option Bytes × Nat × Option Err :=
  match m.b with
  | none => (p, 0, some .closed)
  | some b =>
    match p with
    | none => (p, 0, some .nilBuffer)
    | some p =>
      if off < 0 ∨ off ≥ b.length then (some p, 0, some .outOfRange)
      else
        let (p', n) := copyAt p 0 (b.drop off.toNat)
        if n < p.length then (some p', n, some .eof) else (some p', n, none)

/-- memory.go:139-160 `WriteAt`: new state, count, error. -/
def writeAt (m : Mem) (p : Option Bytes) (off : Int) : Mem × Nat × Option Err :=
  match m.b with
  | none => (m, 0, some .closed)
  | some b =>
    if m.ro then (m, 0, some .readOnly)
    else match p with
      | none => (m, 0, some .nilBuffer)
      | some p =>
        if off < 0 ∨ off ≥ b.length then (m, 0, some .outOfRange)
        else
          let (b', n) := copyAt b off.toNat p
          let m := { m with b := some b' }
          if n < p.length then (m, n, some .eof) else (m, n, none)

/-- memory.go:88-92 `close`. -/
def close (m : Mem) : Mem := { m with b := none }

/-- variable.go:112-119 `Variable` (name and type omitted); the `Memory` it points to is passed
separately, because several variables share it. -/
structure Var where
  offset : BitVec 32
  size : BitVec 32
deriving DecidableEq

/-- variable.go:121-135 `newVariable` with memory. -/
def newVariable (m : Mem) (offset size : BitVec 32) : Option Var :=
  if bounds m offset size then some ⟨offset, size⟩ else none

variable {α : Type}

/-- variable.go:171-196 `Variable.Set`. internal/sysenc/buffer.go:77-83: the buffer of an empty value
is a nil slice. -/
def Var.set (v : Var) (c : Codec α) (m : Mem) (x : α) : Mem × Option Err :=
  if m.ro then (m, some .readOnly)
  else if !bounds m v.offset v.size then (m, some .eof)
  else match sysMarshal c x v.size.toNat with
    | none => (m, some .marshal)
    | some buf =>
      let (m, _, e) := writeAt m (if buf = [] then none else some buf) v.offset.toNat
      (m, e)

/-- variable.go:200-214 `Variable.Get`. -/
def Var.get (v : Var) (c : Codec α) (m : Mem) : Except Err α :=
  if !bounds m v.offset v.size then .error .eof
  else
    match c.dec (((m.b.getD []).drop v.offset.toNat).take ((v.offset + v.size).toNat - v.offset.toNat)) with
    | none => .error .marshal
    | some x => .ok x

/-! ## Data sections -/

/-- variable.go:18-28 `VariableSpec` of one section: offset, value (`none` = nil), and the size its BTF
type has (0 without type or for types without size). -/
structure VarSpec where
  offset : BitVec 32
  value : Option Bytes
  typeSize : BitVec 32
deriving DecidableEq

/-- variable.go:74-88 `VariableSpec.Size`. -/
def VarSpec.size (v : VarSpec) : BitVec 32 :=
  match v.value with
  | some b => BitVec.ofNat 32 b.length
  | none => v.typeSize

/-- Outcome of `updateDataSection`. -/
inductive Res where
  | ok
  | overlap
  | exceeds
  | panic
deriving DecidableEq

/-- map.go:237-250, the loop of `updateDataSection`: final contents of the data slice and outcome;
`data[v.Offset:end]` panics if `end < v.Offset`. Go `int` has 64 bits. -/
def updateLoop : BitVec 32 → Bytes → List VarSpec → Bytes × Res
  | _, data, [] => (data, .ok)
  | offset, data, v :: vs =>
    if v.offset < offset then (data, .overlap)
    else
      let e := v.offset + v.size
      if e.toNat > data.length then (data, .exceeds)
      else if e < v.offset then (data, .panic)
      else
        let src := v.value.getD []
        let n := min src.length (e.toNat - v.offset.toNat)
        updateLoop e (data.take v.offset.toNat ++ src.take n ++ data.drop (v.offset.toNat + n)) vs

/-- map.go:211-254 `updateDataSection`. The heap holds byte slices, the spec's single content is the
slice `ref`; `sorted` are the variables of the section after sorting (map.go:212-219, 233-235). Returns the
heap, the spec's new content reference and the outcome. -/
def updateDataSection (h : List Bytes) (ref : Nat) (sorted : List VarSpec) : List Bytes × Nat × Res :=
  if sorted = [] then (h, ref, .ok)
  else
    let data := h.getD ref []
    let clone := h.length
    let h := h ++ [data]
    let (data, r) := updateLoop 0 data sorted
    let h := h.set clone data
    (h, if r = .ok then clone else ref, r)

/-- map.go:233-235: `specs` sorted by offset. The order among equal offsets is whatever map iteration
and the unstable sort produce, so the model allows every sorted permutation. -/
def SortedPerm (specs sorted : List VarSpec) : Prop :=
  sorted.Perm specs ∧ sorted.Pairwise fun a b => a.offset ≤ b.offset

end Ebpf.Memory
