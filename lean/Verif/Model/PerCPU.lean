import Verif.Base
/-! # Model of `marshalers.go` (per-CPU values)

The element type and its encoding (`sysenc.Marshal` / `sysenc.Unmarshal` without the size check) are
parameters: any type of values with a partial encoder and a partial decoder. `reflect` checks that an
argument is a slice are typing here. `PossibleCPU()` is the parameter `cpus`. -/
namespace Ebpf.PerCPU

/-- How one Go value turns into bytes and back: internal/sysenc/marshal.go:23-64 (before the size
check) and 70-102. -/
structure Codec (α : Type) where
  enc : α → Option Bytes
  dec : Bytes → Option α

/-- Outcome of a function that may panic. -/
inductive Res (α : Type) where
  | ok (a : α)
  | err
  | panic
deriving DecidableEq

def zeros (n : Nat) : Bytes := List.replicate n 0

/-- internal/math.go:4-6 `Align(n, 8)` on `int` without overflow (see `align8_eq_alignS`). -/
def align8 (n : Nat) : Nat := (n + 8 - 1) / 8 * 8

variable {α : Type}

/-- internal/sysenc/marshal.go:57-63: `sysenc.Marshal` rejects encodings of another size. -/
def sysMarshal (c : Codec α) (v : α) (size : Nat) : Option Bytes :=
  match c.enc v with
  | none => none
  | some b => if b.length = size then some b else none

/-- marshalers.go:65-74, the loop of `appendPerCPUSlice`. -/
def appendElems (c : Codec α) (elemLength alignedElemLength : Nat) : Bytes → List α → Option Bytes
  | buf, [] => some buf
  | buf, v :: vs =>
    match sysMarshal c v elemLength with
    | none => none
    | some b => appendElems c elemLength alignedElemLength (buf ++ b ++ zeros (alignedElemLength - elemLength)) vs

/-- marshalers.go:50-80 `appendPerCPUSlice`. -/
def appendPerCPUSlice (c : Codec α) (buf : Bytes) (slice : List α) (possibleCPUs elemLength alignedElemLength : Nat) :
    Option Bytes :=
  if slice.length > possibleCPUs then none
  else
    match appendElems c elemLength alignedElemLength buf slice with
    | none => none
    | some buf => some (buf ++ zeros ((possibleCPUs - slice.length) * alignedElemLength))

/-- marshalers.go:86-100 `marshalPerCPUValue`. -/
def marshalPerCPUValue (c : Codec α) (cpus : Nat) (slice : List α) (elemLength : Nat) : Option Bytes :=
  appendPerCPUSlice c [] slice cpus elemLength (align8 elemLength)

/-- marshalers.go:121-127, the loop of `marshalBatchPerCPUValue`; `n` iterations remain and `slice`
is the part of the input not yet consumed (`sliceValue.Slice(i*cpus, (i+1)*cpus)`). -/
def batchLoop (c : Codec α) (cpus elemLength alignedElemLength : Nat) : Nat → Bytes → List α → Option Bytes
  | 0, buf, _ => some buf
  | n + 1, buf, slice =>
    match appendPerCPUSlice c buf (slice.take cpus) cpus elemLength alignedElemLength with
    | none => none
    | some buf => batchLoop c cpus elemLength alignedElemLength n buf (slice.drop cpus)

/-- marshalers.go:104-129 `marshalBatchPerCPUValue`. -/
def marshalBatchPerCPUValue (c : Codec α) (cpus : Nat) (slice : List α) (batchLen elemLength : Nat) : Option Bytes :=
  if slice.length ≠ batchLen * cpus then none
  else batchLoop c cpus elemLength (align8 elemLength) batchLen [] slice

/-- marshalers.go:155-175, the loop of `unmarshalPerCPUValue`. Slicing beyond the buffer panics
(Go checks against the capacity; here capacity = length). Elements of pointer type are not modelled. -/
def unmarshalElems (c : Codec α) (elemLength stride : Nat) : Nat → Bytes → Res (List α)
  | 0, _ => .ok []
  | n + 1, buf =>
    if buf.length < elemLength then .panic
    else match c.dec (buf.take elemLength) with
      | none => .err
      | some v =>
        if buf.length < stride then .panic
        else match unmarshalElems c elemLength stride n (buf.drop stride) with
          | .ok vs => .ok (v :: vs)
          | .err => .err
          | .panic => .panic

/-- marshalers.go:135-177 `unmarshalPerCPUValue`; `sliceLen` is the length of the destination, the
result is its new contents. -/
def unmarshalPerCPUValue (c : Codec α) (cpus sliceLen elemLength : Nat) (buf : Bytes) : Res (List α) :=
  if sliceLen ≠ cpus then .err
  else unmarshalElems c elemLength (align8 elemLength) cpus buf

/-- marshalers.go:202-208, the loop of `unmarshalBatchPerCPUValue`. -/
def unmarshalBatchLoop (c : Codec α) (cpus elemLength fullValueSize : Nat) : Nat → Bytes → Res (List α)
  | 0, _ => .ok []
  | n + 1, buf =>
    match unmarshalPerCPUValue c cpus cpus elemLength (buf.take fullValueSize) with
    | .ok vs =>
      match unmarshalBatchLoop c cpus elemLength fullValueSize n (buf.drop fullValueSize) with
      | .ok ws => .ok (vs ++ ws)
      | .err => .err
      | .panic => .panic
    | .err => .err
    | .panic => .panic

/-- marshalers.go:183-210 `unmarshalBatchPerCPUValue`. -/
def unmarshalBatchPerCPUValue (c : Codec α) (cpus sliceLen batchLen elemLength : Nat) (buf : Bytes) : Res (List α) :=
  if sliceLen ≠ batchLen * cpus then .err
  else if buf.length ≠ batchLen * (cpus * align8 elemLength) then .err
  else unmarshalBatchLoop c cpus elemLength (cpus * align8 elemLength) batchLen buf

end Ebpf.PerCPU
