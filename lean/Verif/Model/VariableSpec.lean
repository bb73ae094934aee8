import Verif.Model.Memory
/-!
# Model of `VariableSpec.Set` and `VariableSpec.Get` (`variable.go:30-88`)

As in Model/Memory, a kind of Go values is given by a codec: what `sysenc.Marshal` and `sysenc.Unmarshal` make of them. Values aren't nil. The slice of a variable isn't shared.
-/
namespace Ebpf.VarSpec
open Ebpf.PerCPU (Codec sysMarshal zeros)
open Ebpf.Memory (VarSpec)
variable {α : Type}

/-- What goes wrong: the size of the value isn't known, it doesn't have the bytes wanted, or the variable has no value. -/
inductive Err where
  | size
  | marshal
  | uninitialized
  | unmarshal
deriving DecidableEq

/-- variable.go:33-40: the size of the variable, or, if it has none, that of the value; `binSize` is `binary.Size`, `none` if negative. -/
def setSize (binSize : α → Option Nat) (v : VarSpec) (x : α) : Option Nat :=
  if v.size.toNat = 0 then binSize x else some v.size.toNat

/-- internal/sysenc/buffer.go:50-55 `CopyTo`: as much as fits. -/
def copyTo (dst src : Bytes) : Bytes := src.take dst.length ++ dst.drop src.length

/-- variable.go:32-53 `VariableSpec.Set`. -/
def set (c : Codec α) (binSize : α → Option Nat) (v : VarSpec) (x : α) : VarSpec × Option Err :=
  match setSize binSize v x with
  | none => (v, some .size)
  | some n =>
    let dst := match v.value with
      | none => zeros n
      | some b => b
    match sysMarshal c x n with
    | none => ({ v with value := some dst }, some .marshal)
    | some buf => ({ v with value := some (copyTo dst buf) }, none)

/-- variable.go:59-69 `VariableSpec.Get`. -/
def get (c : Codec α) (v : VarSpec) : Except Err α :=
  match v.value with
  | none => .error .uninitialized
  | some b =>
    match c.dec b with
    | none => .error .unmarshal
    | some x => .ok x

end Ebpf.VarSpec
