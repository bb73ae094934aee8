import Verif.Model.Memory
import Verif.Lemmas.Blocks
/-! # Specification of memory-mapped regions -/
namespace Ebpf.Memory
open Ebpf.PerCPU (Codec)

/-- Calls on a `Memory`. -/
inductive Op where
  | write (p : Option Bytes) (off : Int)
  | read (p : Option Bytes) (off : Int)
  | close

/-- Effect of a call on the model state. -/
def step (m : Mem) : Op → Mem
  | .write p off => (writeAt m p off).1
  | .read _ _ => m
  | .close => close m

def run (m : Mem) (ops : List Op) : Mem := ops.foldl step m

/-- Effect of a write on a byte-addressed region of `len` bytes: byte `i` becomes the corresponding
byte of `p` if the call is valid and `i` is in the written range. -/
def specWrite (len : Nat) (f : Nat → Byte) (p : Bytes) (off : Int) : Nat → Byte := fun i =>
  if 0 ≤ off ∧ off < len ∧ off ≤ i ∧ i < off + p.length then p.getD (i - off.toNat) 0 else f i

/-- The region after a history without `Close`. -/
def specRun (len : Nat) (ro : Bool) : (Nat → Byte) → List Op → Nat → Byte
  | f, [] => f
  | f, .write (some p) off :: ops => specRun len ro (if ro then f else specWrite len f p off) ops
  | f, _ :: ops => specRun len ro f ops

/-- Two variables do not share a byte. -/
def Disjoint (v w : Var) : Prop :=
  v.offset.toNat + v.size.toNat ≤ w.offset.toNat ∨ w.offset.toNat + w.size.toNat ≤ v.offset.toNat

/-- The variable lies within a region of `len` bytes. -/
def InRegion (v : Var) (len : Nat) : Prop := v.offset.toNat + v.size.toNat ≤ len

end Ebpf.Memory
