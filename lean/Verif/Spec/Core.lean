import Verif.Model.CoreFixup
/-!
# Specification: choosing among CO-RE candidates; what a fix-up may change
-/
namespace Ebpf.CoreSpec
open Ebpf.Asm Ebpf.Core

/-- Relocating every `r` in `relos` against target `t` gives `fs`, in order. -/
def Fixes {E R T : Type} (compute : R → T → Except E Fixup) (relos : List R) (t : T) (fs : List Fixup) : Prop :=
  relos.map (fun r => compute r t) = fs.map .ok

/-- A relocation which can't be satisfied: poisoned, or an existence check which says no. -/
def Bad (f : Fixup) : Bool :=
  f.poison || ((f.kind == .enumvalExists || f.kind == .typeExists || f.kind == .fieldExists || f.kind == .typeMatches) && f.target == 0)

/-- The number of unsatisfied relocations. -/
def badness (fs : List Fixup) : Nat := fs.countP Bad

/-- What two candidates must agree on. -/
def values (fs : List Fixup) : List (BitVec 64 × BitVec 64) := fs.map fun f => (f.loc, f.target)

/-- The operand a relocation applies to: the offset of loads and stores, the immediate of `ld_imm64` and ALU instructions. -/
inductive Operand | offset | imm
deriving DecidableEq

/-- Class bits of the opcode: 1 ldx, 2 st, 3 stx, 4 alu32, 7 alu64; 0x18 is `ld_imm64`. Bit 3 of ALU opcodes is set if the source
is a register; an operation (bits 4 to 13) of 0xd is a byte swap. -/
def operand (i : Ins) : Option Operand :=
  let c := i.op.toNat % 8
  if c = 1 ∨ c = 2 ∨ c = 3 then some .offset
  else if i.op = 0x18 ∧ i.src = 0 ∧ i.off = 0 then some .imm
  else if (c = 4 ∨ c = 7) ∧ i.op.toNat / 8 % 2 = 0 ∧ i.op.toNat / 16 % 1024 ≠ 0xd then some .imm
  else none

/-- The instruction with only that operand replaced; metadata (symbol, reference, map, source) is kept. -/
def setOperand (o : Operand) (v : BitVec 64) (i : CIns) : CIns :=
  match o with
  | .offset => { i with p := { i.p with ins := { i.p.ins with off := v.setWidth 16 } } }
  | .imm => { i with p := { i.p with ins := { i.p.ins with cons := v } } }

/-- The instruction is rejected by the verifier when it is reached: it loads the frame pointer or calls a helper which does not exist. -/
def Illegal (i : Ins) : Prop := (i.op = 0x18 ∧ i.dst = 10) ∨ (i.op = 0x85 ∧ i.src = 0 ∧ i.dst = 0 ∧ i.cons = 0xbad2310)

end Ebpf.CoreSpec
