import Verif.Base
/-!
# Specification vocabulary for the BPF wire format

Stated on raw bytes / raw field values with the documented numeric layout (RFC 9669), without the
model's accessors.
-/
namespace Ebpf.Spec

/-- Opcode byte of an arithmetic instruction: class 4 (ALU32) or 7 (ALU64). -/
def aluByte (b0 : Byte) : Prop := b0.toNat % 8 = 4 ∨ b0.toNat % 8 = 7

/-- The 16 bit offset of an arithmetic instruction has a meaning the decoder understands: 0, or 1
for division/modulo (signed variants), or 8/16/32 for moves (sign extension). -/
def aluOffsetKnown (b0 : Byte) (off : BitVec 16) : Prop :=
  off = 0#16
  ∨ (off = 1#16 ∧ (b0.toNat / 16 = 3 ∨ b0.toNat / 16 = 9))
  ∨ ((off = 8#16 ∨ off = 16#16 ∨ off = 32#16) ∧ b0.toNat / 16 = 11)

/-- A helper ("builtin") call: class 5, operation 8, both registers zero. -/
def helperCall (b0 b1 : Byte) : Prop := b0.toNat % 8 = 5 ∧ b0.toNat / 16 = 8 ∧ b1 = 0#8

/-- The condition under which re-encoding is proved to be the identity. -/
def wireOK (bo : ByteOrder) : Bytes → Prop
  | b0 :: b1 :: b2 :: b3 :: b4 :: b5 :: b6 :: b7 :: _ =>
    (aluByte b0 → aluOffsetKnown b0 (bo.get16 b2 b3))
    ∧ (helperCall b0 b1 → (bo.get32 b4 b5 b6 b7).toNat < 2 ^ 31)
  | _ => True

/-- The 64 bit value is the sign extension of a 32 bit immediate. -/
def fitsImm32 (c : BitVec 64) : Prop := -(2 ^ 31 : Int) ≤ c.toInt ∧ c.toInt < 2 ^ 31

/-- Well-formed instruction values `(opcode, dst, src, offset, constant)` for platform `plat`: the
values the public constructors of package asm build.
`tag` is the platform tag (0 for linux, 2^28 for windows). -/
inductive WellFormed (tag : Nat) : BitVec 32 → BitVec 8 → BitVec 8 → BitVec 16 → BitVec 64 → Prop
  /-- 64 bit immediate load: any constant. -/
  | dword (d s off c) : d.toNat < 16 → s.toNat < 16 → WellFormed tag 0x18#32 d s off c
  /-- Helper call: function number below 2^28 plus platform tag, no registers. -/
  | helper (op off c) : (op = 0x85#32 ∨ op = 0x8d#32) →
      (∃ n, n < 2 ^ 28 ∧ c.toNat = tag + n) → WellFormed tag op 0#8 0#8 off c
  /-- Arithmetic: offset unused. -/
  | alu (op d s c) : op.toNat < 256 → (op.toNat % 8 = 4 ∨ op.toNat % 8 = 7) → d.toNat < 16 → s.toNat < 16 →
      fitsImm32 c → WellFormed tag op d s 0#16 c
  /-- Extended arithmetic: signed division and modulo, sign extending moves. -/
  | aluExt (op d s c) : (op.toNat % 8 = 4 ∨ op.toNat % 8 = 7) →
      (op.toNat / 16 = 0x13 ∨ op.toNat / 16 = 0x19 ∨ op.toNat / 16 = 0x1b ∨ op.toNat / 16 = 0x2b
        ∨ op.toNat / 16 = 0x3b) → d.toNat < 16 → s.toNat < 16 →
      fitsImm32 c → WellFormed tag op d s 0#16 c
  /-- Atomic: the nine operation bits of the opcode are also the low nine bits of the constant. -/
  | atomic (op d s off c) : op.toNat % 8 = 3 → op.toNat / 32 % 8 = 6 → op.toNat < 2 ^ 17 →
      c.toNat % 2 ^ 9 = op.toNat / 256 → d.toNat < 16 → s.toNat < 16 → fitsImm32 c →
      WellFormed tag op d s off c
  /-- Everything else: plain loads, stores and jumps. -/
  | other (op d s off c) : op.toNat < 256 → op ≠ 0x18#32 →
      ¬ (op.toNat % 8 = 4 ∨ op.toNat % 8 = 7) → ¬ (op.toNat % 8 = 3 ∧ op.toNat / 32 = 6) →
      ¬ (op.toNat % 8 = 5 ∧ op.toNat / 16 = 8 ∧ d = 0#8 ∧ s = 0#8) →
      d.toNat < 16 → s.toNat < 16 → fitsImm32 c → WellFormed tag op d s off c

end Ebpf.Spec
