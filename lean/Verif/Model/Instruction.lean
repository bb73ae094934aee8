import Verif.Model.OpCode
import Verif.Model.Platform
/-!
# Model of `asm/instruction.go`: single instructions

`Register` is a Go `uint8`, `Offset` an `int16`, `Constant` an `int64`; all are bit vectors here.
Readers are byte lists: decoding returns the remaining input. `Metadata` is not part of this
structure (it does not influence `Marshal`); references are in `Verif.Model.References`.
-/
namespace Ebpf.Asm
open OpCode

/-- asm/instruction.go:37-47 `Instruction` without `Metadata`. -/
structure Ins where
  op : OpCode
  dst : BitVec 8
  src : BitVec 8
  off : BitVec 16
  cons : BitVec 64
deriving DecidableEq, Repr

/-- Errors of `Unmarshal`/`Marshal`; messages are dropped, only the failing check is kept. -/
inductive AsmErr where
  | eof | unexpectedEOF | builtin | missingHalf | nonZeroFields
  | invalidOpcode | notSupportedOnOS | extOffset
deriving DecidableEq, Repr

namespace Ins

/-- asm/register.go: pseudo registers used in `Src`. -/
def PseudoMapFD : BitVec 8 := 1#8
def PseudoMapValue : BitVec 8 := 2#8
def PseudoBtfId : BitVec 8 := 3#8
def PseudoCall : BitVec 8 := 1#8
def PseudoKfuncCall : BitVec 8 := 2#8
def PseudoFunc : BitVec 8 := 4#8

/-- asm/instruction.go:337-339 `IsBuiltinCall`. -/
def isBuiltinCall (i : Ins) : Bool := i.op.jumpOp == Call && i.src == 0#8 && i.dst == 0#8

/-- asm/instruction.go:300-302 `IsLoadFromMap`. -/
def isLoadFromMap (i : Ins) : Bool :=
  i.op == 0x18#32 && (i.src == PseudoMapFD || i.src == PseudoMapValue)

/-- asm/instruction.go:307-309 `IsFunctionCall`. -/
def isFunctionCall (i : Ins) : Bool := i.op.jumpOp == Call && i.src == PseudoCall

/-- asm/instruction.go:314-316 `IsKfuncCall`. -/
def isKfuncCall (i : Ins) : Bool := i.op.jumpOp == Call && i.src == PseudoKfuncCall

/-- asm/instruction.go:319-321 `IsLoadOfFunctionPointer`. -/
def isLoadOfFunctionPointer (i : Ins) : Bool := i.op.isDWordLoad && i.src == PseudoFunc

/-- asm/instruction.go:332-334 `IsFunctionReference`. -/
def isFunctionReference (i : Ins) : Bool := i.isFunctionCall || i.isLoadOfFunctionPointer

/-- asm/instruction.go:52-54 `Width`. -/
def width (i : Ins) : Nat := i.op.rawInstructions

end Ins

/-- asm/instruction.go:992-1001 `newBPFRegisters` (Go evaluates the shift in `uint8`). -/
def newBPFRegisters (bo : ByteOrder) (dst src : BitVec 8) : Byte :=
  match bo with
  | .little => (src <<< 4) ||| (dst &&& 0xf#8)
  | .big => (dst <<< 4) ||| (src &&& 0xf#8)

/-- asm/instruction.go:65-71: splitting the register byte into `(dst, src)`. -/
def splitRegs (bo : ByteOrder) (regs : Byte) : BitVec 8 × BitVec 8 :=
  match bo with
  | .little => (regs &&& 0xf#8, regs >>> 4)
  | .big => (regs >>> 4, regs &&& 0xf#8)

/-- asm/instruction.go:92-115: the ALU part of `Unmarshal`. -/
def unmarshalALU (i : Ins) : Ins :=
  if i.op.aluOp = Div then
    if i.off = 1#16 then { i with op := i.op.setALUOp SDiv, off := 0#16 } else i
  else if i.op.aluOp = Mod then
    if i.off = 1#16 then { i with op := i.op.setALUOp SMod, off := 0#16 } else i
  else if i.op.aluOp = Mov then
    if i.off = 8#16 then { i with op := i.op.setALUOp MovSX8, off := 0#16 }
    else if i.off = 16#16 then { i with op := i.op.setALUOp MovSX16, off := 0#16 }
    else if i.off = 32#16 then { i with op := i.op.setALUOp MovSX32, off := 0#16 }
    else i
  else i

/-- asm/instruction.go:79-123: the class specific part of `Unmarshal`. -/
def unmarshalClass (plat : String) (i : Ins) : Except AsmErr Ins :=
  if i.isBuiltinCall then
    if 0 ≤ i.cons.toInt then
      match Platform.encodeConstant plat (i.cons.setWidth 32) with
      | none => .error .builtin
      | some fn => .ok { i with cons := fn.setWidth 64 }
    else .ok i
  else if clsIsALU i.op.cls then .ok (unmarshalALU i)
  else if i.op.cls == StXClass && i.op.mode == AtomicMode then
    .ok { i with op := i.op ||| ((i.cons <<< 8).setWidth 32 &&& atomicMask) }
  else .ok i

/-- asm/instruction.go:58-77: the header fields read by `Unmarshal`. -/
def decodeHeader (bo : ByteOrder) (b0 b1 b2 b3 b4 b5 b6 b7 : Byte) : Ins :=
  { op := b0.setWidth 32
    dst := (splitRegs bo b1).1
    src := (splitRegs bo b1).2
    off := bo.get16 b2 b3
    cons := (bo.get32 b4 b5 b6 b7).signExtend 64 }

/-- asm/instruction.go:57-145 `Instruction.Unmarshal`; `plat` is the platform argument. -/
def unmarshal (bo : ByteOrder) (plat : String) (data : Bytes) : Except AsmErr (Ins × Bytes) :=
  match data with
  | b0 :: b1 :: b2 :: b3 :: b4 :: b5 :: b6 :: b7 :: rest =>
    match unmarshalClass plat (decodeHeader bo b0 b1 b2 b3 b4 b5 b6 b7) with
    | .error e => .error e
    | .ok i =>
      if !i.op.isDWordLoad then .ok (i, rest)
      else
        match rest with
        | c0 :: c1 :: c2 :: c3 :: c4 :: c5 :: c6 :: c7 :: rest' =>
          if bo.get32 c0 c1 c2 c3 ≠ 0#32 then .error .nonZeroFields
          else
            let cons1 : BitVec 32 := i.cons.setWidth 32
            let cons2 : BitVec 32 := bo.get32 c4 c5 c6 c7
            .ok ({ i with cons := (cons2.signExtend 64 <<< 32) ||| cons1.setWidth 64 }, rest')
        | _ => .error .missingHalf
  | [] => .error .eof
  | _ => .error .unexpectedEOF

/-- asm/instruction.go:175-195: the ALU part of `Marshal`: new opcode and offset. -/
def marshalALU (i : Ins) : Except AsmErr Ins :=
  let ext (newOp : BitVec 16) (newOff : BitVec 16) : Except AsmErr Ins :=
    if i.off ≠ 0#16 then .error .extOffset
    else .ok { i with op := i.op.setALUOp newOp, off := newOff }
  if i.op.aluOp = SDiv then ext Div 1#16
  else if i.op.aluOp = SMod then ext Mod 1#16
  else if i.op.aluOp = MovSX8 then ext Mov 8#16
  else if i.op.aluOp = MovSX16 then ext Mov 16#16
  else if i.op.aluOp = MovSX32 then ext Mov 32#16
  else .ok { i with off := 0#16 }

/-- asm/instruction.go:166-200: the class specific part of `Marshal`. Returns the rewritten
instruction and the 32 bit immediate `cons` that goes on the wire. Note that the atomic branch
assigns `ins.Constant`, but `cons` has already been computed from the old value
(asm/instruction.go:155), so the assignment has no effect on the 8-byte encoding. -/
def marshalClass (native : String) (i : Ins) : Except AsmErr (Ins × BitVec 32) :=
  let cons : BitVec 32 := i.cons.setWidth 32
  if i.isBuiltinCall then
    let d := Platform.decodeConstant (i.cons.setWidth 32)
    if d.1 ≠ native then .error .notSupportedOnOS else .ok (i, d.2)
  else if clsIsALU i.op.cls then (marshalALU i).map (fun j => (j, cons))
  else if i.op.atomicOp ≠ InvalidAtomic then
    .ok ({ i with op := i.op &&& ~~~atomicMask, cons := (i.op.atomicOp >>> 8).setWidth 64 }, cons)
  else .ok (i, cons)

/-- asm/instruction.go:148-228 `Instruction.Marshal`; `native` is `platform.Native`. -/
def marshal (native : String) (bo : ByteOrder) (i : Ins) : Except AsmErr Bytes :=
  if i.op = InvalidOpCode then .error .invalidOpcode
  else
    match marshalClass native i with
    | .error e => .error e
    | .ok (j, cons) =>
      match j.op.bpfOpCode with
      | none => .error .invalidOpcode
      | some op =>
        let first := [op, newBPFRegisters bo i.dst i.src] ++ bo.put16 j.off ++ bo.put32 cons
        if i.op.isDWordLoad then
          .ok (first ++ bo.put32 0#32 ++ bo.put32 ((j.cons.sshiftRight 32).setWidth 32))
        else .ok first

end Ebpf.Asm
