import Verif.Base
/-!
# Model of `asm/opcode.go`, `asm/load_store.go`, `asm/alu.go`, `asm/jump.go`: opcodes

`OpCode` is a Go `uint32`; the field types are Go `uint8` (Class, Mode, Size, JumpOp), `uint16`
(Source, ALUOp) and `uint32` (AtomicOp). Conversions are truncations / zero extensions.
-/
namespace Ebpf.Asm

/-- asm/opcode.go:97 `type OpCode uint32`. -/
abbrev OpCode := BitVec 32

/-- asm/opcode.go:99 `InvalidOpCode`. -/
def InvalidOpCode : OpCode := 0xffff#32

/-! Masks: asm/opcode.go (classMask), asm/load_store.go:15,35,152, asm/alu.go:13,48, asm/jump.go:13 -/
def classMask : OpCode := 0x07#32
def modeMask : OpCode := 0xe0#32
def sizeMask : OpCode := 0x18#32
def sourceMask : OpCode := 0x0008#32
def aluMask : OpCode := 0x3ff0#32
def jumpMask : OpCode := 0xf0#32
def atomicMask : OpCode := 0x0001ff00#32

/-! Sentinels: asm/load_store.go:20,40,157, asm/alu.go:19,53, asm/jump.go:18 -/
def InvalidMode : BitVec 8 := 0xff#8
def InvalidSize : BitVec 8 := 0xff#8
def InvalidAtomic : BitVec 32 := 0xffffffff#32
def InvalidSource : BitVec 16 := 0xffff#16
def InvalidALUOp : BitVec 16 := 0xffff#16
def InvalidJumpOp : BitVec 8 := 0xff#8

/-! Classes: asm/opcode.go:17-38 -/
def LdClass : BitVec 8 := 0#8
def LdXClass : BitVec 8 := 1#8
def StClass : BitVec 8 := 2#8
def StXClass : BitVec 8 := 3#8
def ALUClass : BitVec 8 := 4#8
def JumpClass : BitVec 8 := 5#8
def Jump32Class : BitVec 8 := 6#8
def ALU64Class : BitVec 8 := 7#8

/-! Operations: asm/alu.go:55-91, asm/jump.go:20-48, asm/load_store.go:22-74,159-165 -/
def Div : BitVec 16 := 0x0030#16
def SDiv : BitVec 16 := 0x0130#16
def Mod : BitVec 16 := 0x0090#16
def SMod : BitVec 16 := 0x0190#16
def Mov : BitVec 16 := 0x00b0#16
def MovSX8 : BitVec 16 := 0x01b0#16
def MovSX16 : BitVec 16 := 0x02b0#16
def MovSX32 : BitVec 16 := 0x03b0#16
def Swap : BitVec 16 := 0x00d0#16
def Call : BitVec 8 := 0x80#8
def Exit : BitVec 8 := 0x90#8
def Ja : BitVec 8 := 0x00#8
def AtomicMode : BitVec 8 := 0xc0#8
def DWord : BitVec 8 := 0x18#8

namespace OpCode

/-- asm/opcode.go:126-128 `Class`. -/
def cls (op : OpCode) : BitVec 8 := (op &&& classMask).setWidth 8

/-- asm/opcode.go:42-53 `isLoad`/`isStore`/`isLoadOrStore` (`LdClass`..`StXClass`). -/
def clsIsLoadOrStore (c : BitVec 8) : Bool := c == LdClass || c == LdXClass || c == StClass || c == StXClass

/-- asm/opcode.go:56-58 `IsALU`. -/
def clsIsALU (c : BitVec 8) : Bool := c == ALUClass || c == ALU64Class

/-- asm/opcode.go:61-63 `IsJump`. -/
def clsIsJump (c : BitVec 8) : Bool := c == JumpClass || c == Jump32Class

/-- asm/opcode.go:325-327 `valid`. -/
def valid (value mask : OpCode) : Bool := value &&& ~~~mask == 0#32

/-- asm/opcode.go:121-123 `IsDWordLoad`: `op == LoadImmOp(DWord)`, which is
`OpCode(LdClass).SetMode(ImmMode).SetSize(DWord)` = 0x18 (asm/load_store.go:196). -/
def isDWordLoad (op : OpCode) : Bool := op == 0x18#32

/-- asm/opcode.go:114-119 `rawInstructions`. -/
def rawInstructions (op : OpCode) : Nat := if op.isDWordLoad then 2 else 1

/-- asm/opcode.go:102-110 `bpfOpCode`. -/
def bpfOpCode (op : OpCode) : Option Byte := if valid op 0xff#32 then some ((op &&& 0xff#32).setWidth 8) else none

/-- asm/opcode.go:131-136 `Mode`. -/
def mode (op : OpCode) : BitVec 8 :=
  if clsIsLoadOrStore op.cls then (op &&& modeMask).setWidth 8 else InvalidMode

/-- asm/opcode.go:139-144 `Size`. -/
def size (op : OpCode) : BitVec 8 :=
  if clsIsLoadOrStore op.cls then (op &&& sizeMask).setWidth 8 else InvalidSize

/-- asm/opcode.go:147-152 `AtomicOp`. -/
def atomicOp (op : OpCode) : BitVec 32 :=
  if op.cls != StXClass || op.mode != AtomicMode then InvalidAtomic else op &&& atomicMask

/-- asm/opcode.go:163-168 `ALUOp`. -/
def aluOp (op : OpCode) : BitVec 16 :=
  if clsIsALU op.cls then (op &&& aluMask).setWidth 16 else InvalidALUOp

/-- asm/opcode.go:155-160 `Source`. -/
def source (op : OpCode) : BitVec 16 :=
  if !(clsIsJump op.cls || clsIsALU op.cls) || op.aluOp == Swap then InvalidSource
  else (op &&& sourceMask).setWidth 16

/-- asm/opcode.go:180-193 `JumpOp`. -/
def jumpOp (op : OpCode) : BitVec 8 :=
  if clsIsJump op.cls then
    let j : BitVec 8 := (op &&& jumpMask).setWidth 8
    if op.cls == Jump32Class && (j == Exit || j == Call) then InvalidJumpOp else j
  else InvalidJumpOp

/-- asm/opcode.go:198-203 `SetMode`. -/
def setMode (op : OpCode) (m : BitVec 8) : OpCode :=
  if !clsIsLoadOrStore op.cls || !valid (m.setWidth 32) modeMask then InvalidOpCode
  else (op &&& ~~~modeMask) ||| m.setWidth 32

/-- asm/opcode.go:208-213 `SetSize`. -/
def setSize (op : OpCode) (s : BitVec 8) : OpCode :=
  if !clsIsLoadOrStore op.cls || !valid (s.setWidth 32) sizeMask then InvalidOpCode
  else (op &&& ~~~sizeMask) ||| s.setWidth 32

/-- asm/opcode.go:215-220 `SetAtomicOp`. -/
def setAtomicOp (op : OpCode) (a : BitVec 32) : OpCode :=
  if op.cls != StXClass || op.mode != AtomicMode || !valid a atomicMask then InvalidOpCode
  else (op &&& ~~~atomicMask) ||| a

/-- asm/opcode.go:225-230 `SetSource`. -/
def setSource (op : OpCode) (s : BitVec 16) : OpCode :=
  if !(clsIsJump op.cls || clsIsALU op.cls) || !valid (s.setWidth 32) sourceMask then InvalidOpCode
  else (op &&& ~~~sourceMask) ||| s.setWidth 32

/-- asm/opcode.go:235-240 `SetALUOp`. -/
def setALUOp (op : OpCode) (a : BitVec 16) : OpCode :=
  if !clsIsALU op.cls || !valid (a.setWidth 32) aluMask then InvalidOpCode
  else (op &&& ~~~aluMask) ||| a.setWidth 32

/-- asm/opcode.go:245-258 `SetJumpOp`. -/
def setJumpOp (op : OpCode) (j : BitVec 8) : OpCode :=
  if !clsIsJump op.cls || !valid (j.setWidth 32) jumpMask then InvalidOpCode
  else
    let n := (op &&& ~~~jumpMask) ||| j.setWidth 32
    if n.jumpOp == InvalidJumpOp then InvalidOpCode else n

end OpCode
end Ebpf.Asm
