import Verif.Model.Instruction
/-!
# Model of the constructors of instructions: asm/alu.go, asm/jump.go, asm/load_store.go, asm/func.go

Labels (`WithReference`) are metadata, which isn't part of `Ins`; resolving them is the subject of C06.
-/
namespace Ebpf.Asm.Construct
open OpCode

/-- asm/alu.go:55 `Add` -/
def Add : BitVec 16 := 0x0000#16
/-- asm/alu.go:57 `Sub` -/
def Sub : BitVec 16 := 0x0010#16
/-- asm/alu.go:59 `Mul` -/
def Mul : BitVec 16 := 0x0020#16
/-- asm/alu.go:65 `Or` -/
def Or : BitVec 16 := 0x0040#16
/-- asm/alu.go:67 `And` -/
def And : BitVec 16 := 0x0050#16
/-- asm/alu.go:69 `LSh` -/
def LSh : BitVec 16 := 0x0060#16
/-- asm/alu.go:71 `RSh` -/
def RSh : BitVec 16 := 0x0070#16
/-- asm/alu.go:73 `Neg` -/
def Neg : BitVec 16 := 0x0080#16
/-- asm/alu.go:79 `Xor` -/
def Xor : BitVec 16 := 0x00a0#16
/-- asm/alu.go:89 `ArSh` -/
def ArSh : BitVec 16 := 0x00c0#16
/-- asm/alu.go:21 `ImmSource` -/
def ImmSource : BitVec 16 := 0#16
/-- asm/alu.go:23 `RegSource` -/
def RegSource : BitVec 16 := 8#16
/-- asm/alu.go:35 `LE` -/
def LE : BitVec 8 := 0#8
/-- asm/alu.go:37 `BE` -/
def BE : BitVec 8 := 8#8
/-- asm/load_store.go:161 `Word` -/
def Word : BitVec 8 := 0x00#8
/-- asm/load_store.go:163 `Half` -/
def Half : BitVec 8 := 0x08#8
/-- asm/load_store.go:165 `Byte` -/
def Byte : BitVec 8 := 0x10#8
/-- asm/load_store.go:22 `ImmMode` -/
def ImmMode : BitVec 8 := 0x00#8
/-- asm/load_store.go:24 `AbsMode` -/
def AbsMode : BitVec 8 := 0x20#8
/-- asm/load_store.go:26 `IndMode` -/
def IndMode : BitVec 8 := 0x40#8
/-- asm/load_store.go:28 `MemMode` -/
def MemMode : BitVec 8 := 0x60#8
/-- asm/load_store.go:30 `MemSXMode` -/
def MemSXMode : BitVec 8 := 0x80#8
/-- asm/jump.go:22 `JEq` -/
def JEq : BitVec 8 := 0x10#8
/-- asm/jump.go:24 `JGT` -/
def JGT : BitVec 8 := 0x20#8
/-- asm/jump.go:26 `JGE` -/
def JGE : BitVec 8 := 0x30#8
/-- asm/jump.go:28 `JSet` -/
def JSet : BitVec 8 := 0x40#8
/-- asm/jump.go:30 `JNE` -/
def JNE : BitVec 8 := 0x50#8
/-- asm/jump.go:32 `JSGT` -/
def JSGT : BitVec 8 := 0x60#8
/-- asm/jump.go:34 `JSGE` -/
def JSGE : BitVec 8 := 0x70#8
/-- asm/jump.go:40 `JLT` -/
def JLT : BitVec 8 := 0xa0#8
/-- asm/jump.go:42 `JLE` -/
def JLE : BitVec 8 := 0xb0#8
/-- asm/jump.go:44 `JSLT` -/
def JSLT : BitVec 8 := 0xc0#8
/-- asm/jump.go:46 `JSLE` -/
def JSLE : BitVec 8 := 0xd0#8
/-- asm/load_store.go:70 `fetch` -/
def fetch : BitVec 32 := 0x100#32
/-- asm/load_store.go:43 `AddAtomic` -/
def AddAtomic : BitVec 32 := Add.setWidth 32 <<< 8
/-- asm/load_store.go:45 `FetchAdd` -/
def FetchAdd : BitVec 32 := AddAtomic ||| fetch
/-- asm/load_store.go:47 `AndAtomic` -/
def AndAtomic : BitVec 32 := And.setWidth 32 <<< 8
/-- asm/load_store.go:49 `FetchAnd` -/
def FetchAnd : BitVec 32 := AndAtomic ||| fetch
/-- asm/load_store.go:51 `OrAtomic` -/
def OrAtomic : BitVec 32 := Or.setWidth 32 <<< 8
/-- asm/load_store.go:53 `FetchOr` -/
def FetchOr : BitVec 32 := OrAtomic ||| fetch
/-- asm/load_store.go:55 `XorAtomic` -/
def XorAtomic : BitVec 32 := Xor.setWidth 32 <<< 8
/-- asm/load_store.go:57 `FetchXor` -/
def FetchXor : BitVec 32 := XorAtomic ||| fetch
/-- asm/load_store.go:62 `Xchg` -/
def Xchg : BitVec 32 := 0xe000#32 ||| fetch
/-- asm/load_store.go:67 `CmpXchg` -/
def CmpXchg : BitVec 32 := 0xf000#32 ||| fetch
/-- asm/load_store.go:72 `loadAcquire` -/
def loadAcquire : BitVec 32 := 0x10000#32
/-- asm/load_store.go:74 `storeRelease` -/
def storeRelease : BitVec 32 := 0x11000#32

/-- asm/alu.go:96-106, 117-127: the immediate of byte swaps. -/
def swapBits (size : BitVec 8) : Option (BitVec 64) :=
  if size = Half then some 16#64 else if size = Word then some 32#64 else if size = DWord then some 64#64 else none

/-- `OpCode(class)`: the conversion of a class (asm/opcode.go:97). -/
def ofClass (c : BitVec 8) : OpCode := c.setWidth 32

/-- asm/alu.go:105, asm/load_store.go:207: an instruction that can't be encoded: `Instruction{OpCode: InvalidOpCode}`. -/
def invalid : Ins := ⟨InvalidOpCode, 0, 0, 0, 0⟩

/-- asm/alu.go:95-113 `HostTo`. -/
def hostTo (endian dst size : BitVec 8) : Ins :=
  match swapBits size with
  | none => invalid
  | some imm => ⟨((ofClass ALUClass).setALUOp Swap).setSource (endian.setWidth 16), dst, 0, 0, imm⟩

/-- asm/alu.go:116-134 `BSwap`. -/
def bSwap (dst size : BitVec 8) : Ins :=
  match swapBits size with
  | none => invalid
  | some imm => ⟨(ofClass ALU64Class).setALUOp Swap, dst, 0, 0, imm⟩

/-- asm/alu.go:137-139 `ALUOp.Op`. -/
def aluOp64 (op source : BitVec 16) : OpCode := ((ofClass ALU64Class).setALUOp op).setSource source

/-- asm/alu.go:142-148 `ALUOp.Reg`. -/
def aluReg (op : BitVec 16) (dst src : BitVec 8) : Ins := ⟨aluOp64 op RegSource, dst, src, 0, 0⟩

/-- asm/alu.go:151-157 `ALUOp.Imm`. -/
def aluImm (op : BitVec 16) (dst : BitVec 8) (value : BitVec 32) : Ins := ⟨aluOp64 op ImmSource, dst, 0, 0, value.signExtend 64⟩

/-- asm/alu.go:160-162 `ALUOp.Op32`. -/
def aluOp32 (op source : BitVec 16) : OpCode := ((ofClass ALUClass).setALUOp op).setSource source

/-- asm/alu.go:165-171 `ALUOp.Reg32`. -/
def aluReg32 (op : BitVec 16) (dst src : BitVec 8) : Ins := ⟨aluOp32 op RegSource, dst, src, 0, 0⟩

/-- asm/alu.go:174-180 `ALUOp.Imm32`. -/
def aluImm32 (op : BitVec 16) (dst : BitVec 8) (value : BitVec 32) : Ins := ⟨aluOp32 op ImmSource, dst, 0, 0, value.signExtend 64⟩

/-- asm/jump.go:54-58 `Return`. -/
def return_ : Ins := ⟨(ofClass JumpClass).setJumpOp Exit, 0, 0, 0, 0⟩

/-- asm/jump.go:107-113 `JumpOp.opCode`. -/
def jumpOpCode (op cls : BitVec 8) (source : BitVec 16) : OpCode :=
  if op = Exit ∨ op = Call then InvalidOpCode else ((ofClass cls).setJumpOp op).setSource source

/-- asm/jump.go:66-73 `JumpOp.Imm`. -/
def jumpImm (op dst : BitVec 8) (value : BitVec 32) : Ins := ⟨jumpOpCode op JumpClass ImmSource, dst, 0, -1, value.signExtend 64⟩

/-- asm/jump.go:77-84 `JumpOp.Imm32`. -/
def jumpImm32 (op dst : BitVec 8) (value : BitVec 32) : Ins := ⟨jumpOpCode op Jump32Class ImmSource, dst, 0, -1, value.signExtend 64⟩

/-- asm/jump.go:87-94 `JumpOp.Reg`. -/
def jumpReg (op dst src : BitVec 8) : Ins := ⟨jumpOpCode op JumpClass RegSource, dst, src, -1, 0⟩

/-- asm/jump.go:98-105 `JumpOp.Reg32`. -/
def jumpReg32 (op dst src : BitVec 8) : Ins := ⟨jumpOpCode op Jump32Class RegSource, dst, src, -1, 0⟩

/-- asm/jump.go:116-121 `LongJump`. -/
def longJump : Ins := ⟨jumpOpCode Ja Jump32Class ImmSource, 0, 0, 0, -1⟩

/-- asm/jump.go:124-137 `JumpOp.Label`. -/
def jumpLabel (op : BitVec 8) : Ins :=
  if op = Call then ⟨(ofClass JumpClass).setJumpOp Call, 0, Ins.PseudoCall, 0, -1⟩
  else ⟨(ofClass JumpClass).setJumpOp op, 0, 0, -1, 0⟩

/-- asm/func.go:18-23 `BuiltinFunc.Call`. -/
def builtinCall (fn : BitVec 32) : Ins := ⟨(ofClass JumpClass).setJumpOp Call, 0, 0, 0, fn.setWidth 64⟩

/-- asm/load_store.go:99-112 `AtomicOp.OpCode`. -/
def atomicOpCode (op : BitVec 32) (size : BitVec 8) : OpCode :=
  if op ∈ [AddAtomic, AndAtomic, OrAtomic, XorAtomic, FetchAdd, FetchAnd, FetchOr, FetchXor, Xchg, CmpXchg] ∧ (size = Byte ∨ size = Half) then InvalidOpCode
  else (((ofClass StXClass).setMode AtomicMode).setSize size).setAtomicOp op

/-- asm/load_store.go:115-122 `AtomicOp.Mem`. -/
def atomicMem (op : BitVec 32) (dst src size : BitVec 8) (off : BitVec 16) : Ins := ⟨atomicOpCode op size, dst, src, off, 0⟩

/-- asm/load_store.go:125-132 `LoadAcquire`. -/
def loadAcq (dst src size : BitVec 8) (off : BitVec 16) : Ins := ⟨atomicOpCode loadAcquire size, dst, src, off, 0⟩

/-- asm/load_store.go:135-142 `StoreRelease`. -/
def storeRel (dst src size : BitVec 8) (off : BitVec 16) : Ins := ⟨atomicOpCode storeRelease size, dst, src, off, 0⟩

/-- asm/load_store.go:185-187 `LoadMemOp`. -/
def loadMemOp (size : BitVec 8) : OpCode := ((ofClass LdXClass).setMode MemMode).setSize size

/-- asm/load_store.go:190-192 `LoadMemSXOp`. -/
def loadMemSXOp (size : BitVec 8) : OpCode := ((ofClass LdXClass).setMode MemSXMode).setSize size

/-- asm/load_store.go:195-202 `LoadMem`. -/
def loadMem (dst src : BitVec 8) (off : BitVec 16) (size : BitVec 8) : Ins := ⟨loadMemOp size, dst, src, off, 0⟩

/-- asm/load_store.go:205-216 `LoadMemSX`. -/
def loadMemSX (dst src : BitVec 8) (off : BitVec 16) (size : BitVec 8) : Ins :=
  if size = DWord then invalid else ⟨loadMemSXOp size, dst, src, off, 0⟩

/-- asm/load_store.go:221-223 `LoadImmOp`. -/
def loadImmOp (size : BitVec 8) : OpCode := ((ofClass LdClass).setMode ImmMode).setSize size

/-- asm/load_store.go:228-234 `LoadImm`. -/
def loadImm (dst : BitVec 8) (value : BitVec 64) (size : BitVec 8) : Ins := ⟨loadImmOp size, dst, 0, 0, value⟩

/-- asm/load_store.go:237-248 `LoadMapPtr`. -/
def loadMapPtr (dst : BitVec 8) (fd : Int) : Ins :=
  if fd < 0 then invalid else ⟨loadImmOp DWord, dst, Ins.PseudoMapFD, 0, (BitVec.ofInt 32 fd).setWidth 64⟩

/-- asm/load_store.go:251-263 `LoadMapValue`. -/
def loadMapValue (dst : BitVec 8) (fd : Int) (offset : BitVec 32) : Ins :=
  if fd < 0 then invalid
  else ⟨loadImmOp DWord, dst, Ins.PseudoMapValue, 0, (offset.setWidth 64 <<< 32) ||| (BitVec.ofInt 32 fd).setWidth 64⟩

/-- asm/load_store.go:271-278 `LoadInd`. -/
def loadInd (dst src : BitVec 8) (offset : BitVec 32) (size : BitVec 8) : Ins :=
  ⟨((ofClass LdClass).setMode IndMode).setSize size, dst, src, 0, offset.signExtend 64⟩

/-- asm/load_store.go:286-292 `LoadAbs`. -/
def loadAbs (offset : BitVec 32) (size : BitVec 8) : Ins :=
  ⟨((ofClass LdClass).setMode AbsMode).setSize size, 0, 0, 0, offset.signExtend 64⟩

/-- asm/load_store.go:300-307 `StoreMem`. -/
def storeMem (dst : BitVec 8) (off : BitVec 16) (src size : BitVec 8) : Ins :=
  ⟨((ofClass StXClass).setMode MemMode).setSize size, dst, src, off, 0⟩

/-- asm/load_store.go:315-327 `StoreImm`. -/
def storeImm (dst : BitVec 8) (off : BitVec 16) (value : BitVec 64) (size : BitVec 8) : Ins :=
  if (value.setWidth 32).signExtend 64 ≠ value then invalid
  else ⟨((ofClass StClass).setMode MemMode).setSize size, dst, 0, off, value⟩

/-- asm/load_store.go:335-337 `StoreXAdd`. -/
def storeXAdd (dst src size : BitVec 8) : Ins := atomicMem AddAtomic dst src size 0

end Ebpf.Asm.Construct
