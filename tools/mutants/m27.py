F="Model/Construct"
C="C90"
M=[
("M696",F,"Mul","def Mul : BitVec 16 := 0x0020#16","def Mul : BitVec 16 := 0x0030#16","wrong code of an operation",C,[]),
("M697",F,"ArSh","def ArSh : BitVec 16 := 0x00c0#16","def ArSh : BitVec 16 := 0x0070#16","arithmetic shift encoded as logical shift",C,[]),
("M698",F,"LE","def LE : BitVec 8 := 0#8","def LE : BitVec 8 := 8#8","byte orders confused",C,[]),
("M699",F,"Half","def Half : BitVec 8 := 0x08#8","def Half : BitVec 8 := 0x18#8","wrong size",C,[]),
("M700",F,"MemSXMode","def MemSXMode : BitVec 8 := 0x80#8","def MemSXMode : BitVec 8 := 0x60#8","loads don't extend the sign",C,[]),
("M701",F,"JSGT","def JSGT : BitVec 8 := 0x60#8","def JSGT : BitVec 8 := 0x20#8","signed comparison encoded as unsigned",C,[]),
("M702",F,"JLE","def JLE : BitVec 8 := 0xb0#8","def JLE : BitVec 8 := 0xa0#8","less or equal encoded as less",C,[]),
("M703",F,"swapBits","if size = Half then some 16#64 else if size = Word then some 32#64","if size = Half then some 32#64 else if size = Word then some 16#64","sizes of swaps confused",C,[]),
("M704",F,"swapBits","then some 64#64 else none","then some 64#64 else some 64#64","byte size swaps 8 bytes",C,[]),
("M705",F,"hostTo","((ofClass ALUClass).setALUOp Swap).setSource (endian.setWidth 16)","((ofClass ALU64Class).setALUOp Swap).setSource (endian.setWidth 16)","HostTo swaps always",C,[]),
("M706",F,"hostTo","((ofClass ALUClass).setALUOp Swap).setSource (endian.setWidth 16)","(ofClass ALUClass).setALUOp Swap","byte order dropped",C,[]),
("M707",F,"bSwap","⟨(ofClass ALU64Class).setALUOp Swap","⟨(ofClass ALUClass).setALUOp Swap","BSwap depends on the host",C,[]),
("M708",F,"aluOp64","((ofClass ALU64Class).setALUOp op)","((ofClass ALUClass).setALUOp op)","32 bits instead of 64",C,[]),
("M709",F,"aluReg","⟨aluOp64 op RegSource, dst, src, 0, 0⟩","⟨aluOp64 op RegSource, src, dst, 0, 0⟩","registers swapped",C,[]),
("M710",F,"aluReg32","⟨aluOp32 op RegSource","⟨aluOp32 op ImmSource","register operand ignored",C,[]),
("M711",F,"aluImm","⟨aluOp64 op ImmSource, dst, 0, 0, value.signExtend 64⟩","⟨aluOp64 op ImmSource, dst, 0, 0, (value.setWidth 16).signExtend 64⟩","immediate truncated",C,[]),
("M712",F,"aluImm32","⟨aluOp32 op ImmSource, dst, 0, 0, value.signExtend 64⟩","⟨aluOp64 op ImmSource, dst, 0, 0, value.signExtend 64⟩","Imm32 has 64 bits",C,[]),
("M713",F,"return_","setJumpOp Exit, 0, 0, 0, 0","setJumpOp Exit, 0, 0, 0, 1","return with an immediate",C,[]),
("M714",F,"jumpOpCode","((ofClass cls).setJumpOp op).setSource source","(ofClass cls).setJumpOp op","source dropped",C,[]),
("M715",F,"jumpImm32","⟨jumpOpCode op Jump32Class ImmSource, dst, 0, -1","⟨jumpOpCode op JumpClass ImmSource, dst, 0, -1","64 bit comparison instead of 32",C,[]),
("M716",F,"jumpReg","⟨jumpOpCode op JumpClass RegSource, dst, src, -1, 0⟩","⟨jumpOpCode op JumpClass RegSource, src, dst, -1, 0⟩","operands swapped",C,[]),
("M717",F,"longJump","⟨jumpOpCode Ja Jump32Class","⟨jumpOpCode Ja JumpClass","long jump encoded as a short one",C,[]),
("M718",F,"jumpLabel","⟨(ofClass JumpClass).setJumpOp Call, 0, Ins.PseudoCall, 0, -1⟩","⟨(ofClass JumpClass).setJumpOp Call, 0, 0, 0, -1⟩","call of a function encoded as call of a helper",C,[]),
("M719",F,"builtinCall","0, 0, 0, fn.setWidth 64⟩","0, 1, 0, fn.setWidth 64⟩","helper called as a function",C,[]),
("M720",F,"atomicOpCode","(size = Byte ∨ size = Half)","(size = Byte)","atomics on two bytes",C,[]),
("M721",F,"atomicOpCode","((ofClass StXClass).setMode AtomicMode)","((ofClass StXClass).setMode MemMode)","plain store instead of an atomic operation",C,[]),
("M722",F,"loadMem","⟨loadMemOp size, dst, src, off, 0⟩","⟨loadMemOp size, dst, src, 0, 0⟩","offset dropped",C,[]),
("M723",F,"loadMemSX","⟨loadMemSXOp size, dst, src, off, 0⟩","⟨loadMemSXOp size, src, dst, off, 0⟩","registers swapped",C,[]),
("M724",F,"loadMapPtr","if fd < 0 then invalid else ⟨loadImmOp DWord, dst, Ins.PseudoMapFD","if fd < -1 then invalid else ⟨loadImmOp DWord, dst, Ins.PseudoMapFD","descriptor -1 loaded",C,[]),
("M725",F,"loadMapPtr","dst, Ins.PseudoMapFD, 0","dst, Ins.PseudoMapValue, 0","value instead of map",C,[]),
("M726",F,"loadMapValue","(offset.setWidth 64 <<< 32) |||","(offset.setWidth 64 <<< 31) |||","offset shifted wrongly",C,[]),
("M727",F,"loadInd","setMode IndMode).setSize size, dst, src, 0","setMode IndMode).setSize size, dst, 0, 0","register dropped",C,[]),
("M728",F,"loadAbs","((ofClass LdClass).setMode AbsMode)","((ofClass LdClass).setMode IndMode)","LoadAbs adds R0",C,[]),
("M729",F,"storeMem","setSize size, dst, src, off, 0⟩","setSize size, src, dst, off, 0⟩","registers swapped",C,[]),
("M730",F,"storeImm","if (value.setWidth 32).signExtend 64 ≠ value then invalid\n  else","if False then invalid\n  else","values silently truncated",C,[]),
("M731",F,"storeXAdd","atomicMem AddAtomic dst src size 0","atomicMem AddAtomic src dst size 0","registers swapped",C,[]),
]
