import Verif.Model.Instruction
/-!
# Model of `asm/instruction.go`: programs (`Instructions`)

An instruction together with the metadata that influences encoding: its symbol, its reference and
the file descriptor of an associated map. Error messages are dropped.
-/
namespace Ebpf.Asm
open OpCode

/-- asm/instruction.go:37-47 `Instruction` with the metadata read by `Marshal`:
`Symbol()` (509-512), `Reference()` (523-526), `Map()` (533-536; only the result of `FD()`). -/
structure PIns where
  ins : Ins
  sym : String := ""
  ref : String := ""
  map : Option Int := none
deriving DecidableEq, Repr

/-- Errors of `Instructions.Marshal`. -/
inductive ProgErr where
  | duplicateSymbol | unsatisfiedReference | closedFd | asm (e : AsmErr)
deriving DecidableEq, Repr

/-- asm/instruction.go:605-611 `Instructions.Size` with `Instruction.Size` (486-489), in bytes. -/
def size (p : List PIns) : Nat := (p.map (fun i => 8 * i.ins.width)).sum

/-- asm/instruction.go:976-988 `InstructionIterator.Next`: raw offset of instruction `n`
(`uint64` in Go; programs with 2^64 instructions do not exist, so `Nat` here). -/
def rawOffset (p : List PIns) (n : Nat) : Nat := ((p.take n).map (fun i => i.ins.width)).sum

/-- asm/instruction.go:876-891: indexing symbols; fails on duplicates. -/
def symbolOffsets : List PIns → Nat → List (String × Nat) → Except ProgErr (List (String × Nat))
  | [], _, acc => .ok acc
  | i :: r, off, acc =>
    if i.sym = "" then symbolOffsets r (off + i.ins.width) acc
    else if (acc.lookup i.sym).isSome then .error .duplicateSymbol
    else symbolOffsets r (off + i.ins.width) (acc ++ [(i.sym, off)])

/-- asm/instruction.go:905-909: the constant based references (calls, function pointers, long jumps).
`Ja.opCode(Jump32Class, ImmSource)` is opcode 0x06. -/
def Ins.isConstRef (i : Ins) : Bool :=
  (i.isFunctionReference && i.cons == BitVec.allOnes 64) || (i.op == 0x06#32 && i.cons == BitVec.allOnes 64)

/-- asm/instruction.go:917: the offset based references. -/
def Ins.isOffRef (i : Ins) : Bool := clsIsJump i.op.cls && i.off == BitVec.allOnes 16

/-- asm/instruction.go:914, 923: `symOffset - offset - 1` in `uint64`. -/
def relOffset (sym off : Nat) : BitVec 64 := BitVec.ofNat 64 sym - BitVec.ofNat 64 off - 1#64

/-- asm/instruction.go:896-925: the body of the second loop, for one instruction at raw offset `off`. -/
def encodeRef (syms : List (String × Nat)) (off : Nat) (i : PIns) : Except ProgErr PIns :=
  if i.ref = "" then .ok i
  else if i.ins.isConstRef then
    match syms.lookup i.ref with
    | none => .error .unsatisfiedReference
    | some s => .ok { i with ins := { i.ins with cons := relOffset s off } }
  else if i.ins.isOffRef then
    match syms.lookup i.ref with
    | none => .error .unsatisfiedReference
    | some s => .ok { i with ins := { i.ins with off := (relOffset s off).setWidth 16 } }
  else .ok i

/-- asm/instruction.go:893-926: the second loop. -/
def encodeRefs (syms : List (String × Nat)) : List PIns → Nat → Except ProgErr (List PIns)
  | [], _ => .ok []
  | i :: r, off =>
    match encodeRef syms off i with
    | .error e => .error e
    | .ok j =>
      match encodeRefs syms r (off + i.ins.width) with
      | .error e => .error e
      | .ok r' => .ok (j :: r')

/-- asm/instruction.go:874-926 `encodeFunctionReferences`. -/
def encodeFunctionReferences (p : List PIns) : Except ProgErr (List PIns) :=
  match symbolOffsets p 0 [] with
  | .error e => .error e
  | .ok syms => encodeRefs syms p 0

/-- asm/instruction.go:246-251 `encodeMapFD` on the constant. -/
def encodeMapFD (c : BitVec 64) (fd : BitVec 32) : BitVec 64 :=
  (c &&& (0xffffffff#64 <<< 32)) ||| fd.setWidth 64

/-- asm/instruction.go:255-257 `mapFd`. -/
def mapFd (c : BitVec 64) : BitVec 32 := c.setWidth 32

/-- asm/instruction.go:262-274 `RewriteMapOffset` on the constant (the checks are in
`rewriteMapOffset?`). -/
def rewriteMapOffset (c : BitVec 64) (off : BitVec 32) : BitVec 64 :=
  (off.setWidth 64 <<< 32) ||| (c &&& 0xffffffff#64)

/-- asm/instruction.go:262-274 `RewriteMapOffset` with its checks. -/
def rewriteMapOffset? (i : Ins) (off : BitVec 32) : Option Ins :=
  if !i.op.isDWordLoad then none
  else if i.src ≠ Ins.PseudoMapValue then none
  else some { i with cons := rewriteMapOffset i.cons off }

/-- asm/instruction.go:276-278 `mapOffset`. -/
def mapOffset (c : BitVec 64) : BitVec 32 := (c >>> 32).setWidth 32

/-- asm/instruction.go:930-953 `encodeMapPointers`. -/
def encodeMapPointers : List PIns → Except ProgErr (List PIns)
  | [] => .ok []
  | i :: r =>
    let j : Except ProgErr PIns :=
      if !i.ins.isLoadFromMap then .ok i
      else match i.map with
        | none => .ok i
        | some fd =>
          if fd < 0 then .error .closedFd
          else .ok { i with ins := { i.ins with cons := encodeMapFD i.ins.cons (BitVec.ofInt 32 fd) } }
    match j with
    | .error e => .error e
    | .ok j =>
      match encodeMapPointers r with
      | .error e => .error e
      | .ok r' => .ok (j :: r')

/-- asm/instruction.go:784-789: the final loop of `Instructions.Marshal`. -/
def marshalAll (native : String) (bo : ByteOrder) : List Ins → Except AsmErr Bytes
  | [] => .ok []
  | i :: r =>
    match marshal native bo i with
    | .error e => .error e
    | .ok w =>
      match marshalAll native bo r with
      | .error e => .error e
      | .ok w' => .ok (w ++ w')

/-- asm/instruction.go:775-790 `Instructions.Marshal`. -/
def marshalProgram (native : String) (bo : ByteOrder) (p : List PIns) : Except ProgErr Bytes :=
  match encodeFunctionReferences p with
  | .error e => .error e
  | .ok p1 =>
    match encodeMapPointers p1 with
    | .error e => .error e
    | .ok p2 =>
      match marshalAll native bo (p2.map (·.ins)) with
      | .error e => .error (.asm e)
      | .ok w => .ok w

/-- asm/instruction.go:573-590 `AppendInstructions`, starting with no instructions. The reader is a
byte list; every iteration consumes at least 8 bytes, so `data.length` iterations are enough. -/
def appendInstructionsFuel (bo : ByteOrder) (plat : String) : Nat → Bytes → Except AsmErr (List Ins)
  | 0, _ => .ok []
  | n + 1, data =>
    match unmarshal bo plat data with
    | .error .eof => .ok []
    | .error e => .error e
    | .ok (i, rest) =>
      match appendInstructionsFuel bo plat n rest with
      | .error e => .error e
      | .ok r => .ok (i :: r)

/-- asm/instruction.go:573-590 `AppendInstructions`. -/
def appendInstructions (bo : ByteOrder) (plat : String) (data : Bytes) : Except AsmErr (List Ins) :=
  appendInstructionsFuel bo plat (data.length + 1) data

/-- asm/instruction.go:852-863 `hash`: the byte stream fed to the hash function. -/
def hashInput (native : String) (bo : ByteOrder) (p : List Ins) : Except AsmErr Bytes :=
  marshalAll native bo (p.map (fun i => if i.isLoadFromMap then { i with cons := 0#64 } else i))

end Ebpf.Asm
