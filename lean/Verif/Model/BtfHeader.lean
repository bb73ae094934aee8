import Verif.Base
/-!
# Model of the raw BTF type header, `btf/btf_types.go`

`uint32` is `BitVec 32`. A Go shift of a `uint32` by a `uint32` count ≥ 32 gives 0, as does `BitVec` shifting.
-/
namespace Ebpf.Btf

/-- btf/btf_types.go:178-180 `mask`. -/
def mask (len : Nat) : BitVec 32 := (1 <<< len) - 1

/-- btf/btf_types.go:182-184 `readBits`. -/
def readBits (value : BitVec 32) (len shift : Nat) : BitVec 32 := (value >>> shift) &&& mask len

/-- btf/btf_types.go:186-190 `writeBits`. -/
def writeBits (value : BitVec 32) (len shift : Nat) (new : BitVec 32) : BitVec 32 :=
  (value &&& ~~~(mask len <<< shift)) ||| ((new &&& mask len) <<< shift)

/-- btf/btf_types.go:145-163 `btfType`. -/
structure BtfType where
  nameOff : BitVec 32
  info : BitVec 32
  sizeType : BitVec 32
deriving DecidableEq, Repr

/-- btf/btf_types.go:64-71 constants. -/
def kindShift : Nat := 24
def kindLen : Nat := 5
def vlenShift : Nat := 0
def vlenLen : Nat := 16
def kflagShift : Nat := 31
def kflagLen : Nat := 1

namespace BtfType
/-- btf/btf_types.go:200-202 `Kind`. -/
def kind (bt : BtfType) : BitVec 32 := readBits bt.info kindLen kindShift
/-- btf/btf_types.go:204-206 `SetKind`. -/
def setKind (bt : BtfType) (k : BitVec 8) : BtfType := { bt with info := writeBits bt.info kindLen kindShift (k.setWidth 32) }
/-- btf/btf_types.go:208-210 `Vlen`. -/
def vlen (bt : BtfType) : Nat := (readBits bt.info vlenLen vlenShift).toNat
/-- btf/btf_types.go:212-214 `SetVlen`; the Go `int` is non-negative, being a slice length. -/
def setVlen (bt : BtfType) (n : Nat) : BtfType := { bt with info := writeBits bt.info vlenLen vlenShift (BitVec.ofNat 32 n) }
/-- btf/btf_types.go:216-218 `kindFlagBool`, 229 `Bitfield`, 244 `Signed`. -/
def kflag (bt : BtfType) : Bool := readBits bt.info kflagLen kflagShift == 1
/-- btf/btf_types.go:220-226 `setKindFlagBool`, 233 `SetBitfield`, 248 `SetSigned`. -/
def setKflag (bt : BtfType) (b : Bool) : BtfType := { bt with info := writeBits bt.info kflagLen kflagShift (if b then 1 else 0) }
/-- btf/btf_types.go:236-238 `FwdKind`; the Go value is an `int` holding these bits. -/
def fwdKind (bt : BtfType) : BitVec 32 := readBits bt.info kflagLen kflagShift
/-- btf/btf_types.go:240-242 `SetFwdKind`; the `int` has been truncated to 32 bits (`uint32(kind)`). -/
def setFwdKind (bt : BtfType) (k : BitVec 32) : BtfType := { bt with info := writeBits bt.info kflagLen kflagShift k }
/-- btf/btf_types.go:252-254 `Linkage`. -/
def linkage (bt : BtfType) : BitVec 32 := readBits bt.info vlenLen vlenShift
/-- btf/btf_types.go:256-258 `SetLinkage`; the `int` has been truncated to 32 bits (`uint32(linkage)`). -/
def setLinkage (bt : BtfType) (l : BitVec 32) : BtfType := { bt with info := writeBits bt.info vlenLen vlenShift l }
/-- btf/btf_types.go:265-267 `SetType`, 274-276 `SetSize`: they share the field. -/
def setSizeType (bt : BtfType) (v : BitVec 32) : BtfType := { bt with sizeType := v }
/-- btf/btf_types.go:278-286 `Encode`. -/
def encode (bt : BtfType) (bo : ByteOrder) : Bytes := bo.put32 bt.nameOff ++ bo.put32 bt.info ++ bo.put32 bt.sizeType
end BtfType

/-- Read a `uint32` from the start of a buffer, `none` if it is too short. -/
def take32 (bo : ByteOrder) : Bytes → Option (BitVec 32 × Bytes)
  | a :: b :: c :: d :: rest => some (bo.get32 a b c d, rest)
  | _ => none

/-- btf/btf_types.go:167-176 `unmarshalBtfType`, with the remaining buffer. -/
def unmarshalBtfType (bo : ByteOrder) (b : Bytes) : Option (BtfType × Bytes) :=
  match take32 bo b with
  | none => none
  | some (n, b) =>
    match take32 bo b with
    | none => none
    | some (i, b) =>
      match take32 bo b with
      | none => none
      | some (s, b) => some (⟨n, i, s⟩, b)

/-- btf/btf_types.go:21-44: values of `btfKind`. -/
def kindInt : BitVec 8 := 1
def kindPointer : BitVec 8 := 2
def kindArray : BitVec 8 := 3
def kindStruct : BitVec 8 := 4
def kindUnion : BitVec 8 := 5
def kindEnum : BitVec 8 := 6
def kindForward : BitVec 8 := 7
def kindTypedef : BitVec 8 := 8
def kindVolatile : BitVec 8 := 9
def kindConst : BitVec 8 := 10
def kindRestrict : BitVec 8 := 11
def kindFunc : BitVec 8 := 12
def kindFuncProto : BitVec 8 := 13
def kindVar : BitVec 8 := 14
def kindDatasec : BitVec 8 := 15
def kindFloat : BitVec 8 := 16
def kindDeclTag : BitVec 8 := 17
def kindTypeTag : BitVec 8 := 18
def kindEnum64 : BitVec 8 := 19

/-- btf/btf_types.go:289-330 `DataLen`; `none` = unknown kind. -/
def BtfType.dataLen (bt : BtfType) : Option Nat :=
  match bt.kind.toNat with
  | 1 => some 4
  | 2 => some 0
  | 3 => some 12
  | 4 => some (12 * bt.vlen)
  | 5 => some (12 * bt.vlen)
  | 6 => some (8 * bt.vlen)
  | 7 => some 0
  | 8 => some 0
  | 9 => some 0
  | 10 => some 0
  | 11 => some 0
  | 12 => some 0
  | 13 => some (8 * bt.vlen)
  | 14 => some 4
  | 15 => some (12 * bt.vlen)
  | 16 => some 0
  | 17 => some 4
  | 18 => some 0
  | 19 => some (12 * bt.vlen)
  | _ => none

/-- btf/btf_types.go:332-349 layout of `btfInt`. -/
def intEncodingLen : Nat := 4
def intEncodingShift : Nat := 24
def intOffsetLen : Nat := 8
def intOffsetShift : Nat := 16
def intBitsLen : Nat := 8
def intBitsShift : Nat := 0

/-- btf/btf_types.go:362-364 `btfInt.Encoding`. -/
def intEncoding (raw : BitVec 32) : BitVec 32 := readBits raw intEncodingLen intEncodingShift
/-- btf/btf_types.go:366-368 `SetEncoding`. -/
def setIntEncoding (raw : BitVec 32) (e : BitVec 8) : BitVec 32 := writeBits raw intEncodingLen intEncodingShift (e.setWidth 32)
/-- btf/btf_types.go:370-372 `Offset`. -/
def intOffset (raw : BitVec 32) : BitVec 32 := readBits raw intOffsetLen intOffsetShift
/-- btf/btf_types.go:374-376 `SetOffset`. -/
def setIntOffset (raw o : BitVec 32) : BitVec 32 := writeBits raw intOffsetLen intOffsetShift o
/-- btf/btf_types.go:378-380 `Bits`. -/
def intBits (raw : BitVec 32) : BitVec 32 := readBits raw intBitsLen intBitsShift
/-- btf/btf_types.go:382-384 `SetBits`. -/
def setIntBits (raw : BitVec 32) (n : BitVec 8) : BitVec 32 := writeBits raw intBitsLen intBitsShift (n.setWidth 32)

end Ebpf.Btf
