/-!
# Common definitions

Bytes, byte orders and the integer encodings of `encoding/binary`.
-/
namespace Ebpf

deriving instance DecidableEq for Except

/-- Go `byte`. -/
abbrev Byte := BitVec 8

/-- Go `[]byte` / byte stream contents. -/
abbrev Bytes := List Byte

/-- `binary.LittleEndian` / `binary.BigEndian`. -/
inductive ByteOrder where
  | little
  | big
deriving DecidableEq, Repr

namespace ByteOrder

/-- `binary.ByteOrder.PutUint16` (Go standard library). -/
def put16 (bo : ByteOrder) (x : BitVec 16) : Bytes :=
  match bo with
  | little => [x.extractLsb' 0 8, x.extractLsb' 8 8]
  | big    => [x.extractLsb' 8 8, x.extractLsb' 0 8]

/-- `binary.ByteOrder.PutUint32` (Go standard library). -/
def put32 (bo : ByteOrder) (x : BitVec 32) : Bytes :=
  match bo with
  | little => [x.extractLsb' 0 8, x.extractLsb' 8 8, x.extractLsb' 16 8, x.extractLsb' 24 8]
  | big    => [x.extractLsb' 24 8, x.extractLsb' 16 8, x.extractLsb' 8 8, x.extractLsb' 0 8]

/-- `binary.ByteOrder.PutUint64` (Go standard library). -/
def put64 (bo : ByteOrder) (x : BitVec 64) : Bytes :=
  match bo with
  | little => put32 little (x.extractLsb' 0 32) ++ put32 little (x.extractLsb' 32 32)
  | big    => put32 big (x.extractLsb' 32 32) ++ put32 big (x.extractLsb' 0 32)

/-- `binary.ByteOrder.Uint16` on two bytes (Go standard library). -/
def get16 (bo : ByteOrder) (a b : Byte) : BitVec 16 :=
  match bo with
  | little => b ++ a
  | big    => a ++ b

/-- `binary.ByteOrder.Uint32` on four bytes (Go standard library). -/
def get32 (bo : ByteOrder) (a b c d : Byte) : BitVec 32 :=
  match bo with
  | little => (d ++ c ++ b ++ a : BitVec 32)
  | big    => (a ++ b ++ c ++ d : BitVec 32)

/-- `binary.ByteOrder.Uint64` on eight bytes (Go standard library). -/
def get64 (bo : ByteOrder) (a b c d e f g h : Byte) : BitVec 64 :=
  match bo with
  | little => (get32 .little e f g h ++ get32 .little a b c d : BitVec 64)
  | big    => (get32 .big a b c d ++ get32 .big e f g h : BitVec 64)

/-- `binary.ByteOrder.Uint32` on the first four bytes of a slice. -/
def get32l (bo : ByteOrder) : Bytes → Option (BitVec 32 × Bytes)
  | a :: b :: c :: d :: r => some (bo.get32 a b c d, r)
  | _ => none

end ByteOrder
end Ebpf
