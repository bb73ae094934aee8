import Verif.Base
/-! # Model of `ringbuf/ring.go` and the sample loop of `ringbuf/reader.go` -/
namespace Ebpf.Ringbuf

/-- The mapped data pages: `size` bytes, mapped twice in a row (ringbuf/ring_other.go:24-50), so index `i`
of the `data` slice (length `2*size`) shows byte `i mod size`. -/
structure Ring where
  size : Nat
  mem : Nat → Byte

/-- `rr.data[i]`. -/
def Ring.data (r : Ring) (i : Nat) : Byte := r.mem (i % r.size)

def BUSY : BitVec 32 := 1#32 <<< 31
def DISCARD : BitVec 32 := 1#32 <<< 30
/-- `BPF_RINGBUF_HDR_SZ`. -/
def HDR : BitVec 64 := 8#64

/-- ringbuf/reader.go:44-46 `isBusy`. -/
def isBusy (len : BitVec 32) : Bool := len &&& BUSY != 0
/-- ringbuf/reader.go:48-50 `isDiscard`. -/
def isDiscard (len : BitVec 32) : Bool := len &&& DISCARD != 0
/-- ringbuf/reader.go:52-54 `dataLen`. -/
def dataLen (len : BitVec 32) : Nat := (len &&& ~~~(BUSY ||| DISCARD)).toNat
/-- ringbuf/reader.go:58-60 `dataLenAligned` (`Align` on a non-negative `int` below 2^30+8). -/
def dataLenAligned (len : BitVec 32) : Nat := (dataLen len + 8 - 1) / 8 * 8

/-- A slice of the data pages. -/
structure Slice where
  start : Nat
  len : Nat
deriving DecidableEq

/-- Outcome of the part of `readSample` after loading the producer position. -/
inductive First where
  | endOfRing
  | unexpectedEOF
  | header (start : Nat)      -- read the header at this index
deriving DecidableEq

/-- ringbuf/ring.go:77-92: prod and local consumer position are compared (`uintptr` arithmetic). `mask` is
`size - 1`. -/
def readFirst (mask prod localCons : BitVec 64) : First :=
  let remaining := prod - localCons
  if remaining = 0 then .endOfRing
  else if remaining < HDR then .unexpectedEOF
  else .header (localCons &&& mask).toNat

/-- Outcome of the part after loading the header. -/
inductive Second where
  | retry
  | unexpectedEOF
  | panic
  | discarded (remain : BitVec 64) (localCons : BitVec 64)
  | sample (s : Slice) (remain : BitVec 64) (localCons : BitVec 64)
deriving DecidableEq

/-- ringbuf/ring.go:94-131: `len` is the header's length field; slicing beyond `2*size` panics. -/
def readSecond (size : Nat) (mask prod localCons : BitVec 64) (len : BitVec 32) : Second :=
  if isBusy len then .retry
  else
    let cons := localCons + HDR
    let aligned := BitVec.ofNat 64 (dataLenAligned len)
    if prod - cons < aligned then .unexpectedEOF
    else
      let start := (cons &&& mask).toNat
      let cons := cons + aligned
      if start + dataLen len > 2 * size then .panic
      else if isDiscard len then .discarded (prod - cons) cons
      else .sample ⟨start, dataLen len⟩ (prod - cons) cons

/-- The header's length field (ringbuf/ring.go:95, a native-endian 32 bit load). -/
def loadLen (bo : ByteOrder) (r : Ring) (start : Nat) : BitVec 32 :=
  bo.get32 (r.data start) (r.data (start + 1)) (r.data (start + 2)) (r.data (start + 3))

/-- The bytes a slice of the data pages shows. -/
def Slice.bytes (s : Slice) (r : Ring) : Bytes := (List.range s.len).map fun j => r.data (s.start + j)

end Ebpf.Ringbuf
