import Verif.Model.Perf
/-! # What a perf ring holds -/
namespace Ebpf.Perf

/-- Bytes of the ring at logical positions `p`, ..., `p + n - 1`. -/
def window (cap : Nat) (ring : Nat → Byte) (p n : Nat) : Bytes := (List.range n).map fun j => ring ((p + j) % cap)

/-- The reader stands at logical position `p` and may read up to `l`, at most one ring size further. The ring
size is a power of two that fits an `int`. -/
structure At (c : Cursor) (k p l : Nat) : Prop where
  cap : c.cap = 2 ^ k
  small : k < 63
  pos : c.pos = BitVec.ofNat 64 p
  limit : c.limit = BitVec.ofNat 64 l
  le : p ≤ l
  fits : l ≤ p + 2 ^ k

/-- The unread bytes. -/
def unread (c : Cursor) (p l : Nat) : Bytes := window c.cap c.ring p (l - p)

/-- A record as the kernel writes it (`struct perf_event_header` followed by `perf_event_sample` or
`perf_event_lost`; include/uapi/linux/perf_event.h). -/
inductive KRec where
  | sample (misc size : BitVec 16) (raw : Bytes)
  | lost (misc size : BitVec 16) (id n : BitVec 64)

def KRec.encode (bo : ByteOrder) : KRec → Bytes
  | .sample misc size raw =>
    bo.put32 9#32 ++ bo.put16 misc ++ bo.put16 size ++ bo.put32 (BitVec.ofNat 32 raw.length) ++ raw
  | .lost misc size id n => bo.put32 2#32 ++ bo.put16 misc ++ bo.put16 size ++ bo.put64 id ++ bo.put64 n

/-- The size field is 32 bits. -/
def KRec.ok : KRec → Prop
  | .sample _ _ raw => raw.length < 2 ^ 32
  | .lost .. => True

/-- What the user should see. -/
def KRec.toRecord : KRec → Record
  | .sample _ _ raw => .sample raw
  | .lost _ _ _ n => .lost n

end Ebpf.Perf
