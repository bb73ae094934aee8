import Verif.Model.PerCPU
/-! # Model of `Map.batchLookupPerCPU` -/
namespace Ebpf.PerCPU

/-- The decoder of an unsigned integer type of `k` bytes; a value is its memory contents. -/
def numCodec (k : Nat) : Codec Bytes := ⟨fun b => some b, fun b => if b.length = k then some b else none⟩

/-- The elements of `n` integers of `k` bytes stored back to back. -/
def elems (k : Nat) : Nat → Bytes → List Bytes
  | 0, _ => []
  | n + 1, b => b.take k :: elems k n (b.drop k)

/-- map.go:1311-1334 `batchLookupPerCPU` after a successful system call. `valuesOut` is a slice of
`sliceLen` integers of `k` bytes (so without padding), `out` is what the kernel wrote:
`count` elements of one 8-byte aligned slot per CPU. internal/sysenc/buffer.go:34-47: if the slice
occupies as many bytes as the kernel writes, the kernel writes into it and nothing is decoded. -/
def batchLookupPerCPU (k cpus valueSize count sliceLen : Nat) (out : Bytes) : Res (List Bytes) :=
  if sliceLen * k = count * (align8 valueSize * cpus) then .ok (elems k sliceLen out)
  else unmarshalBatchPerCPUValue (numCodec k) cpus sliceLen count valueSize out

end Ebpf.PerCPU
