import Verif.Model.PerCPU
/-! # Model of `internal/sysenc`

Go's fixed-size types (the ones `encoding/binary` accepts) with their memory layout. A value is the
list of bytes it occupies in memory, including padding. Integers, floats and bools are `num n`: the
memory of an integer is its native-endian encoding, which is what `NativeEndian` means. The layout
(padding before each field and at the end of a struct) is part of the type, so every layout a Go
compiler may choose is covered. `BinaryMarshaler`, `string` and `[]byte` are not modelled. -/
namespace Ebpf.Sysenc
open Ebpf.PerCPU (zeros)

inductive FieldKind where
  | exported
  | unexported
  | blank
deriving DecidableEq

mutual
/-- A fixed-size Go type with layout. -/
inductive Ty where
  | num (n : Nat)
  | arr (n : Nat) (t : Ty)
  | struct (fs : Fs)
/-- Struct fields; `pad` bytes precede the field; `nil pad` is trailing padding. -/
inductive Fs where
  | nil (pad : Nat)
  | cons (k : FieldKind) (pad : Nat) (t : Ty) (rest : Fs)
end

mutual
/-- `reflect.Type.Size` (Go runtime). -/
def sizeof : Ty → Nat
  | .num n => n
  | .arr n t => n * sizeof t
  | .struct fs => sizeofFs fs
def sizeofFs : Fs → Nat
  | .nil pad => pad
  | .cons _ pad t rest => pad + sizeof t + sizeofFs rest
end

mutual
/-- `binary.Size` (Go standard library): sum of the sizes, without padding. -/
def binSize : Ty → Nat
  | .num n => n
  | .arr n t => n * binSize t
  | .struct fs => binSizeFs fs
def binSizeFs : Fs → Nat
  | .nil _ => 0
  | .cons _ _ t rest => binSize t + binSizeFs rest
end

mutual
/-- internal/sysenc/layout.go:14-43 `hasUnexportedFields`. -/
def hasUnexportedFields : Ty → Bool
  | .num _ => false
  | .arr _ t => hasUnexportedFields t
  | .struct fs => hasUnexportedFs fs
def hasUnexportedFs : Fs → Bool
  | .nil _ => false
  | .cons k _ t rest => (k == .unexported || hasUnexportedFields t) || hasUnexportedFs rest
end

/-- Encode `n` consecutive elements of `k` bytes with `f`. -/
def arrAppend (f : Bytes → Bytes) (k : Nat) : Nat → Bytes → Bytes
  | 0, _ => []
  | n + 1, mem => f (mem.take k) ++ arrAppend f k n (mem.drop k)

/-- Decode `n` elements of `b` encoded bytes into elements of `k` bytes. -/
def arrDecode (f : Bytes → Bytes → Bytes) (k b : Nat) : Nat → Bytes → Bytes → Bytes
  | 0, _, _ => []
  | n + 1, old, buf => f (old.take k) (buf.take b) ++ arrDecode f k b n (old.drop k) (buf.drop b)

mutual
/-- `binary.Append(nil, NativeEndian, v)` (Go standard library): fields in order without padding;
blank fields are written as zeros. -/
def binAppend : Ty → Bytes → Bytes
  | .num _, mem => mem
  | .arr n t, mem => arrAppend (binAppend t) (sizeof t) n mem
  | .struct fs, mem => binAppendFs fs mem
def binAppendFs : Fs → Bytes → Bytes
  | .nil _, _ => []
  | .cons k pad t rest, mem =>
    (if k = .blank then zeros (binSize t) else binAppend t ((mem.drop pad).take (sizeof t))) ++
      binAppendFs rest (mem.drop (pad + sizeof t))
end

mutual
/-- `binary.Decode(buf, NativeEndian, &v)` (Go standard library) for `buf` of the right length:
the new memory contents; padding and blank fields keep their old contents. -/
def binDecode : Ty → Bytes → Bytes → Bytes
  | .num _, _, buf => buf
  | .arr n t, old, buf => arrDecode (binDecode t) (sizeof t) (binSize t) n old buf
  | .struct fs, old, buf => binDecodeFs fs old buf
def binDecodeFs : Fs → Bytes → Bytes → Bytes
  | .nil pad, old, _ => old.take pad
  | .cons k pad t rest, old, buf =>
    old.take pad ++
      (if k = .blank then (old.drop pad).take (sizeof t)
        else binDecode t ((old.drop pad).take (sizeof t)) (buf.take (binSize t))) ++
      binDecodeFs rest (old.drop (pad + sizeof t)) (buf.drop (binSize t))
end

/-- internal/sysenc/marshal.go:109-157 `unsafeBackingMemory`: `isRef` says whether a pointer (or a
slice) was passed; `none` = not usable. -/
def unsafeBackingMemory (t : Ty) (isRef : Bool) (mem : Bytes) : Option Bytes :=
  if !isRef then none
  else if binSize t ≠ sizeof t then none
  else if hasUnexportedFields t then none
  else some mem

/-- internal/sysenc/marshal.go:23-64 `Marshal`, `default` case. -/
def marshal (t : Ty) (isRef : Bool) (mem : Bytes) (size : Nat) : Option Bytes :=
  let slow := let b := binAppend t mem; if b.length = size then some b else none
  match unsafeBackingMemory t isRef mem with
  | some b => if b.length = size then some b else slow
  | none => slow

/-- internal/sysenc/marshal.go:70-102 `Unmarshal` through a pointer, `default` case. `none` is an
error. (`binary.Decode` panics on unexported fields; such types are excluded in the theorems.) -/
def unmarshal (t : Ty) (old buf : Bytes) : Option Bytes :=
  let slow := if buf.length = binSize t then some (binDecode t old buf) else none
  match unsafeBackingMemory t true old with
  | some b => if b.length = buf.length then some buf else slow
  | none => slow

/-- internal/sysenc/buffer.go:34-47, 66-73: `SyscallOutput(dst, size)`, the kernel writes `out`
(of `size` bytes) into the buffer, then `Buffer.Unmarshal(dst)`. The result is `dst`'s memory. -/
def syscallOutput (t : Ty) (old out : Bytes) : Option Bytes :=
  match unsafeBackingMemory t true old with
  | some b => if b.length = out.length then some out else unmarshal t old out
  | none => unmarshal t old out

end Ebpf.Sysenc
