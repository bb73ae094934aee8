import Verif.Spec.MapOps
import Verif.Model.MapCreate
/-! # Model of single-element map operations (map.go, marshalers.go, internal/sysenc/buffer.go)

The kernel is `Verif.Spec.MapOps`. Each operation makes one system call (looking up the first key on
old kernels and looking up a nested map make more), so that concurrent users of the map only show in
the `World` an operation starts from. `refuse` is an error the kernel has reasons of its own for. -/
namespace Ebpf.MapOps
open Ebpf.Sysenc Ebpf.PerCPU
open Ebpf.MapSpec (canStoreMap)

/-- The errors of the operations, by what `errors.Is` can find in them. -/
inductive Err where
  | keyNotExist | keyExist | notSupported
  | sys (e : Errno)
  | nilKey | badKey | badValue | storeRef | readRef | needPtr | decode | perCPU
  | fromID (e : Errno)
  | noGuess
deriving DecidableEq

/-- map.go:322-345 `Map`: what the operations look at. -/
structure GoMap where
  typ : BitVec 32
  keySize : Nat
  valueSize : Nat
  fullValueSize : Nat
deriving DecidableEq

/-- types.go:158-160 `canStoreProgram`. -/
def canStoreProgram (t : BitVec 32) : Bool := t == 3 || t == 0x10000003

/-- map.go:738-763 `newMapFromParts` on a machine with `cpus` possible CPUs. -/
def newMapFromParts (cpus : Nat) (typ : BitVec 32) (keySize valueSize : Nat) : GoMap :=
  if !MapCreate.hasPerCPU typ then ⟨typ, keySize, valueSize, valueSize⟩
  else ⟨typ, keySize, valueSize, align8 valueSize * cpus⟩

/-- A Go value given as key or value. Slices are contiguous memory of `n` elements. `[]byte` is
`slice (.num 1)`; `bytes` is a string or what a `BinaryMarshaler` gave (`badMarshaler`: it failed). -/
inductive Arg where
  | nil
  | ptr (mem : Bytes)
  | map (fd : Option Nat)
  | prog (fd : Option Nat)
  | bytes (b : Bytes)
  | badMarshaler
  | val (t : Ty) (isRef : Bool) (mem : Bytes)
  | slice (t : Ty) (n : Nat) (mem : Bytes)

/-- internal/sysenc/buffer.go:18-23 `newBuffer` and 62-66 `Pointer`: no pointer to nothing. -/
def newBuffer (b : Bytes) : Ptr := if b.length = 0 then none else some b

/-- internal/sysenc/marshal.go:23-64 `Marshal`: `none` is an error. Go maps and programs are pointers
to structs that `encoding/binary` refuses. -/
def sysMarshal (a : Arg) (size : Nat) : Option Bytes :=
  match a with
  | .nil => none
  | .ptr _ => none
  | .map _ => none
  | .prog _ => none
  | .badMarshaler => none
  | .bytes b => if b.length = size then some b else none
  | .val t r mem => Sysenc.marshal t r mem size
  | .slice t n mem => Sysenc.marshal (.arr n t) true mem size

/-- marshalers.go:21-32 `marshalMapSyscallInput`. -/
def marshalMapSyscallInput (a : Arg) (length : Nat) : Option Ptr :=
  match a with
  | .ptr mem => some (some mem)
  | a => (sysMarshal a length).map newBuffer

/-- map.go:1636-1646 `marshalKey`. -/
def marshalKey (m : GoMap) (a : Arg) : Except Err Ptr :=
  match a with
  | .nil => if m.keySize = 0 then .ok none else .error .nilKey
  | a => match marshalMapSyscallInput a m.keySize with
    | none => .error .badKey
    | some p => .ok p

/-- map.go:1754-1768 `marshalMap` and prog.go:1107-1119 `marshalProgram`. -/
def marshalFd (bo : ByteOrder) (fd : Option Nat) (length : Nat) : Option Bytes :=
  match fd with
  | none => none
  | some fd => if length ≠ 4 then none else some (bo.put32 (BitVec.ofNat 32 fd))

/-- map.go:1648-1676 `marshalValue`. -/
def marshalValue (m : GoMap) (bo : ByteOrder) (a : Arg) : Except Err Ptr :=
  match a with
  | .map fd =>
    if !canStoreMap m.typ then .error .storeRef
    else match marshalFd bo fd m.valueSize with
      | none => .error .badValue
      | some b => .ok (some b)
  | .prog fd =>
    if !canStoreProgram m.typ then .error .storeRef
    else match marshalFd bo fd m.valueSize with
      | none => .error .badValue
      | some b => .ok (some b)
  | a => match marshalMapSyscallInput a m.valueSize with
    | none => .error .badValue
    | some p => .ok p

/-- marshalers.go:86-100 `marshalPerCPUValue`: the elements of the slice are passed by value. -/
def marshalPerCPU (cpus : Nat) (a : Arg) (elemLength : Nat) : Option Ptr :=
  match a with
  | .slice t n mem =>
    (PerCPU.marshalPerCPUValue ⟨fun b => some (binAppend t b), fun _ => none⟩ cpus
      ((List.range n).map fun i => (mem.drop (i * sizeof t)).take (sizeof t)) elemLength).map
        fun b => if b.length = 0 then none else some b
  | _ => none

/-- syscalls.go:172-194 `wrapMapError`. -/
def wrapMapError (e : Errno) : Err :=
  if e = .ENOENT then .keyNotExist
  else if e = .EEXIST then .keyExist
  else if e = .ENOTSUPP then .notSupported
  else .sys e

/-- Where a value goes. `val` is a pointer to a value of fixed size, `slice` a slice, `pslice` a
pointer to one (for bytes see `pbytes`), `pmap`/`pprog` are `**Map`/`**Program` with the descriptor of
the current object (`none`: nil or closed), `str` is `*string`, `unm` a `BinaryUnmarshaler` and what it accepts. -/
inductive Dst where
  | ptr (mem : Bytes)
  | val (t : Ty) (mem : Bytes)
  | slice (t : Ty) (n : Nat) (mem : Bytes)
  | pslice (t : Ty) (n : Nat) (mem : Bytes)
  | pbytes (b : Bytes)
  | str (b : Bytes)
  | unm (accepts : Bytes → Bool) (got : Option Bytes)
  | pmap (fd : Option Nat)
  | map
  | pprog (fd : Option Nat)
  | prog

/-- The memory of a destination that the kernel may write to directly, if it has the size:
internal/sysenc/buffer.go:40-48 `SyscallOutput`, marshalers.go:34-45 `makeMapSyscallOutput`. -/
def direct (dst : Dst) (size : Nat) : Option Bytes :=
  match dst with
  | .ptr mem => some mem
  | .val t mem => (unsafeBackingMemory t true mem).filter (·.length = size)
  | .slice t n mem => (unsafeBackingMemory (.arr n t) true mem).filter (·.length = size)
  | .pslice t n mem => (unsafeBackingMemory (.arr n t) true mem).filter (·.length = size)
  | .pbytes b => some b |>.filter (·.length = size)
  | _ => none

/-- The destination after the kernel wrote to its memory. -/
def written (dst : Dst) (mem : Bytes) : Dst :=
  match dst with
  | .ptr _ => .ptr mem
  | .val t _ => .val t mem
  | .slice t n _ => .slice t n mem
  | .pslice t n _ => .pslice t n mem
  | .pbytes _ => .pbytes mem
  | d => d

/-- internal/sysenc/marshal.go:70-102 `Unmarshal`: `none` is an error. -/
def sysUnmarshal (dst : Dst) (buf : Bytes) : Option Dst :=
  match dst with
  | .unm acc _ => if acc buf then some (.unm acc (some buf)) else none
  | .str _ => some (.str buf)
  | .pbytes _ => some (.pbytes buf)
  | .val t old => (Sysenc.unmarshal t old buf).map (.val t)
  | .slice t n old => (Sysenc.unmarshal (.arr n t) old buf).map (.slice t n)
  | .pslice t n old => (Sysenc.unmarshal (.arr n t) old buf).map (.pslice t n)
  | _ => none

/-- How an operation ends: with the world, the destination and an error if there is one; by touching
memory that is not its own; or by panicking. -/
inductive Out where
  | ret (w : World) (dst : Dst) (e : Option Err)
  | oob
  | panic

/-- internal/sysenc/buffer.go:74-80 `Buffer.Unmarshal`; `d` says whether the kernel wrote directly to `dst`. -/
def bufUnmarshal (d : Bool) (dst : Dst) (mem : Bytes) : Option Dst :=
  if d then some (written dst mem) else sysUnmarshal dst mem

/-- `FD.Close` of a map or program that may be nil, and whose error is ignored. -/
def closeFd (w : World) (fd : Option Nat) : World :=
  match fd with
  | none => w
  | some fd => { w with fds := w.fds.filter (fun e => e.1 ≠ fd) }

/-- map.go:1744-1751 `unmarshalMap`, prog.go:1095-1105 `unmarshalProgram`: the id is turned into a
descriptor with the free number `newFd`, unless the kernel answers `gone` because the object was
destroyed meanwhile (or for another reason). -/
def fromID (bo : ByteOrder) (gone : Option Errno) (newFd : Nat) (w : World) (buf : Bytes) : Except Err World :=
  match buf with
  | [a, b, c, d] =>
    match gone with
    | some e => .error (.fromID e)
    | none => .ok { w with fds := (newFd, (bo.get32 a b c d).toNat) :: w.fds }
  | _ => .error .decode

/-- map.go:1678-1717 `unmarshalValue`. -/
def unmarshalValue (m : GoMap) (bo : ByteOrder) (gone : Option Errno) (newFd : Nat) (w : World) (dst : Dst) (d : Bool)
    (mem : Bytes) : Out :=
  match dst with
  | .pmap cur =>
    if !canStoreMap m.typ then .ret w dst (some .readRef)
    else match fromID bo gone newFd w mem with
      | .error e => .ret w dst (some e)
      | .ok w => .ret (closeFd w cur) (.pmap (some newFd)) none
  | .map => if !canStoreMap m.typ then .ret w dst (some .readRef) else .ret w dst (some .needPtr)
  | .pprog cur =>
    if !canStoreProgram m.typ then .ret w dst (some .readRef)
    else match fromID bo gone newFd w mem with
      | .error e => .ret w dst (some e)
      | .ok w => .ret (closeFd w cur) (.pprog (some newFd)) none
  | .prog => if !canStoreProgram m.typ then .ret w dst (some .readRef) else .ret w dst (some .needPtr)
  | dst =>
    match bufUnmarshal d dst mem with
    | none => .ret w dst (some .decode)
    | some dst => .ret w dst none

/-- map.go:917-937 `lookup`: the new contents of the value memory. -/
def lookup (m : GoMap) (k : KMap) (refuse : Option Errno) (d : Dict) (key : Arg) (value : Ptr) : Ans (Except Err Bytes) :=
  match marshalKey m key with
  | .error e => .ok (.error e)
  | .ok p =>
    match kLookup k refuse d p value with
    | .oob => .oob
    | .errno e => if e = .ENOENT then .ok (.error .keyNotExist) else .ok (.error (wrapMapError e))
    | .ok mem => .ok (.ok mem)

/-- The buffer given to the kernel for a destination: its own memory, or a new one
(internal/sysenc/buffer.go:40-48). -/
def outBuffer (dst : Dst) (size : Nat) : Ptr :=
  match direct dst size with
  | some mem => newBuffer mem
  | none => newBuffer (zeros size)

/-- map.go:952-990 `ensurePerCPUSlice`: the destination as the caller sees it afterwards, and the
number of elements. `none` is an error. -/
def ensurePerCPUSlice (cpus : Nat) (dst : Dst) : Option (Dst × Ty × Nat) :=
  match dst with
  | .slice t n mem => some (.slice t n mem, t, n)
  | .pslice t _ _ => some (.pslice t cpus (zeros (cpus * sizeof t)), t, cpus)
  | .pbytes _ => some (.pbytes (zeros cpus), .num 1, cpus)
  | _ => none

/-- marshalers.go:135-177 `unmarshalPerCPUValue` into the destination. Padding and blank fields of the
elements are taken as zero before; elements that are pointers are not modelled. -/
def unmarshalPerCPU (cpus : Nat) (w : World) (dst : Dst) (t : Ty) (n elemLength : Nat) (buf : Bytes) : Out :=
  match PerCPU.unmarshalPerCPUValue ⟨fun b => some b, fun b => Sysenc.unmarshal t (zeros (sizeof t)) b⟩ cpus n elemLength buf with
  | .panic => .panic
  | .err => .ret w dst (some .decode)
  | .ok vs => .ret w (written dst vs.flatten) none

/-- map.go:905-915 `lookupPerCPU`. -/
def lookupPerCPU (m : GoMap) (k : KMap) (cpus : Nat) (refuse : Option Errno) (w : World) (key : Arg) (dst : Dst) : Out :=
  match ensurePerCPUSlice cpus dst with
  | none => .ret w dst (some .perCPU)
  | some (dst, t, n) =>
    match lookup m k refuse w.dict key (newBuffer (zeros m.fullValueSize)) with
    | .oob => .oob
    | .errno e => .ret w dst (some (.sys e))
    | .ok (.error e) => .ret w dst (some e)
    | .ok (.ok mem) => unmarshalPerCPU cpus w dst t n m.valueSize mem

/-- map.go:851-862 `LookupWithFlags` (and 837-839 `Lookup`). -/
def lookupWithFlags (m : GoMap) (k : KMap) (bo : ByteOrder) (cpus : Nat) (refuse gone : Option Errno) (newFd : Nat)
    (w : World) (key : Arg) (dst : Dst) : Out :=
  if MapCreate.hasPerCPU m.typ then lookupPerCPU m k cpus refuse w key dst
  else
    match lookup m k refuse w.dict key (outBuffer dst m.fullValueSize) with
    | .oob => .oob
    | .errno e => .ret w dst (some (.sys e))
    | .ok (.error e) => .ret w dst (some e)
    | .ok (.ok mem) => unmarshalValue m bo gone newFd w dst (direct dst m.fullValueSize).isSome mem

/-- map.go:992-1012 `lookupAndDelete`. -/
def lookupAndDelete (m : GoMap) (k : KMap) (refuse : Option Errno) (w : World) (key : Arg) (value : Ptr) :
    Ans (Except Err (World × Bytes)) :=
  match marshalKey m key with
  | .error e => .ok (.error e)
  | .ok p =>
    match kLookupAndDelete k refuse w p value with
    | .oob => .oob
    | .errno e => .ok (.error (wrapMapError e))
    | .ok r => .ok (.ok r)

/-- map.go:939-949 `lookupAndDeletePerCPU`. -/
def lookupAndDeletePerCPU (m : GoMap) (k : KMap) (cpus : Nat) (refuse : Option Errno) (w : World) (key : Arg) (dst : Dst) : Out :=
  match ensurePerCPUSlice cpus dst with
  | none => .ret w dst (some .perCPU)
  | some (dst, t, n) =>
    match lookupAndDelete m k refuse w key (newBuffer (zeros m.fullValueSize)) with
    | .oob => .oob
    | .errno e => .ret w dst (some (.sys e))
    | .ok (.error e) => .ret w dst (some e)
    | .ok (.ok (w, mem)) => unmarshalPerCPU cpus w dst t n m.valueSize mem

/-- map.go:878-888 `LookupAndDeleteWithFlags` (and 867-869 `LookupAndDelete`). -/
def lookupAndDeleteWithFlags (m : GoMap) (k : KMap) (bo : ByteOrder) (cpus : Nat) (refuse gone : Option Errno) (newFd : Nat)
    (w : World) (key : Arg) (dst : Dst) : Out :=
  if MapCreate.hasPerCPU m.typ then lookupAndDeletePerCPU m k cpus refuse w key dst
  else
    match lookupAndDelete m k refuse w key (outBuffer dst m.fullValueSize) with
    | .oob => .oob
    | .errno e => .ret w dst (some (.sys e))
    | .ok (.error e) => .ret w dst (some e)
    | .ok (.ok (w, mem)) => unmarshalValue m bo gone newFd w dst (direct dst m.fullValueSize).isSome mem

/-- map.go:893-903 `LookupBytes`: a nil slice is `none`. -/
def lookupBytes (m : GoMap) (k : KMap) (refuse : Option Errno) (d : Dict) (key : Arg) : Ans (Option Bytes × Option Err) :=
  match lookup m k refuse d key (newBuffer (zeros m.fullValueSize)) with
  | .oob => .oob
  | .errno e => .ok (some (zeros m.fullValueSize), some (.sys e))
  | .ok (.error e) => if e = .keyNotExist then .ok (none, none) else .ok (some (zeros m.fullValueSize), some e)
  | .ok (.ok mem) => .ok (some mem, none)

/-- map.go:1019-1028 `UpdateAny`, `UpdateNoExist`, `UpdateExist`, `UpdateLock` (`1 << (iota - 1)`). -/
def UpdateAny : Nat := 0
/-- map.go:1023 `UpdateNoExist`: iota is 1. -/
def UpdateNoExist : Nat := 1 <<< (1 - 1)
/-- map.go:1025 `UpdateExist`: iota is 2. -/
def UpdateExist : Nat := 1 <<< (2 - 1)
/-- map.go:1027 `UpdateLock`: iota is 3. -/
def UpdateLock : Nat := 1 <<< (3 - 1)

/-- How an operation without destination ends. -/
inductive Done where
  | ret (w : World) (e : Option Err)
  | oob
deriving DecidableEq

/-- map.go:1060-1078 `update`. -/
def update (m : GoMap) (k : KMap) (bo : ByteOrder) (refuse : Option Errno) (w : World) (key : Arg) (value : Ptr) (flags : Nat) : Done :=
  match marshalKey m key with
  | .error e => .ret w (some e)
  | .ok p =>
    match kUpdate k bo refuse w p value flags with
    | .oob => .oob
    | .errno e => .ret w (some (wrapMapError e))
    | .ok w => .ret w none

/-- map.go:1038-1049 `Update`, 1051-1058 `updatePerCPU`. -/
def mapUpdate (m : GoMap) (k : KMap) (bo : ByteOrder) (cpus : Nat) (refuse : Option Errno) (w : World) (key value : Arg) (flags : Nat) : Done :=
  if MapCreate.hasPerCPU m.typ then
    match marshalPerCPU cpus value m.valueSize with
    | none => .ret w (some .badValue)
    | some p => update m k bo refuse w key p flags
  else
    match marshalValue m bo value with
    | .error e => .ret w (some e)
    | .ok p => update m k bo refuse w key p flags

/-- map.go:1033-1035 `Put`. -/
def put (m : GoMap) (k : KMap) (bo : ByteOrder) (cpus : Nat) (refuse : Option Errno) (w : World) (key value : Arg) : Done :=
  mapUpdate m k bo cpus refuse w key value UpdateAny

/-- map.go:1083-1098 `Delete`. -/
def delete (m : GoMap) (k : KMap) (refuse : Option Errno) (w : World) (key : Arg) : Done :=
  match marshalKey m key with
  | .error e => .ret w (some e)
  | .ok p =>
    match kDelete k refuse w p with
    | .oob => .oob
    | .errno e => .ret w (some (wrapMapError e))
    | .ok w => .ret w none

/-- map.go:1201-1225: the keys that `guessNonExistentKey` tries; `r` is the random one. -/
def guesses (m : GoMap) (r : Bytes) : List Bytes :=
  [zeros m.keySize, List.replicate m.keySize 0xff#8, List.replicate m.keySize 0x55#8, r]

/-- map.go:1188-1233, the loop of `guessNonExistentKey`: a lookup into memory that cannot be written
(the null pointer here); `d i` is what the map holds when the kernel sees the `i`-th call. -/
def guessLoop (m : GoMap) (k : KMap) (d : Nat → Dict) : Nat → List Bytes → Option (Bytes × Nat)
  | _, [] => none
  | i, g :: gs =>
    match lookup m k none (d i) (.bytes g) none with
    | .ok (.error .keyNotExist) => some (g, i + 1)
    | _ => guessLoop m k d (i + 1) gs

/-- map.go:1142-1147, in `nextKey`: no key is the null pointer, whatever the size of keys. -/
def nextKeyPtr (m : GoMap) (key : Arg) : Except Err Ptr :=
  match key with
  | .nil => .ok none
  | key => marshalKey m key

/-- `key == nil`. -/
def isNil : Arg → Bool
  | .nil => true
  | _ => false

/-- map.go:1136-1176 `nextKey`: the new contents of the memory for the key. The calls of the kernel
see the map as it is then: `d 0`, `d 1`, ... -/
def nextKey (m : GoMap) (k : KMap) (refuse : Option Errno) (d : Nat → Dict) (r : Bytes) (key : Arg) (next : Ptr) :
    Ans (Except Err Bytes) :=
  match nextKeyPtr m key with
  | .error e => .ok (.error e)
  | .ok p =>
    match kNextKey k refuse (d 0) p next with
    | .oob => .oob
    | .ok mem => .ok (.ok mem)
    | .errno e =>
      if isNil key = true ∧ e = .EFAULT then
        match guessLoop m k d 1 (guesses m r) with
        | none => .ok (.error .noGuess)
        | some (g, i) =>
          match kNextKey k refuse (d i) (newBuffer g) next with
          | .oob => .oob
          | .ok mem => .ok (.ok mem)
          | .errno e => .ok (.error (wrapMapError e))
      else .ok (.error (wrapMapError e))

/-- map.go:1105-1116 `NextKey`. -/
def mapNextKey (m : GoMap) (k : KMap) (refuse : Option Errno) (d : Nat → Dict) (r : Bytes) (key : Arg) (dst : Dst) :
    Ans (Dst × Option Err) :=
  match nextKey m k refuse d r key (outBuffer dst m.keySize) with
  | .oob => .oob
  | .errno e => .ok (dst, some (.sys e))
  | .ok (.error e) => .ok (dst, some e)
  | .ok (.ok mem) =>
    match bufUnmarshal (direct dst m.keySize).isSome dst mem with
    | none => .ok (dst, some .decode)
    | some dst => .ok (dst, none)

/-- map.go:1125-1134 `NextKeyBytes`. -/
def nextKeyBytes (m : GoMap) (k : KMap) (refuse : Option Errno) (d : Nat → Dict) (r : Bytes) (key : Arg) :
    Ans (Option Bytes × Option Err) :=
  match nextKey m k refuse d r key (newBuffer (zeros m.keySize)) with
  | .oob => .oob
  | .errno e => .ok (some (zeros m.keySize), some (.sys e))
  | .ok (.error e) => if e = .keyNotExist then .ok (none, none) else .ok (some (zeros m.keySize), some e)
  | .ok (.ok mem) => .ok (some mem, none)

end Ebpf.MapOps
