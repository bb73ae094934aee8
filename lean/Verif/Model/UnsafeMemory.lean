import Verif.Spec.UnsafeMemory
import Verif.Spec.KeepAlive
/-!
# Model of memory_unsafe.go, and of pointers to variables

The address space is a function from page numbers; the Go runtime hands out addresses. Numbers are unbounded where the code uses int and
uintptr; offsets and sizes of variables are 32 bits wide. The host is described by the size of its pages and words.
-/
namespace Ebpf.UnsafeMemory
open UnsafeMemorySpec

/-- The host: the size of a page (os.Getpagesize, memory_unsafe.go:59, 120) and of a word (4 or 8). -/
structure Host where
  page : Nat
  word : Nat

/-- Errors (memory_unsafe.go:51-145, 220-250; variable.go:221-254). -/
inductive Err where
  | size | moving | zeroSize | mmap (e : Nat) | closed | readOnly | notHeap | invalidType | zeroType | unaligned | outOfBounds
deriving DecidableEq

/-- unix.EPERM (memory_unsafe.go:83). -/
def EPERM : Nat := 1
/-- unix.EACCES (memory_unsafe.go:83). -/
def EACCES : Nat := 13
/-- What mmap(2) answers for an address that isn't at a page (memory_unsafe.go:147-189). -/
def EINVAL : Nat := 22

/-- internal.Align (internal/math.go:4-6). -/
def align (n a : Nat) : Nat := (n + a - 1) / a * a

/-- allocate (memory_unsafe.go:100-145): `heap n` is the address of a new slice of `n` bytes. The result is the allocation (its
address and size) and the aligned address. -/
def allocate (h : Host) (canMove : Bool) (heap : Nat → Nat) (size : Nat) : Except Err (Nat × Nat × Nat) :=
  if canMove then .error .moving
  else if size = 0 then .error .zeroSize
  else
    let n := align (size + h.page) h.page
    let alloc := heap n
    .ok (alloc, n, align alloc h.page)

/-- How the kernel answers an attempt to map a BPF map over existing memory: an error number, or success; and whether a failed attempt has
already removed what was mapped there, as Linux does if the file refuses the mapping. -/
structure Kernel where
  rw : Option Nat
  ro : Option Nat
  hole : Bool

/-- Pages from `base` on, `size` bytes, become what `f` says: the effect of the mmap calls (memory_unsafe.go:147-216). -/
def setPages (h : Host) (s : Space) (base size : Nat) (f : Nat → Page) : Space :=
  fun p => if base ≤ p * h.page ∧ p * h.page < base + size then f (p - base / h.page) else s p

/-- mmap(2) with MAP_FIXED of the map `id` (memory_unsafe.go:158-172); the kernel is not part of /repo. -/
def mmapFixed (h : Host) (k : Kernel) (s : Space) (id base size : Nat) (writable : Bool) : Space × Option Nat :=
  if base % h.page ≠ 0 then (s, some EINVAL)
  else
    match if writable then k.rw else k.ro with
    | some e => (if k.hole then setPages h s base size (fun _ => .hole) else s, some e)
    | none => (setPages h s base size (fun i => .map id i writable), none)

/-- A Memory (memory.go:37-43); `base` is the address of its bytes, `none` if it has none. -/
structure Mem where
  base : Option Nat
  len : Nat
  ro : Bool
  heap : Bool
deriving DecidableEq

/-- A finalizer: it is set for the allocation at `alloc` of `n` bytes, to run unmap(size) at `base` (memory_unsafe.go:181). -/
structure Fin where
  alloc : Nat
  n : Nat
  base : Nat
  size : Nat
deriving DecidableEq

/-- mapmap (memory_unsafe.go:147-189): map, then set the finalizer. -/
def mapmap (h : Host) (k : Kernel) (s : Space) (id : Nat) (alloc n base size : Nat) (writable : Bool) : Space × Except Nat Fin :=
  match mmapFixed h k s id base size writable with
  | (s, some e) => (s, .error e)
  | (s, none) => (s, .ok ⟨alloc, n, base, size⟩)

/-- newUnsafeMemory (memory_unsafe.go:51-98). -/
def newUnsafeMemory (h : Host) (canMove : Bool) (heap : Nat → Nat) (k : Kernel) (s : Space) (id size : Nat) :
    Space × Except Err (Mem × Fin) :=
  if size % h.page ≠ 0 then (s, .error .size)
  else
    match allocate h canMove heap size with
    | .error e => (s, .error e)
    | .ok (alloc, n, base) =>
      match mapmap h k s id alloc n base size true with
      | (s, .ok f) => (s, .ok (⟨some base, size, false, true⟩, f))
      | (s, .error e) =>
        if e = EPERM ∨ e = EACCES then
          match mapmap h k s id alloc n base size false with
          | (s, .ok f) => (s, .ok (⟨some base, size, true, true⟩, f))
          | (s, .error e) => (s, .error (.mmap e))
        else (s, .error (.mmap e))

/-- unmap (memory_unsafe.go:191-216): the finalizer maps anonymous memory over the region. -/
def unmap (h : Host) (s : Space) (f : Fin) : Space := setPages h s f.base f.size (fun _ => .anon)

/-- The kinds accepted by checkType (memory_unsafe.go:277-280). -/
def okKind (k : Basic) : Bool :=
  k ∈ [Basic.uintptr, .bool, .float32, .float64, .uint8, .uint16, .uint32, .uint64, .int8, .int16, .int32, .int64]

/-- The special case for atomic types (memory_unsafe.go:267-272). -/
def isAtomic (pkg name : String) : Bool :=
  pkg == "sync/atomic" && name ∈ ["Bool", "Int32", "Int64", "Uint32", "Uint64", "Uintptr"]

/-- A field that is structs.HostLayout (memory_unsafe.go:295). -/
def isHostLayout : GoType → Bool
  | .struct pkg name _ => pkg == "structs" && name == "HostLayout"
  | _ => false

mutual
/-- checkType (memory_unsafe.go:262-323), whether it accepts a type. -/
def checkType : GoType → Bool
  | .basic k => okKind k
  | .array _ e => checkType e
  | .struct pkg name fs =>
    if isAtomic pkg name then true
    else checkFields fs && fs.any isHostLayout
/-- The loop over the fields (memory_unsafe.go:290-303). -/
def checkFields : List GoType → Bool
  | [] => true
  | f :: fs => (isHostLayout f || checkType f) && checkFields fs
end

/-- reflect.Type.Size of a type without components: 16 bytes is the largest (interfaces, strings on 64-bit hosts; not accepted anyway). -/
def basicSize (h : Host) : Basic → Nat
  | .bool | .int8 | .uint8 => 1
  | .int16 | .uint16 => 2
  | .int32 | .uint32 | .float32 => 4
  | .int64 | .uint64 | .float64 | .complex64 => 8
  | .uintptr | .int | .uint => h.word
  | .complex128 => 16
  | .ref => h.word

/-- reflect.Type.Align: values are aligned to their size, but not more than to words; the 64-bit atomic types are aligned to 8 bytes
everywhere. -/
def alignOf (h : Host) : GoType → Nat
  | .basic k => min (basicSize h k) h.word
  | .array _ e => alignOf h e
  | .struct pkg name fs =>
    if pkg = "sync/atomic" ∧ (name = "Int64" ∨ name = "Uint64") then 8
    else (fs.map (alignOf h)).foldl max 1

mutual
/-- reflect.Type.Size. -/
def sizeOf' (h : Host) : GoType → Nat
  | .basic k => basicSize h k
  | .array n e => n * sizeOf' h e
  | .struct pkg name fs => align (fieldsEnd h fs 0) (alignOf h (.struct pkg name fs))
/-- The end of the last field, fields being laid out one after the other; a byte follows a last field without size. -/
def fieldsEnd (h : Host) : List GoType → Nat → Nat
  | [], o => o
  | f :: fs, o =>
    let n := sizeOf' h f
    let o' := align o (alignOf h f) + n
    if fs.isEmpty && n == 0 && o' != 0 then o' + 1 else fieldsEnd h fs o'
end

/-- Memory.bounds (memory.go:98-103), in 32-bit arithmetic. -/
def bounds (m : Mem) (off size : BitVec 32) : Bool :=
  if off + size < off then false else off + size ≤ BitVec.ofNat 32 m.len

/-- checkUnsafeMemory (memory_unsafe.go:220-250). -/
def checkUnsafeMemory (h : Host) (m : Mem) (t : GoType) (off : BitVec 32) : Option Err :=
  if m.base.isNone then some .closed
  else if m.ro then some .readOnly
  else if !m.heap then some .notHeap
  else if !checkType t then some .invalidType
  else if sizeOf' h t = 0 then some .zeroType
  else if off.toNat % alignOf h t ≠ 0 then some .unaligned
  else if !bounds m off (BitVec.ofNat 32 (sizeOf' h t)) then some .outOfBounds
  else none

/-- memoryPointer (memory_unsafe.go:335-340): the address. -/
def memoryPointer (h : Host) (m : Mem) (t : GoType) (off : BitVec 32) : Except Err Nat :=
  match checkUnsafeMemory h m t off with
  | some e => .error e
  | none => .ok (m.base.getD 0 + off.toNat)

/-- A Variable (variable.go:116-123); `mem` is nil on old kernels. -/
structure Var where
  offset : BitVec 32
  size : BitVec 32
  mem : Option Mem

/-- Variable.ReadOnly (variable.go:151-156). -/
def Var.readOnly (v : Var) : Bool :=
  match v.mem with
  | none => true
  | some m => m.ro

/-- checkVariable (variable.go:221-240); T is a uintptr if its kind is. -/
def checkVariable (h : Host) (v : Var) (t : GoType) : Option Err :=
  if v.readOnly then some .readOnly
  else
    match t with
    | .basic .uintptr =>
      if v.size = 8 then none
      else if v.size.toNat ≠ sizeOf' h t then some .invalidType else none
    | t => if v.size.toNat ≠ sizeOf' h t then some .invalidType else none

/-- VariablePointer (variable.go:249-254). -/
def variablePointer (h : Host) (v : Var) (t : GoType) : Except Err Nat :=
  match checkVariable h v t with
  | some e => .error e
  | none =>
    match v.mem with
    | none => .error .readOnly
    | some m => memoryPointer h m t v.offset

/-! ## Access through Memory and Variable while the collector runs -/

/-- The references in play: a Variable and its Memory. -/
inductive Ref where
  | var | mem
deriving DecidableEq

/-- A Variable refers to its Memory (variable.go:122). -/
def points (r d : Ref) : Bool := r == d || (r == .var && d == .mem)

/-- Memory.ReadAt (memory.go:108-127): the slice is taken from `mm`, then the bytes are copied; nothing of `mm` is used afterwards. -/
def readAt : KeepAlive.Body Ref := .use [.mem] <| .call [.mem] <| .branch (.ret []) (.ret [])

/-- Memory.WriteAt (memory.go:133-155), likewise. -/
def writeAt : KeepAlive.Body Ref := .use [.mem] <| .call [.mem] <| .branch (.ret []) (.ret [])

/-- Variable.Get (variable.go:205-219): `v.name` is used if decoding the bytes fails. -/
def varGet : KeepAlive.Body Ref := .use [.var] <| .call [.mem] <| .branch (.use [.var] (.ret [])) (.ret [])

/-- Variable.Set (variable.go:178-200): `v.name` is used if writing fails. -/
def varSet : KeepAlive.Body Ref := .use [.var] <| .use [.mem] <| .call [.mem] <| .branch (.use [.var] (.ret [])) (.ret [])

end Ebpf.UnsafeMemory
