import Verif.Base
/-!
# Model of struct_ops maps: `struct_ops.go`, `collection.go:621-710`, `elf_reader.go:1520-1562`

A member is described by its name, its offset in bytes, the size of its type (`btf.Sizeof`, C29; `none` is an error) and the kind of its underlying
type. Offsets and sizes are natural numbers; in Go they are `int`s, which overflow only for sizes near 2^63. Lookup of the kernel's type (C61,
C62) and creating the map are not part of this model.
-/
namespace Ebpf.StructOps

/-- The Go type of `btf.UnderlyingType(m.Type)`; for a pointer, whether it points to a function prototype, and for other types a number. -/
inductive Kind where
  | pointer (func : Bool)
  | struct
  | union
  | other (tag : Nat)
deriving DecidableEq

/-- btf/types.go:297-307 `Member`. -/
structure Member where
  name : Bytes
  offset : Nat
  bitfieldSize : Nat
  size : Option Nat
  kind : Kind
deriving DecidableEq

/-- btf/types.go:211-217 `Struct`. -/
structure Struct where
  name : Bytes
  size : Nat
  members : List Member

/-- Errors, and the panic of an invalid slice expression. -/
inductive Err where
  | bitfield
  | sizeof
  | tooSmall
  | notFuncPtr
  | sizeMismatch
  | typeMismatch
  | nonZero
  | missingProgram
  | notStructOps
  | panic
deriving DecidableEq

/-- `copy(buf[off:off+len(bs)], bs)`. -/
def writeAt (buf : Bytes) (off : Nat) (bs : Bytes) : Bytes := buf.take off ++ bs ++ buf.drop (off + bs.length)

/-- `buf[off:off+n]`. -/
def slice (buf : Bytes) (off n : Nat) : Bytes := (buf.drop off).take n

/-- struct_ops.go:27-48 `newStructOpsMemberLayout`: the size. -/
def layout (m : Member) : Except Err Nat :=
  if 0 < m.bitfieldSize then .error .bitfield
  else match m.size with
    | none => .error .sizeof
    | some n => .ok n

/-- struct_ops.go:214-222 `structOpsIsMemZeroed`. -/
def isZeroed (b : Bytes) : Bool := b.all (· = 0#8)

/-- `reflect.TypeOf(a) == reflect.TypeOf(b)`. -/
def sameType : Kind → Kind → Bool
  | .pointer _, .pointer _ => true
  | a, b => a = b

/-- struct_ops.go:139-162 `structOpsValidateMemberPair`. -/
def validatePair (m km : Member) : Except Err Nat :=
  match layout m, layout km with
  | .error e, _ => .error e
  | _, .error e => .error e
  | .ok a, .ok b => if a ≠ b then .error .sizeMismatch else if sameType m.kind km.kind then .ok a else .error .typeMismatch

/-- struct_ops.go:164-205 `structOpsCopyMemberBytes`; `val[kOff:]` is `kernVData`. The sizes are known to agree. -/
def copyBytes (m km : Member) (data val : Bytes) (kOff n : Nat) : Except Err Bytes :=
  if val.length < kOff then .error .panic
  else if data.length < m.offset + n then .error .tooSmall
  else if val.length - kOff < km.offset + n then .error .tooSmall
  else if m.kind = .struct ∨ m.kind = .union then
    if isZeroed (slice data m.offset n) then .ok val else .error .nonZero
  else .ok (writeAt val (kOff + km.offset) (slice data m.offset n))

/-- struct_ops.go:207-212 `structOpsCopyMember`. -/
def copyMember (m km : Member) (data val : Bytes) (kOff : Nat) : Except Err Bytes :=
  match validatePair m km with
  | .error e => .error e
  | .ok n => copyBytes m km data val kOff n

/-- struct_ops.go:117-136 `structOpsPopulateValue`. -/
def populateValue (bo : ByteOrder) (km : Member) (val : Bytes) (kOff fd : Nat) : Except Err Bytes :=
  if val.length < kOff then .error .panic
  else if km.kind ≠ .pointer true then .error .notFuncPtr
  else match layout km with
    | .error e => .error e
    | .ok n =>
      if val.length - kOff < km.offset + n ∨ n ≠ 8 then .error .tooSmall
      else .ok (writeAt val (kOff + km.offset) (bo.put64 (BitVec.ofNat 64 fd)))

/-- A program of the collection: its name, `AttachTo`, whether its type is StructOps, and its descriptor if it has been loaded. -/
structure Prog where
  name : Bytes
  attachTo : Bytes
  structOps : Bool
  fd : Option Nat
deriving DecidableEq

/-- `a + ":" + b`. -/
def key (a b : Bytes) : Bytes := a ++ [0x3a#8] ++ b

/-- collection.go:680-690: the loop over the programs of the collection, in the order in which the map is ranged over. `none`: return without populating the map. -/
def populateProgs (bo : ByteOrder) (k : Bytes) (km : Member) (kOff : Nat) : List Prog → Bytes → Except Err (Option Bytes)
  | [], val => .ok (some val)
  | p :: ps, val =>
    if p.attachTo = k then
      match p.fd with
      | none => .ok none
      | some fd =>
        match populateValue bo km val kOff fd with
        | .error e => .error e
        | .ok val' => populateProgs bo k km kOff ps val'
    else populateProgs bo k km kOff ps val

/-- collection.go:656-672: a member the kernel does not have. -/
def missingMember (m : Member) (data : Bytes) : Except Err Unit :=
  match m.size with
  | none => .error .sizeof
  | some n =>
    if data.length < m.offset + n then .error .tooSmall
    else if isZeroed (slice data m.offset n) then .ok () else .error .nonZero

/-- Is this a pointer, collection.go:676-677. -/
def Kind.isPointer : Kind → Bool
  | .pointer _ => true
  | _ => false

/-- collection.go:650-697: the loop over the members of the user's struct. -/
def populateMembers (bo : ByteOrder) (kType : Struct) (kOff : Nat) (data : Bytes) (progs : List Prog) : List Member → Bytes → Except Err (Option Bytes)
  | [], val => .ok (some val)
  | m :: ms, val =>
    match kType.members.find? (fun km => km.name = m.name) with
    | none =>
      match missingMember m data with
      | .error e => .error e
      | .ok () => populateMembers bo kType kOff data progs ms val
    | some km =>
      if m.kind.isPointer then
        match populateProgs bo (key kType.name m.name) km kOff progs val with
        | .error e => .error e
        | .ok none => .ok none
        | .ok (some val') => populateMembers bo kType kOff data progs ms val'
      else
        match copyMember m km data val kOff with
        | .error e => .error e
        | .ok val' => populateMembers bo kType kOff data progs ms val'

/-- collection.go:621-710 `populateStructOps`: the value put into the map; `none`: nothing is put and nothing reported. `kSize` and `kOff` are the size of the kernel's value type and the offset of the struct
in it. -/
def populate (bo : ByteOrder) (user kType : Struct) (kSize kOff : Nat) (data : Bytes) (progs : List Prog) : Except Err (Option Bytes) :=
  if data.length < user.size then .error .tooSmall
  else populateMembers bo kType kOff data progs user.members (List.replicate kSize 0#8)

/-! ## finding the programs -/

/-- `p.AttachTo = to` for the program of a name. -/
def setAttach (n to : Bytes) (progs : List Prog) : List Prog := progs.map fun p => if p.name = n then { p with attachTo := to } else p

/-- struct_ops.go:229-250 `structOpsSetAttachTo`; `relocs` are the relocations of the section: the name of the symbol at an offset. -/
def setAttachTo (relocs : Nat → Option Bytes) (base : Nat) (stName : Bytes) : List Member → List Prog → Except Err (List Prog)
  | [], progs => .ok progs
  | m :: ms, progs =>
    match relocs (base + m.offset) with
    | none => setAttachTo relocs base stName ms progs
    | some sym =>
      match progs.find? (fun p => p.name = sym) with
      | none => .error .missingProgram
      | some p => if p.structOps then setAttachTo relocs base stName ms (setAttach sym (key stName m.name) progs) else .error .notStructOps

/-- A variable of a struct_ops section: its type and its offset in the section. -/
structure Var where
  type : Struct
  offset : Nat

/-- elf_reader.go:1549-1558: the loop over the variables of one section. -/
def associate (relocs : Nat → Option Bytes) : List Var → List Prog → Except Err (List Prog)
  | [], progs => .ok progs
  | v :: vs, progs =>
    match setAttachTo relocs v.offset v.type.name v.type.members progs with
    | .error e => .error e
    | .ok progs' => associate relocs vs progs'

end Ebpf.StructOps
