import Verif.Model.StructOps
/-!
# Specification: the value of a struct_ops map
-/
namespace Ebpf.StructOpsSpec
open Ebpf.StructOps

/-- The bytes `[off, off+n)`. -/
def bytesAt (b : Bytes) (off n : Nat) : Bytes := (b.drop off).take n

/-- The end of a member. -/
def Member.stop (m : Member) : Nat := m.offset + m.size.getD 0

/-- Members do not overlap, and have different names. -/
def Separate (ms : List Member) : Prop :=
  ms.Pairwise fun a b => a.name ≠ b.name ∧ (Member.stop a ≤ b.offset ∨ Member.stop b ≤ a.offset)

/-- The value of a member of the user's struct, as it shall appear in the kernel's: pointers are descriptors of programs. -/
def memberValue (bo : ByteOrder) (data : Bytes) (prog : Bytes → Option Nat) (m : Member) : Bytes :=
  match m.kind with
  | .pointer _ =>
    match prog m.name with
    | some fd => bo.put64 (BitVec.ofNat 64 fd)
    | none => List.replicate (m.size.getD 0) 0#8
  | _ => bytesAt data m.offset (m.size.getD 0)

/-- `val` is the value of the kernel's struct: each member of the user's struct has been carried over to the kernel's member of that name or was zero, and everything else is zero. -/
structure Carries (bo : ByteOrder) (user kern : Struct) (kSize kOff : Nat) (data : Bytes) (prog : Bytes → Option Nat) (val : Bytes) : Prop where
  size : val.length = kSize
  carried : ∀ m ∈ user.members, ∀ km ∈ kern.members, m.name = km.name → m.size = km.size →
    bytesAt val (kOff + km.offset) (km.size.getD 0) = memberValue bo data prog m
  sizes : ∀ m ∈ user.members, ∀ km ∈ kern.members, m.name = km.name → m.kind.isPointer = false → m.size = km.size
  missing : ∀ m ∈ user.members, (∀ km ∈ kern.members, m.name ≠ km.name) → ∀ c ∈ bytesAt data m.offset (m.size.getD 0), c = 0#8
  rest : ∀ i, i < kSize → (∀ m ∈ user.members, ∀ km ∈ kern.members, m.name = km.name → i < kOff + km.offset ∨ kOff + Member.stop km ≤ i) → val[i]? = some 0#8

/-- Which program each member of a struct type gets, if that is unambiguous. -/
def Assigned (progs : List Prog) (st : Bytes) (prog : Bytes → Option Nat) : Prop :=
  ∀ n, (∀ p ∈ progs, p.attachTo = st ++ [0x3a#8] ++ n → p.fd = prog n) ∧ ((∀ p ∈ progs, p.attachTo ≠ st ++ [0x3a#8] ++ n) → prog n = none)

/-- The descriptor of the program a member of a variable shall point to: the one named by the relocation at the member. -/
def intended (relocs : Nat → Option Bytes) (progs : List Prog) (v : Var) (n : Bytes) : Option Nat :=
  match v.type.members.find? (fun m => m.name = n) with
  | none => none
  | some m =>
    match relocs (v.offset + m.offset) with
    | none => none
    | some s => (progs.find? (fun p => p.name = s)).bind (·.fd)

/-- A member that isn't a pointer can be carried over: neither is a bitfield, sizes and kinds agree, both lie inside of their structs, and structs and unions are zero. -/
def Copies (m km : Member) (data : Bytes) (kSize kOff : Nat) : Prop :=
  m.bitfieldSize = 0 ∧ km.bitfieldSize = 0 ∧ m.kind = km.kind ∧ ∃ n, m.size = some n ∧ km.size = some n ∧ m.offset + n ≤ data.length ∧ kOff + km.offset + n ≤ kSize ∧
    (km.kind = .struct ∨ km.kind = .union → ∀ c ∈ bytesAt data m.offset n, c = 0#8)

/-- A member of the user's struct is acceptable: zero if the kernel doesn't have it; for a pointer the kernel's is a pointer to a function, of 8 bytes and inside of the value, if a program is attached, which must be loaded. -/
def Acceptable (kern : Struct) (kSize kOff : Nat) (data : Bytes) (progs : List Prog) (m : Member) : Prop :=
  match kern.members.find? (fun km => km.name = m.name) with
  | none => ∃ n, m.size = some n ∧ m.offset + n ≤ data.length ∧ ∀ c ∈ bytesAt data m.offset n, c = 0#8
  | some km =>
    if m.kind.isPointer then
      ∀ p ∈ progs, p.attachTo = kern.name ++ [0x3a#8] ++ m.name → p.fd ≠ none ∧ km.kind = .pointer true ∧ km.bitfieldSize = 0 ∧ km.size = some 8 ∧ kOff + km.offset + 8 ≤ kSize
    else Copies m km data kSize kOff

end Ebpf.StructOpsSpec
