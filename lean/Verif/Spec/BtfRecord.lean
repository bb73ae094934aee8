import Verif.Model.BtfMarshal
import Verif.Spec.BtfHeader
/-! # Specification of the wire format: which types it can represent, and what a reader is expected to see -/
namespace Ebpf.BtfSpec
open Ebpf.Btf

variable {T : Type}

/-- Members of a struct or union: at most 65535; if one of them is a bitfield, all offsets have 24 bits and sizes of bitfields have 8. -/
def MembersFit (ms : List (Member T)) : Prop :=
  ms.length < 65536 ∧ ((∀ m ∈ ms, m.bitfieldSize = 0) ∨ ∀ m ∈ ms, m.offset.toNat < 2 ^ 24 ∧ m.bitfieldSize.toNat < 256)

/-- The fields of the type fit the wire format. -/
def Fits : Node T → Prop
  | .int _ size enc => size.toNat < 32 ∧ enc.toNat < 16
  | .struct _ _ ms _ => MembersFit ms
  | .union _ _ ms _ => MembersFit ms
  | .enum _ _ _ vs => vs.length < 65536
  | .fwd _ k => k = 0 ∨ k = 1
  | .func _ _ l _ _ => 0 ≤ l ∧ l < 65536
  | .funcProto _ ps => ps.length < 65536
  | .var _ _ l _ => 0 ≤ l ∧ l < 2 ^ 32
  | .datasec _ _ vs => vs.length < 65536
  | .declTag _ _ i => -2 ^ 31 ≤ i ∧ i < 2 ^ 31
  | _ => True

/-- A member without its tags. -/
def untag (m : Member T) : Member T := { m with tags := [] }

/-- What is written for a type: the type without its tags (they are types of their own), or its replacement for old kernels as requested by the options. -/
def lower (o : Opts) (ph : T) : Node T → Node T
  | .struct n s ms _ => .struct n s (ms.map untag) []
  | .union n s ms _ => .union n s (ms.map untag) []
  | .typedef n t _ => .typedef n t []
  | .var n t l _ => .var n t l []
  | .func n t l _ _ => .func n t (if o.stripFuncLinkage then 0 else l) [] []
  | .declTag t v i => if o.replaceDeclTags then .int declTagPlaceholder 1 0 else .declTag t v i
  | .typeTag t v => if o.replaceTypeTags then .const t else .typeTag t v
  | .enum n s sg vs =>
    if o.replaceEnum64 then
      if s = 8 then .union n s (vs.map fun v => ⟨v.name, ph, 0, 0, []⟩) []
      else .enum n s false (vs.map fun v => ⟨v.name, (v.value.setWidth 32).setWidth 64⟩)
    else .enum n s sg vs
  | n => n

/-- The words of a member of a struct, and the name at `nameOff`. -/
structure RawMember where
  name : Bytes
  nameOff : BitVec 32
  type : BitVec 32
  offset : BitVec 32

/-- Its bytes. -/
def RawMember.bytes (bo : ByteOrder) (m : RawMember) : Bytes := bo.put32 m.nameOff ++ (bo.put32 m.type ++ bo.put32 m.offset)

/-- What it means in a struct without the kind flag. `ints` gives size and word after the header of integers: an integer with an offset, or with another number of
bits than its bytes have, makes the member a bitfield. -/
def RawMember.decoded (ints : BitVec 32 → Option (BitVec 32 × BitVec 32)) (m : RawMember) : Member (BitVec 32) :=
  match ints m.type with
  | none => ⟨m.name, m.type, m.offset, 0, []⟩
  | some (size, word) =>
    if BtfSpec.intOffset word.toNat = 0 ∧ BtfSpec.intBits word.toNat / 8 = size.toNat then ⟨m.name, m.type, m.offset, 0, []⟩
    else ⟨m.name, m.type, BitVec.ofNat 32 (m.offset.toNat + BtfSpec.intOffset word.toNat), BitVec.ofNat 32 (BtfSpec.intBits word.toNat), []⟩

end Ebpf.BtfSpec
