import Verif.Model.BtfMarshal
import Verif.Model.BtfUnmarshal
import Verif.Spec.BtfRecord
import Verif.Props.BtfHeader
import Verif.Props.BtfTraversal
import Verif.Props.BtfStrings
/-! # C26: one BTF record, written and read back -/
namespace Ebpf.Btf
open BtfSpec
set_option linter.unusedSectionVars false

/-! ## String tables only grow -/

/-- Every string of `sb` has the same offset in `sb'`. -/
def Ext (sb sb' : Builder) : Prop := ∀ s off, sb.strings.lookup s = some off → sb'.strings.lookup s = some off

theorem Ext.refl (sb : Builder) : Ext sb sb := fun _ _ h => h
theorem Ext.trans {a b c : Builder} (h : Ext a b) (h' : Ext b c) : Ext a c := fun s o e => h' s o (h s o e)

/-- `look` finds all strings of `sb`. -/
def Resolves (look : BitVec 32 → Option Bytes) (sb : Builder) : Prop := ∀ s off, sb.strings.lookup s = some off → look off = some s

theorem Resolves.mono {look} {sb sb' : Builder} (h : Resolves look sb') (e : Ext sb sb') : Resolves look sb := fun s o h' => h s o (e s o h')

theorem add_ext (sb sb' : Builder) (s : Bytes) (off : BitVec 32) (h : sb.add s = some (off, sb')) :
    Ext sb sb' ∧ sb'.strings.lookup s = some off := by
  unfold Builder.add at h
  split at h
  · cases h
  · split at h
    · rename_i o ho; cases h; exact ⟨Ext.refl _, ho⟩
    · rename_i hn
      simp only [Builder.append] at h
      cases h
      refine ⟨?_, by simp⟩
      intro u o hu
      rw [List.lookup_cons]
      have : (u == s) = false := by
        simp; rintro rfl; rw [hn] at hu; cases hu
      rw [this]; exact hu

section
variable {T : Type}

theorem put32_length (bo : ByteOrder) (x : BitVec 32) : (bo.put32 x).length = 4 := by
  obtain ⟨a, b, c, d, h, _⟩ := get32_put32 bo x
  rw [h]; rfl

/-- The ID of a type known to have one. -/
def idD (idOf : T → Option (BitVec 32)) (t : T) : BitVec 32 := (idOf t).getD 0

theorem high_bits (x : BitVec 32) (k i : Nat) (h : x.toNat < 2 ^ k) (hi : k ≤ i) : x.getLsbD i = false := by
  rw [BitVec.getLsbD]
  exact Nat.testBit_lt_two_pow (Nat.lt_of_lt_of_le h (Nat.pow_le_pow_right (by decide) hi))

theorem mask24 : (0xffffff : BitVec 32) = mask 24 := by decide

/-- How a member is packed and unpacked when the composite has a bitfield. -/
theorem bitfield_word (off bs : BitVec 32) (ho : off.toNat < 2 ^ 24) (hb : bs.toNat < 256) :
    ((bs <<< 24 ||| off &&& 0xffffff) &&& 0xffffff = off) ∧ ((bs <<< 24 ||| off &&& 0xffffff) >>> 24 = bs) ∧
    off &&& 0xffffff = off ∧ off >>> 24 = 0 := by
  have hoff : off &&& 0xffffff = off := by rw [mask24]; exact and_mask off 24 (by decide) ho
  rw [hoff]
  refine ⟨?_, ?_, rfl, ?_⟩
  · apply BitVec.eq_of_getLsbD_eq
    intro i hi
    rw [mask24, BitVec.getLsbD_and, mask_getLsbD _ _ (by decide), BitVec.getLsbD_or, BitVec.getLsbD_shiftLeft]
    by_cases h : i < 24
    · simp [h]
    · simp [h, high_bits off 24 i ho (by omega)]
  · apply BitVec.eq_of_getLsbD_eq
    intro i hi
    rw [BitVec.getLsbD_ushiftRight, BitVec.getLsbD_or, BitVec.getLsbD_shiftLeft, high_bits off 24 (24 + i) ho (by omega)]
    by_cases h : i < 8
    · simp [show 24 + i < 32 by omega, show ¬ (24 + i < 24) by omega]
    · rw [high_bits bs 8 i hb (by omega)]; simp [show ¬ 24 + i < 32 by omega]
  · apply BitVec.eq_of_getLsbD_eq
    intro i hi
    rw [BitVec.getLsbD_ushiftRight, high_bits off 24 (24 + i) ho (by omega)]; simp

/-- Members written are read back. `flag` is the kind flag as it ends up in the header. -/
theorem members_roundtrip (bo : ByteOrder) (idOf : T → Option (BitVec 32)) (look : BitVec 32 → Option Bytes) (legacy : ID → Option (BitVec 32 × BitVec 32))
    (flag : Bool) : ∀ (ms : List (Member T)) (bf bf' : Bool) (sb sb' : Builder) (data rest : Bytes),
    deflateMembers bo idOf ms bf sb = some (data, bf', sb') →
    Ext sb sb' ∧ data.length = 12 * ms.length ∧ bf' = (bf || ms.any (·.bitfieldSize != 0)) ∧ (∀ m ∈ ms, (idOf m.type).isSome) ∧
    (Resolves look sb' →
      ((flag = false ∧ bf = false ∧ (∀ m ∈ ms, m.bitfieldSize = 0 ∧ legacy (idD idOf m.type) = none)) ∨
        (flag = true ∧ ∀ m ∈ ms, m.offset.toNat < 2 ^ 24 ∧ m.bitfieldSize.toNat < 256)) →
      parseMembers bo look legacy flag ms.length (data ++ rest) =
        (ms.map fun m => idD idOf m.type, some (ms.map fun m => ⟨m.name, idD idOf m.type, m.offset, m.bitfieldSize, []⟩)))
  | [], bf, bf', sb, sb', data, rest, h => by
    simp only [deflateMembers] at h
    cases h
    exact ⟨Ext.refl _, rfl, by simp, by simp, fun _ _ => rfl⟩
  | m :: ms, bf, bf', sb, sb', data, rest, h => by
    unfold deflateMembers at h
    cases h1 : sb.add m.name with
    | none => rw [h1] at h; cases h
    | some p =>
      obtain ⟨nameOff, sb1⟩ := p
      rw [h1] at h; dsimp only at h
      cases h2 : idOf m.type with
      | none => rw [h2] at h; cases h
      | some id =>
        rw [h2] at h; dsimp only at h
        cases h3 : deflateMembers bo idOf ms (bf || m.bitfieldSize != 0) sb1 with
        | none => rw [h3] at h; cases h
        | some q =>
          obtain ⟨d, bf1, sb2⟩ := q
          rw [h3] at h; dsimp only at h
          cases h
          obtain ⟨e1, l1⟩ := add_ext _ _ _ _ h1
          obtain ⟨e2, l2, b2, i2, r2⟩ := members_roundtrip bo idOf look legacy flag ms _ _ _ _ _ rest h3
          have hid : idD idOf m.type = id := by simp [idD, h2]
          refine ⟨e1.trans e2, ?_, ?_, ?_, ?_⟩
          · simp only [List.length_append, put32_length, l2, List.length_cons]; omega
          · rw [b2]; simp [Bool.or_assoc]
          · intro x hx; simp at hx; rcases hx with rfl | hx
            · simp [h2]
            · exact i2 x hx
          · intro hres hflag
            have hname := hres _ _ (e2 _ _ l1)
            have hrest := r2 hres (by
              rcases hflag with ⟨f1, f2, f3⟩ | ⟨f1, f2⟩
              · left
                refine ⟨f1, ?_, fun x hx => f3 x (by simp [hx])⟩
                simp [f2, (f3 m (by simp)).1]
              · right; exact ⟨f1, fun x hx => f2 x (by simp [hx])⟩)
            simp only [List.length_cons, parseMembers, List.append_assoc, take32_put32, hname, hrest, List.map_cons, Option.map_some, hid]
            rcases hflag with ⟨f1, f2, f3⟩ | ⟨f1, f2⟩
            · have hz := (f3 m (by simp)).1
              have hleg := (f3 m (by simp)).2
              rw [hid] at hleg
              simp [f1, f2, hz, hleg]
            · have := f2 m (by simp)
              obtain ⟨w1, w2, w3, w4⟩ := bitfield_word m.offset m.bitfieldSize this.1 this.2
              by_cases hc : (bf || m.bitfieldSize != 0) = true
              · simp only [f1, hc, if_true, w1, w2]
              · have hz : m.bitfieldSize = 0 := by
                  simp at hc; exact hc.2
                simp only [f1, hc, if_true, w3, w4, Bool.false_eq_true, if_false]
                simp [hz]

/-- Enum values written are read back. -/
theorem enumValues_roundtrip (bo : ByteOrder) (look : BitVec 32 → Option Bytes) (signed flag : Bool) :
    ∀ (vs : List EnumValue) (sb sb' : Builder) (data rest : Bytes), deflateEnumValues bo signed vs sb = some (data, sb') →
    Ext sb sb' ∧ data.length = 8 * vs.length ∧ (∀ v ∈ vs, enumFits signed v.value = true) ∧
    (Resolves look sb' → parseEnumValues bo look flag vs.length (data ++ rest) =
      some (vs.map fun v => ⟨v.name, if flag then (v.value.setWidth 32).signExtend 64 else (v.value.setWidth 32).setWidth 64⟩))
  | [], sb, sb', data, rest, h => by
    simp only [deflateEnumValues] at h; cases h
    exact ⟨Ext.refl _, rfl, by simp, fun _ => rfl⟩
  | v :: vs, sb, sb', data, rest, h => by
    unfold deflateEnumValues at h
    cases h1 : sb.add v.name with
    | none => rw [h1] at h; cases h
    | some p =>
      obtain ⟨nameOff, sb1⟩ := p
      rw [h1] at h; dsimp only at h
      split at h
      · cases h
      · rename_i hfit
        cases h3 : deflateEnumValues bo signed vs sb1 with
        | none => rw [h3] at h; cases h
        | some q =>
          obtain ⟨d, sb2⟩ := q
          rw [h3] at h; dsimp only at h
          cases h
          obtain ⟨e1, l1⟩ := add_ext _ _ _ _ h1
          obtain ⟨e2, l2, b2, r2⟩ := enumValues_roundtrip bo look signed flag vs _ _ _ rest h3
          refine ⟨e1.trans e2, ?_, ?_, ?_⟩
          · simp only [List.length_append, put32_length, l2, List.length_cons]; omega
          · intro x hx; simp at hx; rcases hx with rfl | hx
            · simpa using hfit
            · exact b2 x hx
          · intro hres
            have hname := hres _ _ (e2 _ _ l1)
            simp only [List.length_cons, parseEnumValues, List.append_assoc, take32_put32, hname, r2 hres, List.map_cons, Option.map_some]

theorem enum64Values_roundtrip (bo : ByteOrder) (look : BitVec 32 → Option Bytes) :
    ∀ (vs : List EnumValue) (sb sb' : Builder) (data rest : Bytes), deflateEnum64Values bo vs sb = some (data, sb') →
    Ext sb sb' ∧ data.length = 12 * vs.length ∧
    (Resolves look sb' → parseEnum64Values bo look vs.length (data ++ rest) = some vs)
  | [], sb, sb', data, rest, h => by
    simp only [deflateEnum64Values] at h; cases h
    exact ⟨Ext.refl _, rfl, fun _ => rfl⟩
  | v :: vs, sb, sb', data, rest, h => by
    unfold deflateEnum64Values at h
    cases h1 : sb.add v.name with
    | none => rw [h1] at h; cases h
    | some p =>
      obtain ⟨nameOff, sb1⟩ := p
      rw [h1] at h; dsimp only at h
      cases h3 : deflateEnum64Values bo vs sb1 with
      | none => rw [h3] at h; cases h
      | some q =>
        obtain ⟨d, sb2⟩ := q
        rw [h3] at h; dsimp only at h
        cases h
        obtain ⟨e1, l1⟩ := add_ext _ _ _ _ h1
        obtain ⟨e2, l2, r2⟩ := enum64Values_roundtrip bo look vs _ _ _ rest h3
        refine ⟨e1.trans e2, ?_, ?_⟩
        · simp only [List.length_append, put32_length, l2, List.length_cons]; omega
        · intro hres
          have hname := hres _ _ (e2 _ _ l1)
          simp only [List.length_cons, parseEnum64Values, List.append_assoc, take32_put32, hname, r2 hres, Option.map_some]
          have : (BitVec.setWidth 64 (BitVec.setWidth 32 (v.value >>> 32)) <<< 32 ||| BitVec.setWidth 64 (BitVec.setWidth 32 v.value)) = v.value := by
            apply BitVec.eq_of_getLsbD_eq
            intro i hi
            simp only [BitVec.getLsbD_or, BitVec.getLsbD_shiftLeft, BitVec.getLsbD_setWidth, BitVec.getLsbD_ushiftRight]
            by_cases h : i < 32
            · simp [h, hi]
            · simp [h, hi, show i - 32 < 64 by omega, show i - 32 < 32 by omega, show 32 + (i - 32) = i by omega]
          rw [this]

theorem params_roundtrip (bo : ByteOrder) (idOf : T → Option (BitVec 32)) (look : BitVec 32 → Option Bytes) :
    ∀ (ps : List (FuncParam T)) (sb sb' : Builder) (data rest : Bytes), deflateFuncParams bo idOf ps sb = some (data, sb') →
    Ext sb sb' ∧ data.length = 8 * ps.length ∧ (∀ p ∈ ps, (idOf p.type).isSome) ∧
    (Resolves look sb' → parseParams bo look ps.length (data ++ rest) =
      (ps.map fun p => idD idOf p.type, some (ps.map fun p => ⟨p.name, idD idOf p.type⟩)))
  | [], sb, sb', data, rest, h => by
    simp only [deflateFuncParams] at h; cases h
    exact ⟨Ext.refl _, rfl, by simp, fun _ => rfl⟩
  | v :: vs, sb, sb', data, rest, h => by
    unfold deflateFuncParams at h
    cases h1 : sb.add v.name with
    | none => rw [h1] at h; cases h
    | some p =>
      obtain ⟨nameOff, sb1⟩ := p
      rw [h1] at h; dsimp only at h
      cases h2 : idOf v.type with
      | none => rw [h2] at h; cases h
      | some id =>
        rw [h2] at h; dsimp only at h
        cases h3 : deflateFuncParams bo idOf vs sb1 with
        | none => rw [h3] at h; cases h
        | some q =>
          obtain ⟨d, sb2⟩ := q
          rw [h3] at h; dsimp only at h
          cases h
          obtain ⟨e1, l1⟩ := add_ext _ _ _ _ h1
          obtain ⟨e2, l2, b2, r2⟩ := params_roundtrip bo idOf look vs _ _ _ rest h3
          have hid : idD idOf v.type = id := by simp [idD, h2]
          refine ⟨e1.trans e2, ?_, ?_, ?_⟩
          · simp only [List.length_append, put32_length, l2, List.length_cons]; omega
          · intro x hx; simp at hx; rcases hx with rfl | hx
            · simp [h2]
            · exact b2 x hx
          · intro hres
            have hname := hres _ _ (e2 _ _ l1)
            simp only [List.length_cons, parseParams, List.append_assoc, take32_put32, hname, r2 hres, List.map_cons, Option.map_some, hid]

theorem secinfos_roundtrip (bo : ByteOrder) (idOf : T → Option (BitVec 32)) :
    ∀ (vs : List (VarSecinfo T)) (data rest : Bytes), deflateVarSecinfos bo idOf vs = some data →
    data.length = 12 * vs.length ∧ (∀ v ∈ vs, (idOf v.type).isSome) ∧
    (parseSecinfos bo vs.length (data ++ rest) =
      (vs.map fun v => idD idOf v.type, some (vs.map fun v => ⟨idD idOf v.type, v.offset, v.size⟩)))
  | [], data, rest, h => by
    simp only [deflateVarSecinfos] at h; cases h
    exact ⟨rfl, by simp, rfl⟩
  | v :: vs, data, rest, h => by
    unfold deflateVarSecinfos at h
    cases h2 : idOf v.type with
    | none => rw [h2] at h; cases h
    | some id =>
      rw [h2] at h; dsimp only at h
      cases h3 : deflateVarSecinfos bo idOf vs with
      | none => rw [h3] at h; cases h
      | some d =>
        rw [h3] at h; dsimp only at h
        cases h
        obtain ⟨l2, b2, r2⟩ := secinfos_roundtrip bo idOf vs _ rest h3
        have hid : idD idOf v.type = id := by simp [idD, h2]
        refine ⟨?_, ?_, ?_⟩
        · simp only [List.length_append, put32_length, l2, List.length_cons]; omega
        · intro x hx; simp at hx; rcases hx with rfl | hx
          · simp [h2]
          · exact b2 x hx
        · simp only [List.length_cons, parseSecinfos, List.append_assoc, take32_put32, r2, List.map_cons, Option.map_some, hid]

/-! ## Fields of headers -/

theorem kind_setKind (bt : BtfType) (k : BitVec 8) (hk : k.toNat < 32) : (bt.setKind k).kind.toNat = k.toNat := by
  rw [(setKind_spec bt k hk).1, BitVec.toNat_setWidth]; omega
@[simp] theorem kind_setSizeType (bt : BtfType) (v) : (bt.setSizeType v).kind = bt.kind := rfl
@[simp] theorem vlen_setSizeType (bt : BtfType) (v) : (bt.setSizeType v).vlen = bt.vlen := rfl
@[simp] theorem kflag_setSizeType (bt : BtfType) (v) : (bt.setSizeType v).kflag = bt.kflag := rfl
@[simp] theorem linkage_setSizeType (bt : BtfType) (v) : (bt.setSizeType v).linkage = bt.linkage := rfl
@[simp] theorem sizeType_setSizeType (bt : BtfType) (v) : (bt.setSizeType v).sizeType = v := rfl
@[simp] theorem nameOff_setSizeType (bt : BtfType) (v) : (bt.setSizeType v).nameOff = bt.nameOff := rfl
@[simp] theorem kind_setVlen (bt : BtfType) (n) : (bt.setVlen n).kind = bt.kind := by
  simp only [BtfType.setVlen, BtfType.kind]
  rw [read_write_other _ _ _ _ _ _ (by decide) (by decide) (by decide) (by decide) (by decide)]
@[simp] theorem sizeType_setVlen (bt : BtfType) (n) : (bt.setVlen n).sizeType = bt.sizeType := rfl
@[simp] theorem nameOff_setVlen (bt : BtfType) (n) : (bt.setVlen n).nameOff = bt.nameOff := rfl
@[simp] theorem kind_setKflag (bt : BtfType) (n) : (bt.setKflag n).kind = bt.kind := (setKflag_spec bt n).2.1
@[simp] theorem vlen_setKflag (bt : BtfType) (n) : (bt.setKflag n).vlen = bt.vlen := (setKflag_spec bt n).2.2.1
@[simp] theorem kflag_setKflag (bt : BtfType) (n) : (bt.setKflag n).kflag = n := (setKflag_spec bt n).1
@[simp] theorem sizeType_setKflag (bt : BtfType) (n) : (bt.setKflag n).sizeType = bt.sizeType := rfl
@[simp] theorem nameOff_setKflag (bt : BtfType) (n) : (bt.setKflag n).nameOff = bt.nameOff := rfl
@[simp] theorem kind_setFwdKind (bt : BtfType) (n) : (bt.setFwdKind n).kind = bt.kind := by
  simp only [BtfType.setFwdKind, BtfType.kind]
  rw [read_write_other _ _ _ _ _ _ (by decide) (by decide) (by decide) (by decide) (by decide)]
@[simp] theorem nameOff_setFwdKind (bt : BtfType) (n) : (bt.setFwdKind n).nameOff = bt.nameOff := rfl
@[simp] theorem kind_setLinkage (bt : BtfType) (n) : (bt.setLinkage n).kind = bt.kind := by
  simp only [BtfType.setLinkage, BtfType.kind]
  rw [read_write_other _ _ _ _ _ _ (by decide) (by decide) (by decide) (by decide) (by decide)]
@[simp] theorem sizeType_setLinkage (bt : BtfType) (n) : (bt.setLinkage n).sizeType = bt.sizeType := rfl
@[simp] theorem nameOff_setLinkage (bt : BtfType) (n) : (bt.setLinkage n).nameOff = bt.nameOff := rfl
@[simp] theorem nameOff_setKind (bt : BtfType) (n) : (bt.setKind n).nameOff = bt.nameOff := rfl
theorem linkage_zero (off : BitVec 32) (k : BitVec 8) (hk : k.toNat < 32) : ((⟨off, 0, 0⟩ : BtfType).setKind k).linkage = 0 := by
  rw [(setKind_spec _ k hk).2.2.2.2.1]; simp only [BtfType.linkage]; decide

theorem not_tag {bt : BtfType} {k : Nat} (h : bt.kind.toNat = k) (hk : k ≠ 17) : bt.kind ≠ kindDeclTag.setWidth 32 := by
  intro e; rw [e] at h; exact hk (h.symm.trans (by decide))
theorem dataLen0 {bt : BtfType} (h : bt.kind.toNat = 2 ∨ bt.kind.toNat = 7 ∨ bt.kind.toNat = 8 ∨ bt.kind.toNat = 9 ∨ bt.kind.toNat = 10 ∨ bt.kind.toNat = 11 ∨
    bt.kind.toNat = 12 ∨ bt.kind.toNat = 16 ∨ bt.kind.toNat = 18) : bt.dataLen = some 0 := by
  rcases h with h | h | h | h | h | h | h | h | h <;> simp only [BtfType.dataLen, h]
theorem dataLen4 {bt : BtfType} (h : bt.kind.toNat = 1 ∨ bt.kind.toNat = 14 ∨ bt.kind.toNat = 17) : bt.dataLen = some 4 := by
  rcases h with h | h | h <;> simp only [BtfType.dataLen, h]
theorem dataLen8 {bt : BtfType} (h : bt.kind.toNat = 6 ∨ bt.kind.toNat = 13) : bt.dataLen = some (8 * bt.vlen) := by
  rcases h with h | h <;> simp only [BtfType.dataLen, h]
theorem dataLen12 {bt : BtfType} (h : bt.kind.toNat = 4 ∨ bt.kind.toNat = 5 ∨ bt.kind.toNat = 15 ∨ bt.kind.toNat = 19) : bt.dataLen = some (12 * bt.vlen) := by
  rcases h with h | h | h | h <;> simp only [BtfType.dataLen, h]

/-! ## One record -/

/-- The IDs of the types a decoded type refers to, in the order in which they are inflated. -/
def fixOrder : Node T → List T
  | .ptr t => [t]
  | .array i t _ => [i, t]
  | .struct _ _ ms _ => ms.map (·.type)
  | .union _ _ ms _ => ms.map (·.type)
  | .typedef _ t _ => [t]
  | .volatile t => [t]
  | .const t => [t]
  | .restrict t => [t]
  | .func _ t _ _ _ => [t]
  | .funcProto r ps => ps.map (·.type) ++ [r]
  | .var _ t _ _ => [t]
  | .datasec _ _ vs => vs.map (·.type)
  | .declTag t _ _ => [t]
  | .typeTag t _ => [t]
  | _ => []

/-- The object the decoder stores before it resolves references. -/
def earlyOf : Node ID → Node Nat
  | .void => .void
  | .int n s e => .int n s e
  | .ptr _ => .ptr 0
  | .array _ _ n => .array 0 0 n
  | .struct n s _ _ => .struct n s [] []
  | .union n s _ _ => .union n s [] []
  | .enum n s sg _ => .enum n s sg []
  | .fwd n k => .fwd n k
  | .typedef n _ _ => .typedef n 0 []
  | .volatile _ => .volatile 0
  | .const _ => .const 0
  | .restrict _ => .restrict 0
  | .func n _ l _ _ => .func n 0 l [] []
  | .funcProto _ _ => .funcProto 0 []
  | .var n _ l _ => .var n 0 l []
  | .datasec n s _ => .datasec n s []
  | .float n s => .float n s
  | .declTag _ v i => .declTag 0 v i
  | .typeTag _ v => .typeTag 0 v
  | .cycle _ => .void

/-- A record describing `n` (over IDs) as the decoder sees it. -/
def ReadsAs (bo : ByteOrder) (look : BitVec 32 → Option Bytes) (legacy : ID → Option (BitVec 32 × BitVec 32)) (raw : BtfType) (data : Bytes) (n : Node ID) : Prop :=
  ∃ name, look raw.nameOff = some name ∧ ∀ rest, parseKind bo look legacy raw name (data ++ rest) = some ⟨earlyOf n, fixOrder n, some n⟩

/-- What writing one type achieves. -/
structure RecordOK (bo : ByteOrder) (idOf : T → Option (BitVec 32)) (sb : Builder) (n : Node T) (raw : BtfType) (data : Bytes) (sb' : Builder) : Prop where
  ext : Ext sb sb'
  len : raw.dataLen = some data.length
  refs : ∀ t ∈ fixOrder n, (idOf t).isSome
  reads : ∀ look legacy, Resolves look sb' → (∀ id, legacy id = none) → ReadsAs bo look legacy raw data (n.map (idD idOf))
  tag : raw.kind = kindDeclTag.setWidth 32 ↔ ∃ t v i, n = .declTag t v i
  target : ∀ t v i, n = .declTag t v i → raw.sizeType = idD idOf t
  legacy : raw.kind.toNat = 1 → ∀ rest, ∃ w, take32 bo (data ++ rest) = some (w, rest) ∧ legacyInt raw.sizeType w = none

theorem RecordOK.mono {bo : ByteOrder} {idOf : T → Option (BitVec 32)} {sb sb0 : Builder} {n : Node T} {raw data sb'} (h : RecordOK bo idOf sb n raw data sb')
    (e : Ext sb0 sb) : RecordOK bo idOf sb0 n raw data sb' :=
  ⟨e.trans h.ext, h.len, h.refs, h.reads, h.tag, h.target, h.legacy⟩

theorem int_word (size : BitVec 32) (enc : BitVec 8) (hs : size.toNat < 32) (he : enc.toNat < 16) :
    legacyInt size (setIntBits (setIntEncoding 0 enc) (size.setWidth 8 * 8)) = none ∧
    (intEncoding (setIntBits (setIntEncoding 0 enc) (size.setWidth 8 * 8))).setWidth 8 = enc := by
  have s1 := setInt_spec 0 enc 0 0 he (by decide)
  have s2 := setInt_spec (setIntEncoding 0 enc) 0 (size.setWidth 8 * 8) 0 (by decide) (by decide)
  have ho : intOffset (setIntBits (setIntEncoding 0 enc) (size.setWidth 8 * 8)) = 0 := by
    rw [s2.2.2.2.2, s1.1.2.1]; decide
  have hb : intBits (setIntBits (setIntEncoding 0 enc) (size.setWidth 8 * 8)) / 8 = size := by
    rw [s2.2.2.1]
    apply BitVec.eq_of_toNat_eq
    simp [BitVec.toNat_udiv, BitVec.toNat_mul, BitVec.toNat_setWidth]
    omega
  refine ⟨?_, ?_⟩
  · rw [legacyInt, ho, hb]; simp
  · rw [s2.2.2.2.1, s1.1.1]
    apply BitVec.eq_of_toNat_eq
    simp

theorem deflateInt_ok (bo : ByteOrder) (idOf : T → Option (BitVec 32)) (sb : Builder) (name : Bytes) (nameOff : BitVec 32) (size : BitVec 32) (enc : BitVec 8)
    (hs : size.toNat < 32) (he : enc.toNat < 16) (hn : sb.strings.lookup name = some nameOff) :
    RecordOK bo idOf sb (.int name size enc) (deflateInt bo ⟨nameOff, 0, 0⟩ size enc).1 (deflateInt bo ⟨nameOff, 0, 0⟩ size enc).2 sb := by
  have hk : ((⟨nameOff, 0, 0⟩ : BtfType).setKind kindInt).kind.toNat = 1 := kind_setKind _ _ (by decide)
  obtain ⟨w1, w2⟩ := int_word size enc hs he
  refine ⟨Ext.refl _, ?_, by simp [fixOrder], ?_, ?_, by simp, ?_⟩
  · simp only [deflateInt, put32_length]; exact dataLen4 (.inl hk)
  · intro look legacy hr _
    refine ⟨name, hr _ _ hn, ?_⟩
    intro rest
    simp only [deflateInt, parseKind, kind_setSizeType, hk, take32_put32, sizeType_setSizeType, w2, Node.map, fixOrder, earlyOf]
  · constructor
    · intro h; exact absurd h (not_tag hk (by decide))
    · rintro ⟨_, _, _, h⟩; cases h
  · intro _ rest
    exact ⟨_, take32_put32 .., w1⟩

theorem deflateRef_ok (bo : ByteOrder) (idOf : T → Option (BitVec 32)) (sb sb' : Builder) (name : Bytes) (raw raw' : BtfType) (k : BitVec 8) (t : T) (n : Node T) (data : Bytes)
    (hk : k.toNat < 32) (hn : sb.strings.lookup name = some raw.nameOff) (h : deflateRef idOf raw k t sb = some (raw', data, sb'))
    (hrefs : fixOrder n = [t])
    (hcase : (k = kindPointer ∧ n = .ptr t) ∨ (k = kindTypedef ∧ n = .typedef name t []) ∨ (k = kindVolatile ∧ n = .volatile t) ∨
      (k = kindConst ∧ n = .const t) ∨ (k = kindRestrict ∧ n = .restrict t)) :
    RecordOK bo idOf sb n raw' data sb' := by
  unfold deflateRef at h
  cases hi : idOf t with
  | none => rw [hi] at h; cases h
  | some id =>
    rw [hi] at h; cases h
    have hid : idD idOf t = id := by simp [idD, hi]
    have hkk : (raw.setKind k).kind.toNat = k.toNat := kind_setKind _ _ hk
    refine ⟨Ext.refl _, ?_, by simp [hrefs, hi], ?_, ?_, ?_, ?_⟩
    · apply dataLen0
      simp only [kind_setSizeType, hkk]
      rcases hcase with ⟨rfl, _⟩ | ⟨rfl, _⟩ | ⟨rfl, _⟩ | ⟨rfl, _⟩ | ⟨rfl, _⟩ <;> decide
    · intro look legacy hr _
      refine ⟨name, hr _ _ hn, ?_⟩
      intro rest
      rcases hcase with ⟨rfl, rfl⟩ | ⟨rfl, rfl⟩ | ⟨rfl, rfl⟩ | ⟨rfl, rfl⟩ | ⟨rfl, rfl⟩
      · have hk2 : (raw.setKind kindPointer).kind.toNat = 2 := hkk
        simp only [parseKind, kind_setSizeType, hk2, sizeType_setSizeType, Node.map, fixOrder, hid, earlyOf]
      · have hk2 : (raw.setKind kindTypedef).kind.toNat = 8 := hkk
        simp only [parseKind, kind_setSizeType, hk2, sizeType_setSizeType, Node.map, fixOrder, hid, earlyOf]
      · have hk2 : (raw.setKind kindVolatile).kind.toNat = 9 := hkk
        simp only [parseKind, kind_setSizeType, hk2, sizeType_setSizeType, Node.map, fixOrder, hid, earlyOf]
      · have hk2 : (raw.setKind kindConst).kind.toNat = 10 := hkk
        simp only [parseKind, kind_setSizeType, hk2, sizeType_setSizeType, Node.map, fixOrder, hid, earlyOf]
      · have hk2 : (raw.setKind kindRestrict).kind.toNat = 11 := hkk
        simp only [parseKind, kind_setSizeType, hk2, sizeType_setSizeType, Node.map, fixOrder, hid, earlyOf]
    · constructor
      · intro h
        refine absurd h (not_tag (k := k.toNat) hkk ?_)
        rcases hcase with ⟨rfl, _⟩ | ⟨rfl, _⟩ | ⟨rfl, _⟩ | ⟨rfl, _⟩ | ⟨rfl, _⟩ <;> decide
      · rintro ⟨_, _, _, h⟩; rcases hcase with ⟨_, rfl⟩ | ⟨_, rfl⟩ | ⟨_, rfl⟩ | ⟨_, rfl⟩ | ⟨_, rfl⟩ <;> cases h
    · rintro _ _ _ h; rcases hcase with ⟨_, rfl⟩ | ⟨_, rfl⟩ | ⟨_, rfl⟩ | ⟨_, rfl⟩ | ⟨_, rfl⟩ <;> cases h
    · intro h
      replace h : (raw.setKind k).kind.toNat = 1 := h
      rw [hkk] at h
      rcases hcase with ⟨rfl, _⟩ | ⟨rfl, _⟩ | ⟨rfl, _⟩ | ⟨rfl, _⟩ | ⟨rfl, _⟩ <;> exact absurd h (by decide)

theorem deflateComposite_ok (bo : ByteOrder) (idOf : T → Option (BitVec 32)) (sb sb' : Builder) (name : Bytes) (raw raw' : BtfType) (k : BitVec 8) (size : BitVec 32)
    (ms : List (Member T)) (n : Node T) (data : Bytes) (hfit : MembersFit ms)
    (hn : sb.strings.lookup name = some raw.nameOff) (h : deflateComposite bo idOf raw k size ms sb = some (raw', data, sb'))
    (hcase : (k = kindStruct ∧ n = .struct name size (ms.map untag) []) ∨ (k = kindUnion ∧ n = .union name size (ms.map untag) [])) :
    RecordOK bo idOf sb n raw' data sb' := by
  have hk : k.toNat < 32 := by rcases hcase with ⟨rfl, _⟩ | ⟨rfl, _⟩ <;> decide
  unfold deflateComposite at h
  cases hm : deflateMembers bo idOf ms false sb with
  | none => rw [hm] at h; cases h
  | some p =>
    obtain ⟨d, bf, sb1⟩ := p
    rw [hm] at h; cases h
    have hkk : (raw.setKind k).kind.toNat = k.toNat := kind_setKind _ _ hk
    have hv : (((raw.setKind k).setSizeType size).setVlen ms.length).vlen = ms.length := (setVlen_spec _ _ hfit.1).1
    have base := fun look legacy rest => members_roundtrip bo idOf look legacy bf ms false bf sb sb' data rest hm
    have hbf : bf = ms.any (·.bitfieldSize != 0) := by simpa using (base (fun _ => none) (fun _ => none) []).2.2.1
    have hlen := (base (fun _ => none) (fun _ => none) []).2.1
    have hext := (base (fun _ => none) (fun _ => none) []).1
    have hids := (base (fun _ => none) (fun _ => none) []).2.2.2.1
    have hrefs : fixOrder n = ms.map (·.type) := by
      rcases hcase with ⟨_, rfl⟩ | ⟨_, rfl⟩ <;> simp [fixOrder, untag, Function.comp_def]
    refine ⟨hext, ?_, ?_, ?_, ?_, ?_, ?_⟩
    · rw [dataLen12, vlen_setKflag, hv, hlen]
      simp only [kind_setKflag, kind_setVlen, kind_setSizeType, hkk]
      rcases hcase with ⟨rfl, _⟩ | ⟨rfl, _⟩ <;> decide
    · intro t ht; rw [hrefs] at ht; simp at ht
      obtain ⟨m, hm, rfl⟩ := ht
      exact hids m hm
    · intro look legacy hr hleg
      refine ⟨name, hr _ _ (hext _ _ hn), ?_⟩
      intro rest
      have hp := (base look legacy rest).2.2.2.2 hr (by
        by_cases hb : bf = true
        · right
          refine ⟨hb, ?_⟩
          rcases hfit.2 with h | h
          · rw [hbf] at hb
            obtain ⟨m, hm, hne⟩ := List.any_eq_true.1 hb
            simp [h m hm] at hne
          · exact h
        · left
          refine ⟨by simpa using hb, rfl, ?_⟩
          intro m hm
          refine ⟨?_, hleg _⟩
          rw [hbf] at hb
          simp at hb
          exact hb m hm)
      rcases hcase with ⟨rfl, rfl⟩ | ⟨rfl, rfl⟩
      · have hk4 : (raw.setKind kindStruct).kind.toNat = 4 := hkk
        simp only [parseKind, kind_setKflag, kind_setVlen, kind_setSizeType, hk4, vlen_setKflag, kflag_setKflag, hv, hp, sizeType_setKflag, sizeType_setVlen, sizeType_setSizeType]
        simp [Node.map, fixOrder, earlyOf, untag, Function.comp_def]
      · have hk4 : (raw.setKind kindUnion).kind.toNat = 5 := hkk
        simp only [parseKind, kind_setKflag, kind_setVlen, kind_setSizeType, hk4, vlen_setKflag, kflag_setKflag, hv, hp, sizeType_setKflag, sizeType_setVlen, sizeType_setSizeType]
        simp [Node.map, fixOrder, earlyOf, untag, Function.comp_def]
    · constructor
      · intro h
        simp only [kind_setKflag, kind_setVlen, kind_setSizeType] at h
        refine absurd h (not_tag (k := k.toNat) hkk ?_)
        rcases hcase with ⟨rfl, _⟩ | ⟨rfl, _⟩ <;> decide
      · rintro ⟨_, _, _, h⟩; rcases hcase with ⟨_, rfl⟩ | ⟨_, rfl⟩ <;> cases h
    · rintro _ _ _ h; rcases hcase with ⟨_, rfl⟩ | ⟨_, rfl⟩ <;> cases h
    · intro h
      simp only [kind_setKflag, kind_setVlen, kind_setSizeType] at h
      rw [hkk] at h
      rcases hcase with ⟨rfl, _⟩ | ⟨rfl, _⟩ <;> exact absurd h (by decide)

/-- Kinds other than integers and tags. -/
theorem mkRecord {bo : ByteOrder} {idOf : T → Option (BitVec 32)} {sb sb' : Builder} {n : Node T} {raw : BtfType} {data : Bytes} {k : Nat}
    (hk : raw.kind.toNat = k) (h1 : k ≠ 1) (h17 : k ≠ 17) (hn : ∀ t v i, n ≠ .declTag t v i)
    (ext : Ext sb sb') (len : raw.dataLen = some data.length) (hrefs : ∀ t ∈ fixOrder n, (idOf t).isSome)
    (reads : ∀ look legacy, Resolves look sb' → (∀ id, legacy id = none) → ReadsAs bo look legacy raw data (n.map (idD idOf))) :
    RecordOK bo idOf sb n raw data sb' :=
  ⟨ext, len, hrefs, reads, ⟨fun h => absurd h (not_tag hk h17), fun ⟨_, _, _, h⟩ => absurd h (hn _ _ _)⟩, fun t v i h => absurd h (hn _ _ _),
    fun h => absurd (hk.symm.trans h) h1⟩

theorem toNat_ofInt {w : Nat} (i : Int) (h0 : 0 ≤ i) (h1 : i < 2 ^ w) : ((BitVec.ofInt w i).toNat : Int) = i := by
  rw [BitVec.toNat_ofInt]
  rw [Int.emod_eq_of_lt h0 (by exact_mod_cast h1)]
  exact Int.toNat_of_nonneg h0

theorem enum_signed (v : BitVec 64) (h1 : -2147483648 ≤ v.toInt) (h2 : v.toInt ≤ 2147483647) : (v.setWidth 32).signExtend 64 = v := by
  apply BitVec.eq_of_toInt_eq
  rw [BitVec.toInt_signExtend_of_le (by decide), BitVec.toInt_setWidth]
  have hn : v.toInt = (v.toNat : Int) ∨ v.toInt = (v.toNat : Int) - 2 ^ 64 := by
    rw [BitVec.toInt_eq_toNat_cond]; split <;> simp
  have hb : Int.bmod (v.toNat : Int) (2 ^ 32) = v.toInt := by
    have : (v.toNat : Int) % 2 ^ 32 = v.toInt % 2 ^ 32 := by rcases hn with h | h <;> omega
    rw [Int.bmod_def]
    omega
  exact hb

/-- C26: every type that fits the wire format is read back as it was written, up to the replacements requested by the options; its fields are those of `lower`. -/
theorem record_roundtrip (o : Opts) (bo : ByteOrder) (idOf : T → Option (BitVec 32)) (ph : T) (n : Node T) (sb sb' : Builder) (raw : BtfType) (data : Bytes)
    (hfit : Fits n) (h : deflateType o bo idOf ph n sb = some (raw, data, sb')) :
    RecordOK bo idOf sb (lower o ph n) raw data sb' := by
  unfold deflateType at h
  cases h1 : sb.add n.name with
  | none => rw [h1] at h; cases h
  | some p =>
    obtain ⟨nameOff, sb1⟩ := p
    rw [h1] at h; dsimp only at h
    obtain ⟨e1, l1⟩ := add_ext _ _ _ _ h1
    apply RecordOK.mono _ e1
    cases n with
    | void => cases h
    | cycle => cases h
    | int name size enc =>
      dsimp only at h; cases h
      exact deflateInt_ok bo idOf _ name nameOff size enc hfit.1 hfit.2 l1
    | ptr t => exact deflateRef_ok bo idOf _ _ _ _ _ _ _ _ _ (by decide) l1 h rfl (.inl ⟨rfl, rfl⟩)
    | typedef name t ts => exact deflateRef_ok bo idOf _ _ _ _ _ _ _ _ _ (by decide) l1 h rfl (.inr (.inl ⟨rfl, rfl⟩))
    | volatile t => exact deflateRef_ok bo idOf _ _ _ _ _ _ _ _ _ (by decide) l1 h rfl (.inr (.inr (.inl ⟨rfl, rfl⟩)))
    | const t => exact deflateRef_ok bo idOf _ _ _ _ _ _ _ _ _ (by decide) l1 h rfl (.inr (.inr (.inr (.inl ⟨rfl, rfl⟩))))
    | restrict t => exact deflateRef_ok bo idOf _ _ _ _ _ _ _ _ _ (by decide) l1 h rfl (.inr (.inr (.inr (.inr ⟨rfl, rfl⟩))))
    | struct name size ms ts => exact deflateComposite_ok bo idOf _ _ _ _ _ _ _ _ _ _ hfit l1 h (.inl ⟨rfl, rfl⟩)
    | union name size ms ts => exact deflateComposite_ok bo idOf _ _ _ _ _ _ _ _ _ _ hfit l1 h (.inr ⟨rfl, rfl⟩)
    | array index type nelems =>
      dsimp only at h
      cases ht : idOf type with
      | none => rw [ht] at h; cases h
      | some tid =>
        rw [ht] at h; dsimp only at h
        cases hi : idOf index with
        | none => rw [hi] at h; cases h
        | some iid =>
          rw [hi] at h; cases h
          have hk : ((⟨nameOff, 0, 0⟩ : BtfType).setKind kindArray).kind.toNat = 3 := kind_setKind _ _ (by decide)
          refine mkRecord hk (by decide) (by decide) (by simp [lower]) (Ext.refl _) ?_ (by simp [lower, fixOrder, ht, hi]) ?_
          · simp only [BtfType.dataLen, hk, List.length_append, put32_length]
          · intro look legacy hr _
            refine ⟨_, hr _ _ l1, fun rest => ?_⟩
            simp only [parseKind, hk, List.append_assoc, take32_put32, lower, Node.map, fixOrder, earlyOf, idD, ht, hi, Option.getD_some]
    | enum name size signed vs =>
      dsimp only at h
      have hlen : vs.length < 65536 := hfit
      split at h
      · rename_i h8
        split at h
        · rename_i hrep
          have hl : lower o ph (.enum name size signed vs) = .union name size (vs.map fun v => ⟨v.name, ph, 0, 0, []⟩) [] := by simp [lower, hrep, h8]
          rw [hl]
          refine deflateComposite_ok bo idOf _ _ name ⟨nameOff, 0, 0⟩ _ _ _ _ _ _ ?_ l1 h (.inr ⟨rfl, ?_⟩)
          · exact ⟨by simpa using hlen, .inl (by simp)⟩
          · simp [untag]
        · rename_i hrep
          have hl : lower o ph (.enum name size signed vs) = .enum name size signed vs := by simp [lower, hrep]
          rw [hl]
          cases hv : deflateEnum64Values bo vs sb1 with
          | none => rw [hv] at h; cases h
          | some q =>
            obtain ⟨d, sb2⟩ := q
            rw [hv] at h; cases h
            have hk : ((⟨nameOff, 0, 0⟩ : BtfType).setKind kindEnum64).kind.toNat = 19 := kind_setKind _ _ (by decide)
            have hvl : ((((⟨nameOff, 0, 0⟩ : BtfType).setKind kindEnum64).setSizeType size).setVlen vs.length).vlen = vs.length := (setVlen_spec _ _ hlen).1
            have base := fun look rest => enum64Values_roundtrip bo look vs sb1 sb' data rest hv
            have hext := (base (fun _ => none) []).1
            refine mkRecord (k := 19) (by simpa only [kind_setKflag, kind_setVlen, kind_setSizeType] using hk) (by decide) (by decide) (by simp) hext ?_ (by simp [fixOrder]) ?_
            · rw [dataLen12, vlen_setKflag, hvl, (base (fun _ => none) []).2.1]
              simp only [kind_setKflag, kind_setVlen, kind_setSizeType, hk]; decide
            · intro look legacy hr _
              refine ⟨name, hr _ _ (hext _ _ l1), fun rest => ?_⟩
              simp only [parseKind, kind_setKflag, kind_setVlen, kind_setSizeType, hk, vlen_setKflag, kflag_setKflag, hvl, (base look rest).2.2 hr,
                sizeType_setKflag, sizeType_setVlen, sizeType_setSizeType, Option.map_some, Node.map, fixOrder, earlyOf]
      · rename_i h8
        cases hv : deflateEnumValues bo signed vs sb1 with
        | none => rw [hv] at h; cases h
        | some q =>
          obtain ⟨d, sb2⟩ := q
          rw [hv] at h; cases h
          have hk : ((⟨nameOff, 0, 0⟩ : BtfType).setKind kindEnum).kind.toNat = 6 := kind_setKind _ _ (by decide)
          have hvl : ((((⟨nameOff, 0, 0⟩ : BtfType).setKind kindEnum).setSizeType size).setVlen vs.length).vlen = vs.length := (setVlen_spec _ _ hlen).1
          have base := fun look rest => enumValues_roundtrip bo look signed (signed && !o.replaceEnum64) vs sb1 sb' data rest hv
          have hext := (base (fun _ => none) []).1
          have hin := (base (fun _ => none) []).2.2.1
          have hl : lower o ph (.enum name size signed vs) = .enum name size (signed && !o.replaceEnum64)
              (vs.map fun v => ⟨v.name, if (signed && !o.replaceEnum64) then (v.value.setWidth 32).signExtend 64 else (v.value.setWidth 32).setWidth 64⟩) := by
            simp only [lower, h8, if_false]
            by_cases hrep : o.replaceEnum64 = true
            · simp [hrep]
            · simp only [hrep, Bool.false_eq_true, if_false]
              have hb : (signed && !false) = signed := by simp
              have : vs = vs.map fun v => ⟨v.name, if signed then (v.value.setWidth 32).signExtend 64 else (v.value.setWidth 32).setWidth 64⟩ := by
                conv => lhs; rw [← List.map_id vs]
                apply List.map_congr_left
                intro v hvm
                have := hin v hvm
                unfold enumFits at this
                cases signed with
                | true =>
                  simp only [if_true, Bool.and_eq_true, decide_eq_true_eq] at this
                  simp only [if_true, id]
                  have : (v.value.setWidth 32).signExtend 64 = v.value := enum_signed v.value this.1 this.2
                  rw [this]
                | false =>
                  simp only [Bool.false_eq_true, if_false, decide_eq_true_eq] at this
                  simp only [Bool.false_eq_true, if_false, id]
                  have : (v.value.setWidth 32).setWidth 64 = v.value := by
                    apply BitVec.eq_of_toNat_eq
                    simp only [BitVec.toNat_setWidth]
                    omega
                  rw [this]
              rw [hb]
              conv => lhs; rw [this]
          rw [hl]
          refine mkRecord (k := 6) (by simpa only [kind_setKflag, kind_setVlen, kind_setSizeType] using hk) (by decide) (by decide) (by simp) hext ?_ (by simp [fixOrder]) ?_
          · rw [dataLen8, vlen_setKflag, hvl, (base (fun _ => none) []).2.1]
            simp only [kind_setKflag, kind_setVlen, kind_setSizeType, hk]; decide
          · intro look legacy hr _
            refine ⟨name, hr _ _ (hext _ _ l1), fun rest => ?_⟩
            simp only [parseKind, kind_setKflag, kind_setVlen, kind_setSizeType, hk, vlen_setKflag, kflag_setKflag, hvl, (base look rest).2.2.2 hr,
              sizeType_setKflag, sizeType_setVlen, sizeType_setSizeType, Option.map_some, Node.map, fixOrder, earlyOf]
    | fwd name k =>
      dsimp only at h; cases h
      have hk : ((⟨nameOff, 0, 0⟩ : BtfType).setKind kindForward).kind.toNat = 7 := kind_setKind _ _ (by decide)
      have hkind : (BitVec.ofInt 32 k).toNat < 2 ∧ ((BitVec.ofInt 32 k).toNat : Int) = k := by
        rcases hfit with rfl | rfl <;> decide
      have hf := (setFwdKind_spec ((⟨nameOff, 0, 0⟩ : BtfType).setKind kindForward) _ hkind.1).1
      refine mkRecord (k := 7) (by simpa only [kind_setFwdKind] using hk) (by decide) (by decide) (by simp [lower]) (Ext.refl _) ?_ (by simp [lower, fixOrder]) ?_
      · rw [dataLen0]; rfl
        simp only [kind_setFwdKind, hk]; decide
      · intro look legacy hr _
        refine ⟨name, hr _ _ l1, fun rest => ?_⟩
        simp only [parseKind, kind_setFwdKind, hk, hf, hkind.2, lower, Node.map, fixOrder, earlyOf]
    | func name t l ts pts =>
      dsimp only at h
      cases hi : idOf t with
      | none => rw [hi] at h; cases h
      | some id =>
        rw [hi] at h; dsimp only at h; cases h
        have hk : ((⟨nameOff, 0, 0⟩ : BtfType).setKind kindFunc).kind.toNat = 12 := kind_setKind _ _ (by decide)
        have hk' : (if o.stripFuncLinkage = true then ((⟨nameOff, 0, 0⟩ : BtfType).setKind kindFunc).setSizeType id
            else (((⟨nameOff, 0, 0⟩ : BtfType).setKind kindFunc).setSizeType id).setLinkage (BitVec.ofInt 32 l)).kind.toNat = 12 := by
          split
          · exact hk
          · rw [kind_setLinkage]; exact hk
        refine mkRecord (k := 12) hk' (by decide) (by decide) (by simp [lower]) (Ext.refl _) ?_ (by simp [lower, fixOrder, hi]) ?_
        · rw [dataLen0]; rfl
          rw [hk']; decide
        · intro look legacy hr _
          refine ⟨name, ?_, fun rest => ?_⟩
          · split <;> exact hr _ _ l1
          · simp only [parseKind, hk', lower, Node.map, fixOrder, earlyOf, idD, hi, Option.getD_some]
            by_cases hs : o.stripFuncLinkage = true
            · simp only [hs, if_true, linkage_setSizeType, sizeType_setSizeType]
              rw [linkage_zero nameOff kindFunc (by decide)]
              simp
            · simp only [hs, Bool.false_eq_true, if_false, sizeType_setLinkage, sizeType_setSizeType]
              have hlt := toNat_ofInt (w := 32) l hfit.1 (by have := hfit.2; omega)
              have hlk := (setLinkage_spec (((⟨nameOff, 0, 0⟩ : BtfType).setKind kindFunc).setSizeType id) (BitVec.ofInt 32 l) (by have := hfit.2; omega)).1
              rw [hlk, hlt]
    | funcProto ret ps =>
      dsimp only at h
      have hlen : ps.length < 65536 := hfit
      cases hi : idOf ret with
      | none => rw [hi] at h; cases h
      | some id =>
        rw [hi] at h; dsimp only at h
        cases hv : deflateFuncParams bo idOf ps sb1 with
        | none => rw [hv] at h; cases h
        | some q =>
          obtain ⟨d, sb2⟩ := q
          rw [hv] at h; cases h
          have hk : ((⟨nameOff, 0, 0⟩ : BtfType).setKind kindFuncProto).kind.toNat = 13 := kind_setKind _ _ (by decide)
          have hvl : ((((⟨nameOff, 0, 0⟩ : BtfType).setKind kindFuncProto).setSizeType id).setVlen ps.length).vlen = ps.length := (setVlen_spec _ _ hlen).1
          have base := fun look rest => params_roundtrip bo idOf look ps sb1 sb' data rest hv
          have hext := (base (fun _ => none) []).1
          have hids := (base (fun _ => none) []).2.2.1
          refine mkRecord (k := 13) (by simpa only [kind_setVlen, kind_setSizeType] using hk) (by decide) (by decide) (by simp [lower]) hext ?_ ?_ ?_
          · rw [dataLen8, hvl, (base (fun _ => none) []).2.1]
            simp only [kind_setVlen, kind_setSizeType, hk]; decide
          · intro t ht
            simp [lower, fixOrder] at ht
            rcases ht with ⟨p, hp, rfl⟩ | rfl
            · exact hids p hp
            · simp [hi]
          · intro look legacy hr _
            refine ⟨[], hr _ _ (hext _ _ l1), fun rest => ?_⟩
            have hid : idD idOf ret = id := by simp [idD, hi]
            simp only [parseKind, kind_setVlen, kind_setSizeType, hk, hvl, (base look rest).2.2.2 hr,
              sizeType_setVlen, sizeType_setSizeType, Option.map_some, lower, Node.map, fixOrder, earlyOf, hid, List.map_map, Function.comp_def]
    | var name t l ts =>
      dsimp only at h
      cases hi : idOf t with
      | none => rw [hi] at h; cases h
      | some id =>
        rw [hi] at h; dsimp only at h; cases h
        have hk : ((⟨nameOff, 0, 0⟩ : BtfType).setKind kindVar).kind.toNat = 14 := kind_setKind _ _ (by decide)
        refine mkRecord (k := 14) hk (by decide) (by decide) (by simp [lower]) (Ext.refl _) ?_ (by simp [lower, fixOrder, hi]) ?_
        · rw [put32_length]; exact dataLen4 (.inr (.inl hk))
        · intro look legacy hr _
          have hlt := toNat_ofInt (w := 32) l hfit.1 hfit.2
          refine ⟨name, hr _ _ l1, fun rest => ?_⟩
          simp only [parseKind, kind_setSizeType, hk, take32_put32, hlt, sizeType_setSizeType, lower, Node.map, fixOrder, earlyOf, idD, hi, Option.getD_some]
    | datasec name size vs =>
      dsimp only at h
      have hlen : vs.length < 65536 := hfit
      cases hv : deflateVarSecinfos bo idOf vs with
      | none => rw [hv] at h; cases h
      | some d =>
        rw [hv] at h; cases h
        have hk : ((⟨nameOff, 0, 0⟩ : BtfType).setKind kindDatasec).kind.toNat = 15 := kind_setKind _ _ (by decide)
        have hvl : ((((⟨nameOff, 0, 0⟩ : BtfType).setKind kindDatasec).setSizeType size).setVlen vs.length).vlen = vs.length := (setVlen_spec _ _ hlen).1
        have base := fun rest => secinfos_roundtrip bo idOf vs data rest hv
        refine mkRecord (k := 15) (by simpa only [kind_setVlen, kind_setSizeType] using hk) (by decide) (by decide) (by simp [lower]) (Ext.refl _) ?_ ?_ ?_
        · rw [dataLen12, hvl, (base []).1]
          simp only [kind_setVlen, kind_setSizeType, hk]; decide
        · intro t ht
          simp [lower, fixOrder] at ht
          obtain ⟨p, hp, rfl⟩ := ht
          exact (base []).2.1 p hp
        · intro look legacy hr _
          refine ⟨name, hr _ _ l1, fun rest => ?_⟩
          simp only [parseKind, kind_setVlen, kind_setSizeType, hk, hvl, (base rest).2.2,
            sizeType_setVlen, sizeType_setSizeType, Option.map_some, lower, Node.map, fixOrder, earlyOf, List.map_map, Function.comp_def]
    | float name size =>
      dsimp only at h; cases h
      have hk : ((⟨nameOff, 0, 0⟩ : BtfType).setKind kindFloat).kind.toNat = 16 := kind_setKind _ _ (by decide)
      refine mkRecord (k := 16) hk (by decide) (by decide) (by simp [lower]) (Ext.refl _) ?_ (by simp [lower, fixOrder]) ?_
      · rw [dataLen0]; rfl
        simp only [kind_setSizeType, hk]; decide
      · intro look legacy hr _
        refine ⟨name, hr _ _ l1, fun rest => ?_⟩
        simp only [parseKind, kind_setSizeType, hk, sizeType_setSizeType, lower, Node.map, fixOrder, earlyOf]
    | declTag t v i =>
      dsimp only at h
      split at h
      · rename_i hrep
        cases ha : sb1.add declTagPlaceholder with
        | none => rw [ha] at h; cases h
        | some q =>
          obtain ⟨off, sb2⟩ := q
          rw [ha] at h; cases h
          obtain ⟨e2, l2⟩ := add_ext _ _ _ _ ha
          have := deflateInt_ok bo idOf sb' declTagPlaceholder off 1 0 (by decide) (by decide) l2
          have hl : lower o ph (.declTag t v i) = .int declTagPlaceholder 1 0 := by simp [lower, hrep]
          rw [hl]
          exact this.mono e2
      · rename_i hrep
        have hl : lower o ph (.declTag t v i) = .declTag t v i := by simp [lower, hrep]
        rw [hl]
        cases hi : idOf t with
        | none => rw [hi] at h; cases h
        | some id =>
          rw [hi] at h; dsimp only at h
          cases ha : sb1.add v with
          | none => rw [ha] at h; cases h
          | some q =>
            obtain ⟨off, sb2⟩ := q
            rw [ha] at h; cases h
            obtain ⟨e2, l2⟩ := add_ext _ _ _ _ ha
            have hk : ((⟨nameOff, 0, 0⟩ : BtfType).setKind kindDeclTag).kind.toNat = 17 := kind_setKind _ _ (by decide)
            have hidx : (BitVec.ofInt 32 i).toInt = i := by
              rw [BitVec.toInt_ofInt]
              exact Int.bmod_eq_of_le (by have := hfit.1; omega) (by have := hfit.2; omega)
            refine ⟨e2, ?_, by simp [fixOrder, hi], ?_, ⟨fun _ => ⟨_, _, _, rfl⟩, fun _ => (setKind_spec _ _ (by decide)).1⟩, ?_, ?_⟩
            · rw [put32_length]; exact dataLen4 (.inr (.inr hk))
            · intro look legacy hr _
              refine ⟨v, hr _ _ l2, fun rest => ?_⟩
              have hk' : ({ ((⟨nameOff, 0, 0⟩ : BtfType).setKind kindDeclTag).setSizeType id with nameOff := off } : BtfType).kind.toNat = 17 := hk
              simp only [sizeType_setSizeType] at hk'
              simp only [parseKind, hk', take32_put32, hidx, sizeType_setSizeType, Node.map, fixOrder, earlyOf, idD, hi, Option.getD_some]
            · rintro t' v' i' ⟨⟩; simp [idD, hi, BtfType.setSizeType]
            · intro hk1; exact absurd (hk.symm.trans hk1) (by decide)
    | typeTag t v =>
      dsimp only at h
      split at h
      · rename_i hrep
        have hl : lower o ph (.typeTag t v) = .const t := by simp [lower, hrep]
        rw [hl]
        exact deflateRef_ok bo idOf _ _ _ _ _ _ _ _ _ (by decide) l1 h rfl (.inr (.inr (.inr (.inl ⟨rfl, rfl⟩))))
      · rename_i hrep
        have hl : lower o ph (.typeTag t v) = .typeTag t v := by simp [lower, hrep]
        rw [hl]
        cases hi : idOf t with
        | none => rw [hi] at h; cases h
        | some id =>
          rw [hi] at h; dsimp only at h
          cases ha : sb1.add v with
          | none => rw [ha] at h; cases h
          | some q =>
            obtain ⟨off, sb2⟩ := q
            rw [ha] at h; cases h
            obtain ⟨e2, l2⟩ := add_ext _ _ _ _ ha
            have hk : ({ ((⟨nameOff, 0, 0⟩ : BtfType).setKind kindTypeTag).setSizeType id with nameOff := off } : BtfType).kind.toNat = 18 :=
              kind_setKind ⟨nameOff, 0, 0⟩ kindTypeTag (by decide)
            refine mkRecord (k := 18) hk (by decide) (by decide) (by simp) e2 ?_ (by simp [fixOrder, hi]) ?_
            · rw [dataLen0]; rfl
              rw [hk]; decide
            · intro look legacy hr _
              refine ⟨v, hr _ _ l2, fun rest => ?_⟩
              simp only [sizeType_setSizeType] at hk
              simp only [parseKind, hk, sizeType_setSizeType, Node.map, fixOrder, earlyOf, idD, hi, Option.getD_some]
end
/-! ## Old-style bitfields -/

/-- Integers by ID, as `legacyBitfields` has them. -/
def legacyOf (ints : ID → Option (BitVec 32 × BitVec 32)) (id : ID) : Option (BitVec 32 × BitVec 32) :=
  match ints id with
  | none => none
  | some p => legacyInt p.1 p.2

theorem legacyInt_decoded (m : RawMember) (ints : ID → Option (BitVec 32 × BitVec 32)) :
    (match legacyOf ints m.type with
      | some (o, s) => ⟨m.name, m.type, m.offset + o, s, []⟩
      | none => ⟨m.name, m.type, m.offset, 0, []⟩ : Member ID) = m.decoded ints := by
  unfold legacyOf RawMember.decoded
  cases hi : ints m.type with
  | none => rfl
  | some p =>
    obtain ⟨size, word⟩ := p
    have h1 := (int_layout word).2.1
    have h2 := (int_layout word).2.2
    have hb : BtfSpec.intBits word.toNat < 256 := by unfold BtfSpec.intBits; omega
    dsimp only
    unfold legacyInt
    have hiff : (intOffset word > 0 ∨ intBits word / 8 ≠ size) ↔ ¬ (BtfSpec.intOffset word.toNat = 0 ∧ BtfSpec.intBits word.toNat / 8 = size.toNat) := by
      have e1 : intOffset word > 0 ↔ ¬ BtfSpec.intOffset word.toNat = 0 := by
        rw [← h1]; simp [BitVec.lt_def]; omega
      have e2 : intBits word / 8 = size ↔ BtfSpec.intBits word.toNat / 8 = size.toNat := by
        rw [← h2, ← BitVec.toNat_inj, BitVec.toNat_udiv]; rfl
      rw [e1, ne_eq, e2]
      constructor
      · rintro h ⟨a, b⟩; rcases h with h | h
        · exact h a
        · exact h b
      · intro h
        by_cases a : BtfSpec.intOffset word.toNat = 0
        · exact Or.inr fun b => h ⟨a, b⟩
        · exact Or.inl a
    by_cases hc : BtfSpec.intOffset word.toNat = 0 ∧ BtfSpec.intBits word.toNat / 8 = size.toNat
    · rw [if_pos hc, if_neg (fun h => hiff.1 h hc)]
    · rw [if_neg hc, if_pos (hiff.2 hc), ← h1, ← h2]
      dsimp only
      rw [BitVec.ofNat_add]
      simp

/-- **C26, old-style bitfields.** In a struct without the kind flag, a member whose type is an integer with an offset, or with another number of bits than its bytes
have, is a bitfield: at the offset of the member plus that of the integer, and as wide as the integer. -/
theorem legacy_bitfields (bo : ByteOrder) (look : BitVec 32 → Option Bytes) (ints : ID → Option (BitVec 32 × BitVec 32)) :
    ∀ (ms : List RawMember) (rest : Bytes), (∀ m ∈ ms, look m.nameOff = some m.name) →
    parseMembers bo look (legacyOf ints) false ms.length (ms.flatMap (RawMember.bytes bo) ++ rest) = (ms.map (·.type), some (ms.map (·.decoded ints)))
  | [], _, _ => rfl
  | m :: ms, rest, h => by
    have hn : look m.nameOff = some m.name := h _ List.mem_cons_self
    have ih := legacy_bitfields bo look ints ms rest (fun x hx => h x (List.mem_cons_of_mem _ hx))
    rw [List.length_cons, List.flatMap_cons, List.append_assoc]
    unfold parseMembers
    rw [show ∀ r, RawMember.bytes bo m ++ r = bo.put32 m.nameOff ++ (bo.put32 m.type ++ (bo.put32 m.offset ++ r)) from fun r => by simp [RawMember.bytes]]
    rw [take32_put32]
    dsimp only
    rw [take32_put32]
    dsimp only
    rw [take32_put32]
    dsimp only
    rw [hn]
    dsimp only
    rw [ih, if_neg (by decide)]
    have := legacyInt_decoded m ints
    simp only [List.map_cons, Option.map_some, ← this]
    congr

end Ebpf.Btf
