import Verif.Model.BtfTypes
/-!
# Model of `btf/format.go`: `GoFormatter`

The text that is written is modelled by the syntax tree of the Go type it denotes. Identifiers are the C names (`GoFormatter.Identifier`
changes names, not layout); the constants written for enums are `enumConsts`. Comments, `structs.HostLayout` (an empty first field) and
error texts are dropped.
-/
namespace Ebpf.Btf

mutual
/-- Go types that the formatter writes. `named u` is the Go type whose name `GoFormatter.Names` gives for `u`. -/
inductive GoTy (R : Type) where
  | int (signed : Bool) (size : Nat)
  | bool
  | bytes (n : Nat)
  | array (n : Nat) (t : GoTy R)
  | struct (fs : GoFields R)
  | named (u : R)
/-- Fields of a Go struct; `none` is the blank identifier. -/
inductive GoFields (R : Type) where
  | nil
  | cons (name : Option Bytes) (t : GoTy R) (r : GoFields R)
end

/-- Why formatting fails. `panic`: slicing an empty slice, btf/format.go:158. `fuel` does not occur. -/
inductive GoErr where
  | tooDeep | enumSize | boolSize | charSize | encoding | notSupported | size | exceeds | bitfield | offset | anonymous | emptyUnion
  | notVar | noName | panic | fuel
deriving DecidableEq, Repr

variable {R : Type}

/-- One field after the other. -/
def GoFields.append : GoFields R → GoFields R → GoFields R
  | .nil, r => r
  | .cons n t s, r => .cons n t (s.append r)

/-- btf/format.go:336-340 `writePadding`; also 223 for skipped bit fields. -/
def goPadding (n : BitVec 32) : GoFields R := if n = 0#32 then .nil else .cons none (.bytes n.toNat) .nil

/-- btf/format.go:342-353 `skipQualifiers`, `none` for a `cycle`. -/
def skipQualifiers (g : Graph R) (t : R) : Option R := qualifiedLoop g (maxResolveDepth + 1) t

/-- btf/format.go:178-208 `writeIntLit`. -/
def writeIntLit (s : BitVec 32) (e : BitVec 8) : Except GoErr (GoTy R) :=
  let num (signed : Bool) : Except GoErr (GoTy R) := if s.toNat > 8 then .ok (.bytes s.toNat) else .ok (.int signed s.toNat)
  if e = 4#8 then (if s ≠ 1#32 then .error .boolSize else .ok .bool)
  else if e = 2#8 then (if s ≠ 1#32 then .error .charSize else num false)
  else if e = 0#8 then num false
  else if e = 1#8 then num true
  else .error .encoding

/-- btf/format.go:130-144: enums. -/
def writeEnumLit (s : BitVec 32) (signed : Bool) : Except GoErr (GoTy R) :=
  if s = 1#32 ∨ s = 2#32 ∨ s = 4#32 ∨ s = 8#32 then .ok (.int signed s.toNat) else .error .enumSize

/-- btf/types.go:299-301 `Bits.Bytes` of an offset. -/
def bytesOf (off : BitVec 32) : BitVec 32 := BitVec.ofNat 32 (off.toNat / 8)

/-- btf/format.go:215-245: the loop over members, and the padding at the end; `field` is `writeStructField`. -/
def structFields (g : Graph R) (field : Member R → Except GoErr (GoFields R)) (size : BitVec 32) :
    BitVec 32 → List (Member R) → Except GoErr (GoFields R)
  | prev, [] => .ok (goPadding (size - prev))
  | prev, m :: ms =>
    if m.bitfieldSize ≠ 0#32 then structFields g field size prev ms
    else match sizeof g m.type with
      | .error _ => .error .size
      | .ok n =>
        let offset := bytesOf m.offset
        let next := offset + BitVec.ofNat 32 n
        if next.toNat > size.toNat then .error .exceeds
        else match field m with
          | .error e => .error e
          | .ok f =>
            match structFields g field size next ms with
            | .error e => .error e
            | .ok r => .ok ((goPadding (offset - prev)).append (f.append r))

/-- btf/format.go:300-334 `writeDatasecLit`; `typ` is `writeType`. Linkage 1 is `GlobalVar`. -/
def datasecFields (g : Graph R) (typ : R → Except GoErr (GoTy R)) (size : BitVec 32) :
    BitVec 32 → List (VarSecinfo R) → Except GoErr (GoFields R)
  | prev, [] => .ok (goPadding (size - prev))
  | prev, v :: vs =>
    match g v.type with
    | .var name t linkage _ =>
      if linkage ≠ 1 then datasecFields g typ size prev vs
      else if name = [] then .error .noName
      else match typ t with
        | .error e => .error e
        | .ok gt =>
          match datasecFields g typ size (v.offset + v.size) vs with
          | .error e => .error e
          | .ok r => .ok ((goPadding (v.offset - prev)).append (.cons (some name) gt r))
    | _ => .error .notVar

mutual
/-- btf/format.go:119-176 `writeTypeLit`. The first number bounds the recursion, the second is `maxResolveDepth - depth`. -/
def writeTypeLit (g : Graph R) (names : R → Bool) : Nat → Nat → R → Except GoErr (GoTy R)
  | 0, _, _ => .error .fuel
  | _ + 1, 0, _ => .error .tooDeep
  | n + 1, k + 1, t =>
    match skipQualifiers g t with
    | none => .error .notSupported
    | some u =>
      match g u with
      | .int _ s e => writeIntLit s e
      | .enum _ s sg _ => writeEnumLit s sg
      | .typedef _ t' _ => writeType g names n k t'
      | .array _ e c =>
        match writeType g names n k e with
        | .error e => .error e
        | .ok ge => .ok (.array c.toNat ge)
      | .struct _ s ms _ =>
        match structFields g (fun m => writeStructField g names n k m) s 0#32 ms with
        | .error e => .error e
        | .ok fs => .ok (.struct fs)
      | .union _ s ms _ =>
        match ms with
        | [] => .error .panic
        | m :: _ =>
          match structFields g (fun m => writeStructField g names n k m) s 0#32 [m] with
          | .error e => .error e
          | .ok fs => .ok (.struct fs)
      | .datasec _ s vs =>
        match datasecFields g (fun t => writeType g names n k t) s 0#32 vs with
        | .error e => .error e
        | .ok fs => .ok (.struct fs)
      | .var _ t' _ _ => writeTypeLit g names n k t'
      | _ => .error .notSupported

/-- btf/format.go:99-108 `writeType`. -/
def writeType (g : Graph R) (names : R → Bool) : Nat → Nat → R → Except GoErr (GoTy R)
  | 0, _, _ => .error .fuel
  | n + 1, k, t =>
    match skipQualifiers g t with
    | none => .error .notSupported
    | some u => if names u then .ok (.named u) else writeTypeLit g names n k u

/-- btf/format.go:248-298 `writeStructField`. -/
def writeStructField (g : Graph R) (names : R → Bool) : Nat → Nat → Member R → Except GoErr (GoFields R)
  | 0, _, _ => .error .fuel
  | n + 1, k, m =>
    if m.bitfieldSize ≠ 0#32 then .error .bitfield
    else if m.offset.toNat % 8 ≠ 0 then .error .offset
    else if m.name = [] then
      match g m.type with
      | .union _ size ms _ =>
        match ms with
        | [] => .error .emptyUnion
        | m0 :: _ =>
          match k with
          | 0 => .error .tooDeep
          | k + 1 =>
            match sizeof g m0.type with
            | .error _ => .error .size
            | .ok s0 =>
              match writeStructField g names n k m0 with
              | .error e => .error e
              | .ok f => .ok (f.append (goPadding (size - BitVec.ofNat 32 s0)))
      | _ => .error .anonymous
    else match writeType g names n k m.type with
      | .error e => .error e
      | .ok gt => .ok (.cons (some m.name) gt .nil)
end

/-- btf/format.go:61-73 `writeTypeDecl`: the type of the declaration. -/
def writeTypeDecl (g : Graph R) (names : R → Bool) (t : R) : Except GoErr (GoTy R) :=
  match skipQualifiers g t with
  | none => .error .notSupported
  | some u => writeTypeLit g names 100 maxResolveDepth u

/-- btf/format.go:75-92: the constants written for an enum. -/
def enumConsts (signed : Bool) (vs : List EnumValue) : List (Bytes × Int) :=
  vs.map fun v => (v.name, if signed then v.value.toInt else (v.value.toNat : Int))

end Ebpf.Btf
