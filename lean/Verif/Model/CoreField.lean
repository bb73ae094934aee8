import Verif.Model.CoreCompat
import Verif.Model.CoreFixup
import Verif.Model.BtfDatasec
/-!
# Model of field, enum and type relocations, `btf/core.go:358-910` and `btf/core.go:1011-1082`

Local and target types live in one graph. An accessor is given as its first index and the remaining ones
(`parseCOREAccessor` never returns an empty accessor, btf/core.go:584-603).
-/
namespace Ebpf.Btf
open Ebpf.Core (Kind Fixup)
variable {R : Type}

/-- btf/core.go:641-655 `coreField`. -/
structure CField (R : Type) where
  type : R
  offset : BitVec 32 := 0
  bitfieldOffset : BitVec 32 := 0
  bitfieldSize : BitVec 32 := 0
deriving DecidableEq

/-- `errImpossibleRelocation`, or any other error. -/
inductive FieldErr | impossible | other
deriving DecidableEq

/-- Types implementing `composite`, btf/types.go:279-290. -/
def isComposite (n : Node R) : Bool := n.members?.isSome

/-- Is the struct an `*Array`. -/
def isArray (n : Node R) : Bool := match n with | .array .. => true | _ => false

/-- Is the struct an `*Int`. -/
def isInt (n : Node R) : Bool := match n with | .int .. => true | _ => false

/-- btf/core.go:657-669 `adjustOffsetToNthElement`. -/
def CField.nth (g : Graph R) (f : CField R) (n : Nat) : Except FieldErr (CField R) :=
  if n = 0 then .ok f
  else match sizeof g f.type with
    | .error _ => .error .other
    | .ok size => .ok { f with offset := f.offset + BitVec.ofNat 32 n * BitVec.ofNat 32 size }

/-- btf/core.go:671-693 `adjustOffsetBits`. The fuel stands for the unbounded recursion of `alignof`. -/
def CField.adjustBits (g : Graph R) (fuel : Nat) (f : CField R) (offset : BitVec 32) : Except FieldErr (CField R) :=
  match alignof g fuel f.type with
  | .error _ => .error .other
  | .ok align =>
    let offsetBytes := offset / 8 / BitVec.ofNat 32 align * BitVec.ofNat 32 align
    .ok { f with bitfieldOffset := offset - offsetBytes * 8, offset := f.offset + offsetBytes }

/-- btf/core.go:695-708 `sizeBits`. `Bits(size * 8)` truncates to 32 bits. -/
def CField.sizeBits (g : Graph R) (f : CField R) : Except FieldErr (BitVec 32) :=
  if f.bitfieldSize ≠ 0 then .ok f.bitfieldSize
  else match sizeof g f.type with
    | .error _ => .error .other
    | .ok size => .ok (BitVec.ofNat 32 (size * 8))

/-- btf/core.go:1037-1079 `coreAreMembersCompatible`. -/
def membersCompatible (g : Graph R) (l t : R) : Except FieldErr Unit :=
  match underlyingType g l, underlyingType g t with
  | some u, some v =>
    if isComposite (g u) = true ∧ isComposite (g v) = true then .ok ()
    else if (g u).kindTag ≠ (g v).kindTag then .error .impossible
    else match g u with
      | .array .. => .ok ()
      | .ptr _ => .ok ()
      | .float .. => .ok ()
      | .int .. => .ok ()
      | .enum .. => if namesMatch (g u).name (g v).name then .ok () else .error .impossible
      | .fwd .. => if namesMatch (g u).name (g v).name then .ok () else .error .impossible
      | _ => .error .other
  | none, none => .error .other
  | _, _ => .error .impossible

/-- The result of looking at the members of one composite: found, an error, or the anonymous composites inside. -/
inductive Scan (R : Type)
  | found (m : Member R) (last : Bool)
  | bad
  | more (cs : List (R × BitVec 32))

/-- btf/core.go:869-892: the loop over the members of a composite at offset `off`. -/
def scanMembers (g : Graph R) (name : Bytes) (off : BitVec 32) : List (Member R) → Scan R
  | [] => .more []
  | m :: ms =>
    if m.name = name then .found { m with offset := m.offset + off } ms.isEmpty
    else if m.name ≠ [] then scanMembers g name off ms
    else match asType g isComposite m.type with
      | none => .bad
      | some c =>
        match scanMembers g name off ms with
        | .more cs => .more ((c, off + m.offset) :: cs)
        | r => r

section
variable [DecidableEq R]

/-- btf/core.go:852-895: the loop over the targets, `k` = how many more composites may be visited. -/
def findLoop (g : Graph R) (name : Bytes) : Nat → List (R × BitVec 32) → List (R × BitVec 32) → Except FieldErr (Member R × Bool)
  | k, vis, q =>
    match q.dropWhile (· ∈ vis) with
    | [] => .error .impossible
    | t :: q =>
      match k with
      | 0 => .error .other
      | k + 1 =>
        match scanMembers g name t.2 ((g t.1).members?.getD []) with
        | .found m last => .ok (m, last)
        | .bad => .error .other
        | .more cs => findLoop g name k (t :: vis) (q ++ cs)

/-- btf/core.go:837-898 `coreFindMember`. -/
def findMember (g : Graph R) (c : R) (name : Bytes) : Except FieldErr (Member R × Bool) :=
  if name = [] then .error .other else findLoop g name maxResolveDepth [] [(c, 0)]

/-- The loop variables of `coreFindField`. -/
structure FindState (R : Type) where
  loc : CField R
  target : CField R
  localFlex : Bool := false
  targetFlex : Bool := false
deriving DecidableEq

/-- btf/core.go:739-828: one iteration; `more` = there are further accessors. The flag in the result is `continue`: the
compatibility check is skipped. -/
def fieldStep (g : Graph R) (fuel : Nat) (st : FindState R) (acc : Nat) (more : Bool) : Except FieldErr (FindState R × Bool) :=
  match underlyingType g st.loc.type with
  | none => .error .other
  | some u =>
    match g u with
    | .array _ le ln =>
      match asType g isArray st.target.type with
      | none => .error .impossible
      | some a =>
        match g a with
        | .array _ te tn =>
          if ln = 0 ∧ st.localFlex = false then .error .other
          else if tn = 0 ∧ st.targetFlex = false then .error .other
          else if ln ≠ 0 ∧ ln.toNat ≤ acc then .error .other
          else if tn ≠ 0 ∧ tn.toNat ≤ acc then .error .impossible
          else match CField.nth g { type := le, offset := st.loc.offset } acc with
            | .error e => .error e
            | .ok l =>
              match CField.nth g { type := te, offset := st.target.offset } acc with
              | .error e => .error e
              | .ok t => .ok ({ loc := l, target := t }, false)
        | _ => .error .impossible
    | nd =>
      match nd.members? with
      | none => .error .other
      | some ms =>
        match ms[acc]? with
        | none => .error .other
        | some m =>
          if m.name = [] then
            match asType g isComposite m.type with
            | none => .error .other
            | some c => .ok ({ st with loc := { type := c, offset := st.loc.offset + m.offset / 8 }, localFlex := false }, true)
          else match asType g isComposite st.target.type with
            | none => .error .impossible
            | some c =>
              match findMember g c m.name with
              | .error e => .error e
              | .ok (tm, last) =>
                let l : CField R := { type := m.type, offset := st.loc.offset, bitfieldSize := m.bitfieldSize }
                let t : CField R := { type := tm.type, offset := st.target.offset, bitfieldSize := tm.bitfieldSize }
                let lflex := acc + 1 == ms.length
                if l.bitfieldSize = 0 ∧ t.bitfieldSize = 0 then
                  .ok (⟨{ l with offset := l.offset + m.offset / 8 }, { t with offset := t.offset + tm.offset / 8 }, lflex, last⟩, false)
                else if more then .error .other
                else match l.adjustBits g fuel m.offset with
                  | .error e => .error e
                  | .ok l =>
                    match t.adjustBits g fuel tm.offset with
                    | .error e => .error e
                    | .ok t => .ok (⟨l, t, lflex, last⟩, false)

/-- btf/core.go:738-832: the loop over the remaining accessors. -/
def fieldLoop (g : Graph R) (fuel : Nat) : List Nat → FindState R → Except FieldErr (CField R × CField R)
  | [], st => .ok (st.loc, st.target)
  | acc :: accs, st =>
    match fieldStep g fuel st acc (!accs.isEmpty) with
    | .error e => .error e
    | .ok (st, skip) =>
      if skip then fieldLoop g fuel accs st
      else match membersCompatible g st.loc.type st.target.type with
        | .error e => .error e
        | .ok () => fieldLoop g fuel accs st

/-- btf/core.go:715-833 `coreFindField`. -/
def findField (g : Graph R) (fuel : Nat) (localT : R) (acc : Nat) (accs : List Nat) (targetT : R) : Except FieldErr (CField R × CField R) :=
  match membersCompatible g localT targetT with
  | .error e => .error e
  | .ok () =>
    match CField.nth g { type := localT } acc with
    | .error e => .error e
    | .ok l =>
      match CField.nth g { type := targetT } acc with
      | .error e => .error e
      | .ok t => fieldLoop g fuel accs { loc := l, target := t }

end

/-- Is the struct an `*Enum`. -/
def isEnum (n : Node R) : Bool := match n with | .enum .. => true | _ => false

/-- The values of an enum. -/
def Node.values : Node R → List EnumValue
  | .enum _ _ _ vs => vs
  | _ => []

/-- btf/core.go:901-926 `coreFindEnumValue` with `coreAccessor.enumValue`, btf/core.go:613-629. -/
def findEnumValue (g : Graph R) (l : R) (acc : Nat) (accs : List Nat) (t : R) : Except FieldErr (EnumValue × EnumValue) :=
  match asType g isEnum l with
  | none => .error .other
  | some e =>
    if accs ≠ [] then .error .other
    else match (g e).values[acc]? with
      | none => .error .other
      | some lv =>
        match asType g isEnum t with
        | none => .error .impossible
        | some te =>
          match (g te).values.find? (fun tv => newEssentialName tv.name = newEssentialName lv.name) with
          | some tv => .ok (lv, tv)
          | none => .error .impossible

/-- btf/core.go:172-180 `CORERelocation`: type, accessor, kind and type ID. -/
structure Relo (R : Type) where
  typ : R
  acc : Nat
  accs : List Nat
  kind : Kind
  id : BitVec 32

/-- The result of resolving the ID of a target type. -/
inductive IDResult | id (n : BitVec 32) | notFound | fail

/-- btf/core.go:506-513 `boolToUint64`. -/
def b2u (b : Bool) : BitVec 64 := if b then 1 else 0

/-- btf/core.go:369-374 `poison`. -/
def poison (k : Kind) : Fixup := if k.checksForExistence then ⟨k, 1, 0, false, false⟩ else ⟨k, 0, 0, true, false⟩

/-- btf/core.go:460-474: the left shift. `Bits` are 32 bits wide, `loadWidth*8` is an `int`. -/
def lshiftOf (g : Graph R) (le : Bool) (f : CField R) : Except FieldErr (BitVec 64) :=
  if le then
    match f.sizeBits g with
    | .error e => .error e
    | .ok size => .ok ((64 - f.bitfieldOffset - size).setWidth 64)
  else
    match sizeof g f.type with
    | .error _ => .error .other
    | .ok width => .ok ((64 - BitVec.ofNat 32 (width * 8) + f.bitfieldOffset).setWidth 64)

/-- btf/core.go:476-483: the right shift. -/
def rshiftOf (g : Graph R) (f : CField R) : Except FieldErr (BitVec 64) :=
  match f.sizeBits g with
  | .error e => .error e
  | .ok size => .ok ((64 - size).setWidth 64)

/-- btf/core.go:484-503: signedness of the local and the target field. -/
def signedOf (g : Graph R) (l t : CField R) : Except FieldErr (BitVec 64 × BitVec 64) :=
  match underlyingType g l.type with
  | none => .error .other
  | some u =>
    match g u with
    | .enum _ _ sg _ =>
      match asType g isEnum t.type with
      | none => .error .other
      | some v => match g v with
        | .enum _ _ sg' _ => .ok (b2u sg, b2u sg')
        | _ => .error .other
    | .int _ _ enc =>
      match asType g isInt t.type with
      | none => .error .other
      | some v => match g v with
        | .int _ _ enc' => .ok ((enc &&& 1).setWidth 64, (enc' &&& 1).setWidth 64)
        | _ => .error .other
    | _ => .error .other

section
variable [DecidableEq R]

/-- btf/core.go:426-504: the field relocations, once the fields are known. -/
def fieldFixup (g : Graph R) (le : Bool) (k : Kind) (l t : CField R) : Except FieldErr Fixup :=
  match k with
  | .fieldExists => .ok ⟨k, 1, 1, false, false⟩
  | .byteOffset => .ok ⟨k, l.offset.setWidth 64, t.offset.setWidth 64, false, l.bitfieldSize != 0⟩
  | .byteSize =>
    match sizeof g l.type, sizeof g t.type with
    | .ok a, .ok b => .ok ⟨k, BitVec.ofNat 64 a, BitVec.ofNat 64 b, false, l.bitfieldSize != 0⟩
    | _, _ => .error .other
  | .lshift => match lshiftOf g le t with
    | .error e => .error e
    | .ok n => .ok ⟨k, 0, n, false, true⟩
  | .rshift => match rshiftOf g t with
    | .error e => .error e
    | .ok n => .ok ⟨k, 0, n, false, true⟩
  | .signed => match signedOf g l t with
    | .error e => .error e
    | .ok (a, b) => .ok ⟨k, a, b, false, false⟩
  | _ => .error .other

/-- btf/core.go:361-504 `coreCalculateFixup`. `le`: the byte order is little endian; `resolve`: the type ID of a target. `none` =
the fuel of the compatibility checks ran out (it doesn't on finite graphs, see `compatible_terminates`). -/
def calculateFixup (g : Graph R) (fuel : Nat) (le : Bool) (resolve : R → IDResult) (relo : Relo R) (target : R) :
    Option (Except FieldErr Fixup) :=
  let k := relo.kind
  let ok (a b : BitVec 64) : Option (Except FieldErr Fixup) := some (.ok ⟨k, a, b, false, false⟩)
  let afterCompat : Option (Except FieldErr Fixup) :=
    match k with
    | .typeExists => ok 1 1
    | .typeIDTarget =>
      match resolve target with
      | .notFound => some (.ok (poison k))
      | .fail => some (.error .other)
      | .id n => ok (relo.id.setWidth 64) (n.setWidth 64)
    | _ =>
      match sizeof g relo.typ, sizeof g target with
      | .ok a, .ok b => ok (BitVec.ofNat 64 a) (BitVec.ofNat 64 b)
      | _, _ => some (.error .other)
  let typeBased (check : Verdict R) (next : Option (Except FieldErr Fixup)) : Option (Except FieldErr Fixup) :=
    if relo.accs ≠ [] ∨ relo.acc ≠ 0 then some (.error .other)
    else match check with
      | none => none
      | some (.ok (), _) => next
      | some (.error .incompatible, _) => some (.ok (poison k))
      | some (.error .unsupported, _) => some (.error .other)
  match k with
  | .typeMatches => typeBased (typesMatch g fuel relo.typ target []) (ok 1 1)
  | .typeIDTarget => typeBased (compatible g fuel relo.typ target []) afterCompat
  | .typeSize => typeBased (compatible g fuel relo.typ target []) afterCompat
  | .typeExists => typeBased (compatible g fuel relo.typ target []) afterCompat
  | .enumvalValue =>
    match findEnumValue g relo.typ relo.acc relo.accs target with
    | .error .impossible => some (.ok (poison k))
    | .error e => some (.error e)
    | .ok (lv, tv) => ok lv.value tv.value
  | .enumvalExists =>
    match findEnumValue g relo.typ relo.acc relo.accs target with
    | .error .impossible => some (.ok (poison k))
    | .error e => some (.error e)
    | .ok _ => ok 1 1
  | .typeIDLocal => some (.error .other)
  | .other _ => some (.error .other)
  | _ =>
    if (asType g (fun n => match n with | .fwd .. => true | _ => false) target).isSome then some (.ok (poison k))
    else match findField g fuel relo.typ relo.acc relo.accs target with
      | .error .impossible => some (.ok (poison k))
      | .error e => some (.error e)
      | .ok (l, t) => some (fieldFixup g le k l t)

end

end Ebpf.Btf
