import Verif.Model.BtfTypes
import Verif.Model.BtfHeader
import Verif.Model.BtfStrings
/-!
# Model of `btf/unmarshal.go`, `btf/btf_types.go:94-143` and `btf/btf.go:195-238`

A decoder without base (split BTF is not modelled). The heap of Go objects is explicit: every inflated type is an object with an
address, `types` maps type IDs to addresses. Address 0 is Void; it also stands for a reference that has not been filled in (nil).
The reverse index `typeIDs` is not modelled, neither is the mutex: calls are serialised by it.
-/
namespace Ebpf.Btf

/-- Type IDs are `uint32`. -/
abbrev ID := BitVec 32

/-- What the part of `inflateType` between btf/unmarshal.go:389 and 619 does for one type: the object stored before references are resolved, the
IDs passed to `fixup` in order, and the finished struct (`none` = an error, raised after the `fixup`s listed). -/
structure Rec where
  early : Node Nat
  fix : List ID
  node : Option (Node ID)

/-- btf/unmarshal.go:313-356 `convertMembers`: the IDs fixed up and the members. `legacy` is `d.legacyBitfields` as it is after
the type of the member was inflated. -/
def parseMembers (bo : ByteOrder) (look : BitVec 32 → Option Bytes) (legacy : ID → Option (BitVec 32 × BitVec 32)) (bitfield : Bool) :
    Nat → Bytes → List ID × Option (List (Member ID))
  | 0, _ => ([], some [])
  | n + 1, b =>
    match take32 bo b with
    | none => ([], none)
    | some (nameOff, b) =>
      match take32 bo b with
      | none => ([], none)
      | some (ty, b) =>
        match take32 bo b with
        | none => ([], none)
        | some (off, b) =>
          match look nameOff with
          | none => ([], none)
          | some name =>
            let m : Member ID :=
              if bitfield then ⟨name, ty, off &&& 0xffffff, off >>> 24, []⟩
              else match legacy ty with
                | some (o, s) => ⟨name, ty, off + o, s, []⟩
                | none => ⟨name, ty, off, 0, []⟩
            (ty :: (parseMembers bo look legacy bitfield n b).1, (parseMembers bo look legacy bitfield n b).2.map (m :: ·))

/-- btf/unmarshal.go:445-465: values of an enum. -/
def parseEnumValues (bo : ByteOrder) (look : BitVec 32 → Option Bytes) (signed : Bool) : Nat → Bytes → Option (List EnumValue)
  | 0, _ => some []
  | n + 1, b =>
    match take32 bo b with
    | none => none
    | some (nameOff, b) =>
      match take32 bo b with
      | none => none
      | some (val, b) =>
        match look nameOff with
        | none => none
        | some name =>
          (parseEnumValues bo look signed n b).map (⟨name, if signed then val.signExtend 64 else val.setWidth 64⟩ :: ·)

/-- btf/unmarshal.go:600-615: values of a 64-bit enum. -/
def parseEnum64Values (bo : ByteOrder) (look : BitVec 32 → Option Bytes) : Nat → Bytes → Option (List EnumValue)
  | 0, _ => some []
  | n + 1, b =>
    match take32 bo b with
    | none => none
    | some (nameOff, b) =>
      match take32 bo b with
      | none => none
      | some (lo, b) =>
        match take32 bo b with
        | none => none
        | some (hi, b) =>
          match look nameOff with
          | none => none
          | some name =>
            (parseEnum64Values bo look n b).map (⟨name, (hi.setWidth 64 <<< 32) ||| lo.setWidth 64⟩ :: ·)

/-- btf/unmarshal.go:510-527: parameters of a prototype. -/
def parseParams (bo : ByteOrder) (look : BitVec 32 → Option Bytes) : Nat → Bytes → List ID × Option (List (FuncParam ID))
  | 0, _ => ([], some [])
  | n + 1, b =>
    match take32 bo b with
    | none => ([], none)
    | some (nameOff, b) =>
      match take32 bo b with
      | none => ([], none)
      | some (ty, b) =>
        match look nameOff with
        | none => ([], none)
        | some name =>
          (ty :: (parseParams bo look n b).1, (parseParams bo look n b).2.map (⟨name, ty⟩ :: ·))

/-- btf/unmarshal.go:548-564: variables of a datasec. -/
def parseSecinfos (bo : ByteOrder) : Nat → Bytes → List ID × Option (List (VarSecinfo ID))
  | 0, _ => ([], some [])
  | n + 1, b =>
    match take32 bo b with
    | none => ([], none)
    | some (ty, b) =>
      match take32 bo b with
      | none => ([], none)
      | some (off, b) =>
        match take32 bo b with
        | none => ([], none)
        | some (size, b) =>
          (ty :: (parseSecinfos bo n b).1, (parseSecinfos bo n b).2.map (⟨ty, off, size⟩ :: ·))

/-- btf/unmarshal.go:395-397: does an integer describe a legacy bitfield? -/
def legacyInt (size raw : BitVec 32) : Option (BitVec 32 × BitVec 32) :=
  if intOffset raw > 0 ∨ intBits raw / 8 ≠ size then some (intOffset raw, intBits raw) else none

/-- btf/unmarshal.go:389-619: one type, given its header, name and the bytes following the header; `none` = an error before anything is stored. -/
def parseKind (bo : ByteOrder) (look : BitVec 32 → Option Bytes) (legacy : ID → Option (BitVec 32 × BitVec 32))
    (h : BtfType) (name : Bytes) (b : Bytes) : Option Rec :=
  match h.kind.toNat with
  | 1 =>
    match take32 bo b with
    | none => none
    | some (raw, _) =>
      some ⟨.int name h.sizeType ((intEncoding raw).setWidth 8), [], some (.int name h.sizeType ((intEncoding raw).setWidth 8))⟩
  | 2 => some ⟨.ptr 0, [h.sizeType], some (.ptr h.sizeType)⟩
  | 3 =>
    match take32 bo b with
    | none => none
    | some (ty, b) =>
      match take32 bo b with
      | none => none
      | some (idx, b) =>
        match take32 bo b with
        | none => none
        | some (n, _) => some ⟨.array 0 0 n, [idx, ty], some (.array idx ty n)⟩
  | 4 =>
    some ⟨.struct name h.sizeType [] [], (parseMembers bo look legacy h.kflag h.vlen b).1,
      (parseMembers bo look legacy h.kflag h.vlen b).2.map fun ms => .struct name h.sizeType ms []⟩
  | 5 =>
    some ⟨.union name h.sizeType [] [], (parseMembers bo look legacy h.kflag h.vlen b).1,
      (parseMembers bo look legacy h.kflag h.vlen b).2.map fun ms => .union name h.sizeType ms []⟩
  | 6 =>
    some ⟨.enum name h.sizeType h.kflag [], [],
      (parseEnumValues bo look h.kflag h.vlen b).map fun vs => .enum name h.sizeType h.kflag vs⟩
  | 7 => some ⟨.fwd name h.fwdKind.toNat, [], some (.fwd name h.fwdKind.toNat)⟩
  | 8 => some ⟨.typedef name 0 [], [h.sizeType], some (.typedef name h.sizeType [])⟩
  | 9 => some ⟨.volatile 0, [h.sizeType], some (.volatile h.sizeType)⟩
  | 10 => some ⟨.const 0, [h.sizeType], some (.const h.sizeType)⟩
  | 11 => some ⟨.restrict 0, [h.sizeType], some (.restrict h.sizeType)⟩
  | 12 => some ⟨.func name 0 h.linkage.toNat [] [], [h.sizeType], some (.func name h.sizeType h.linkage.toNat [] [])⟩
  | 13 =>
    -- the return type is fixed up after the parameters, btf/unmarshal.go:529
    some ⟨.funcProto 0 [],
      (match (parseParams bo look h.vlen b).2 with
        | none => (parseParams bo look h.vlen b).1
        | some _ => (parseParams bo look h.vlen b).1 ++ [h.sizeType]),
      (parseParams bo look h.vlen b).2.map fun ps => .funcProto h.sizeType ps⟩
  | 14 =>
    match take32 bo b with
    | none => none
    | some (l, _) => some ⟨.var name 0 l.toNat [], [h.sizeType], some (.var name h.sizeType l.toNat [])⟩
  | 15 =>
    some ⟨.datasec name h.sizeType [], (parseSecinfos bo h.vlen b).1,
      (parseSecinfos bo h.vlen b).2.map fun vs => .datasec name h.sizeType vs⟩
  | 16 => some ⟨.float name h.sizeType, [], some (.float name h.sizeType)⟩
  | 17 =>
    match take32 bo b with
    | none => none
    | some (i, _) => some ⟨.declTag 0 name i.toInt, [h.sizeType], some (.declTag h.sizeType name i.toInt)⟩
  | 18 => some ⟨.typeTag 0 name, [h.sizeType], some (.typeTag h.sizeType name)⟩
  | 19 =>
    some ⟨.enum name h.sizeType h.kflag [], [],
      (parseEnum64Values bo look h.vlen b).map fun vs => .enum name h.sizeType h.kflag vs⟩
  | _ => none

/-- btf/unmarshal.go:25-46 `decoder`: the immutable part. `offsets` does not contain the sentinel for Void. -/
structure Dec where
  bo : ByteOrder
  raw : Bytes
  strings : StrTab
  offsets : List Nat
  declTags : List (ID × ID)

/-- btf/unmarshal.go:146-173 `allBtfTypeOffsets`: offset and header of each type; `none` = error. -/
def allOffsets (bo : ByteOrder) (buf : Bytes) : Nat → Nat → Option (List (Nat × BtfType))
  | 0, off => if off < buf.length then none else some []
  | fuel + 1, off =>
    if off < buf.length then
      match unmarshalBtfType bo (buf.drop off) with
      | none => none
      | some (h, _) =>
        match h.dataLen with
        | none => none
        | some n =>
          if off + 12 + n > buf.length then none
          else match allOffsets bo buf fuel (off + 12 + n) with
            | none => none
            | some rest => some ((off, h) :: rest)
    else some []

/-- btf/unmarshal.go:93-125: the second pass, numbering types from `id`; `none` = error. The index of names is modelled separately. -/
def numberTypes (st : StrTab) : ID → List (Nat × BtfType) → Option (List Nat × List (ID × ID))
  | _, [] => some ([], [])
  | id, (off, h) :: rest =>
    match st.lookup h.nameOff with
    | none => none
    | some _ =>
      match numberTypes st (id + 1) rest with
      | none => none
      | some (offs, tags) => some (off :: offs, if h.kind = kindDeclTag.setWidth 32 then (h.sizeType, id) :: tags else tags)

/-- btf/unmarshal.go:48-144 `newDecoder` without base. With 2^32 types the ID would wrap, which the Go code does not notice either, since `firstTypeID` is 0
(btf/unmarshal.go:95-97). -/
def newDecoder (raw : Bytes) (bo : ByteOrder) (st : StrTab) : Option Dec :=
  match allOffsets bo raw raw.length 0 with
  | none => none
  | some l =>
    match numberTypes st 1 l with
    | none => none
    | some (offs, tags) => some ⟨bo, raw, st, offs, tags⟩

/-- btf/unmarshal.go:358-382: header and following bytes of a type; `none` = error. -/
def Dec.rawAt (d : Dec) (id : ID) : Option (BtfType × Bytes) :=
  match d.offsets[id.toNat - 1]? with
  | none => none
  | some off => if off ≥ d.raw.length then none else unmarshalBtfType d.bo (d.raw.drop off)

/-- `d.legacyBitfields` after `id` has been inflated, btf/unmarshal.go:395-397. An integer has no references, so whenever the inflation of another type
consults the map for `id` (after inflating it), the entry is there iff the record says so. -/
def Dec.legacy (d : Dec) (id : ID) : Option (BitVec 32 × BitVec 32) :=
  if id = 0 then none
  else match d.rawAt id with
    | none => none
    | some (h, b) =>
      if h.kind.toNat = 1 then
        match take32 d.bo b with
        | none => none
        | some (raw, _) => legacyInt h.sizeType raw
      else none

/-- btf/unmarshal.go:358-619 for one ID. -/
def Dec.record (d : Dec) (id : ID) : Option Rec :=
  match d.rawAt id with
  | none => none
  | some (h, b) =>
    match d.strings.lookup h.nameOff with
    | none => none
    | some name => parseKind d.bo d.strings.lookup d.legacy h name b

/-- Addresses of the references, in the order of the `fixup`s, put into a struct. -/
def fill : Node ID → List Nat → Option (Node Nat)
  | .void, _ => some .void
  | .int n s e, _ => some (.int n s e)
  | .ptr _, [a] => some (.ptr a)
  | .array _ _ n, [i, t] => some (.array i t n)
  | .struct n s ms ts, as => some (.struct n s (ms.zipWith (fun m a => ⟨m.name, a, m.offset, m.bitfieldSize, m.tags⟩) as) ts)
  | .union n s ms ts, as => some (.union n s (ms.zipWith (fun m a => ⟨m.name, a, m.offset, m.bitfieldSize, m.tags⟩) as) ts)
  | .enum n s sg vs, _ => some (.enum n s sg vs)
  | .fwd n k, _ => some (.fwd n k)
  | .typedef n _ ts, [a] => some (.typedef n a ts)
  | .volatile _, [a] => some (.volatile a)
  | .const _, [a] => some (.const a)
  | .restrict _, [a] => some (.restrict a)
  | .func n _ l ts pts, [a] => some (.func n a l ts pts)
  | .funcProto _ ps, as => (as.getLast?).map fun r => .funcProto r (ps.zipWith (fun p a => ⟨p.name, a⟩) as)
  | .var n _ l ts, [a] => some (.var n a l ts)
  | .datasec n s vs, as => some (.datasec n s (vs.zipWith (fun v a => ⟨a, v.offset, v.size⟩) as))
  | .float n s, _ => some (.float n s)
  | .declTag _ v i, [a] => some (.declTag a v i)
  | .typeTag _ v, [a] => some (.typeTag a v)
  | .cycle _, _ => none
  | _, _ => none

/-- The mutable state: objects, and the map from IDs to (addresses of) objects. -/
structure DState where
  heap : List (Node Nat)
  types : List (ID × Nat)

/-- A fresh decoder: only Void exists. -/
def DState.init : DState := ⟨[.void], []⟩

/-- `delete(d.types, id)`. -/
def DState.delete (s : DState) (id : ID) : DState := { s with types := s.types.filter fun p => p.1 ≠ id }

/-- Assign to an object. -/
def DState.set (s : DState) (a : Nat) (n : Node Nat) : DState := { s with heap := s.heap.set a n }

/-- The calls of `fixup` in order, until the first failure. -/
def inflateAll (f : DState → ID → DState × Option Nat) : DState → List ID → DState × Option (List Nat)
  | s, [] => (s, some [])
  | s, id :: ids =>
    match f s id with
    | (s, none) => (s, none)
    | (s, some a) =>
      match inflateAll f s ids with
      | (s, none) => (s, none)
      | (s, some as) => (s, some (a :: as))

/-- btf/unmarshal.go:633-690: attach one tag to a type; `n` is the number of parameters if the type is a function referring to a prototype. -/
def applyTag {R : Type} (proto : Option Nat) (n : Node R) (v : Bytes) (idx : Int) : Option (Node R) :=
  match n with
  | .var nm t l ts => if idx ≠ -1 then none else some (.var nm t l (ts ++ [v]))
  | .typedef nm t ts => if idx ≠ -1 then none else some (.typedef nm t (ts ++ [v]))
  | .struct nm s ms ts =>
    if 0 ≤ idx then
      if idx.toNat ≥ ms.length then none
      else some (.struct nm s (ms.modify idx.toNat fun m => { m with tags := m.tags ++ [v] }) ts)
    else if idx = -1 then some (.struct nm s ms (ts ++ [v])) else none
  | .union nm s ms ts =>
    if 0 ≤ idx then
      if idx.toNat ≥ ms.length then none
      else some (.union nm s (ms.modify idx.toNat fun m => { m with tags := m.tags ++ [v] }) ts)
    else if idx = -1 then some (.union nm s ms (ts ++ [v])) else none
  | .func nm t l ts pts =>
    match proto with
    | none => none
    | some k =>
      let pts := if pts.length = 0 then List.replicate k [] else pts
      if 0 ≤ idx then
        -- the second disjunct is the index out of range panic, which is recovered as an error
        if idx.toNat ≥ k ∨ idx.toNat ≥ pts.length then none
        else some (.func nm t l ts (pts.modify idx.toNat fun l => l ++ [v]))
      else if idx = -1 then some (.func nm t l (ts ++ [v]) pts) else none
  | _ => none

/-- btf/unmarshal.go:666: `t.Type.(*FuncProto)` and its number of parameters, as of now. -/
def protoOf (s : DState) : Node Nat → Option Nat
  | .func _ t _ _ _ =>
    match s.heap[t]? with
    | some (.funcProto _ ps) => some ps.length
    | _ => none
  | _ => none

/-- btf/unmarshal.go:622-691: the loop over the tags of a type; `a` is its address. -/
def applyTags (f : DState → ID → DState × Option Nat) (a : Nat) : DState → List ID → DState × Bool
  | s, [] => (s, true)
  | s, tid :: tids =>
    match f s tid with
    | (s, none) => (s, false)
    | (s, some ta) =>
      match s.heap[ta]? with
      | some (.declTag _ v idx) =>
        match s.heap[a]? with
        | none => (s, false)
        | some n =>
          match applyTag (protoOf s n) n v idx with
          | none => (s, false)
          | some n' => applyTags f a (s.set a n') tids
      | _ => (s, false)

/-- IDs of the tags of a type, in order. -/
def Dec.tagsOf (d : Dec) (id : ID) : List ID := (d.declTags.filter fun p => p.1 = id).map (·.2)

/-- btf/unmarshal.go:272-694 `inflateType`: the new state and the address of the type, or `none` on error. `fuel` bounds the depth of the recursion. -/
def Dec.inflate (d : Dec) : Nat → DState → ID → DState × Option Nat
  | 0, s, _ => (s, none)
  | fuel + 1, s, id =>
    if id = 0 then (s, some 0)
    else match s.types.lookup id with
      | some a => (s, some a)
      | none =>
        match d.record id with
        | none => (s, none)
        | some r =>
          let a := s.heap.length
          match inflateAll (d.inflate fuel) ⟨s.heap ++ [r.early], (id, a) :: s.types⟩ r.fix with
          | (s, none) => (s.delete id, none)
          | (s, some as) =>
            match r.node.bind (fill · as) with
            | none => (s.delete id, none)
            | some n =>
              match applyTags (d.inflate fuel) a (s.set a n) (d.tagsOf id) with
              | (s, false) => (s.delete id, none)
              | (s, true) => (s, some a)

/-- A history of `TypeByID` calls. -/
def Dec.run (d : Dec) (fuel : Nat) : DState → List ID → DState × List (Option Nat)
  | s, [] => (s, [])
  | s, id :: ids => ((d.run fuel (d.inflate fuel s id).1 ids).1, (d.inflate fuel s id).2 :: (d.run fuel (d.inflate fuel s id).1 ids).2)

/-- btf/btf_types.go:77-87 `btfHeader`. -/
structure BtfHeader where
  magic : BitVec 16
  version : BitVec 8
  flags : BitVec 8
  hdrLen : BitVec 32
  typeOff : BitVec 32
  typeLen : BitVec 32
  stringOff : BitVec 32
  stringLen : BitVec 32
deriving DecidableEq

/-- `binary.Decode` of a `btfHeader`, and the rest. -/
def decodeHeader (bo : ByteOrder) : Bytes → Option (BtfHeader × Bytes)
  | m0 :: m1 :: v :: f :: b =>
    match take32 bo b with
    | none => none
    | some (hl, b) =>
      match take32 bo b with
      | none => none
      | some (t, b) =>
        match take32 bo b with
        | none => none
        | some (tl, b) =>
          match take32 bo b with
          | none => none
          | some (s, b) =>
            match take32 bo b with
            | none => none
            | some (sl, b) => some (⟨bo.get16 m0 m1, v, f, hl, t, tl, s, sl⟩, b)
  | _ => none

/-- btf/btf_types.go:94-143 `parseBTFHeader`, after the byte order was found. The layout is read only to be skipped. -/
def checkHeader (h : BtfHeader) (rest : Bytes) : Bool :=
  h.version == 1 && h.flags == 0 && decide (24 ≤ h.hdrLen.toNat) && decide (h.hdrLen.toNat - 24 ≤ rest.length) &&
  ((rest.take (h.hdrLen.toNat - 24)).drop (if 8 ≤ h.hdrLen.toNat - 24 then 8 else 0)).all (· == 0)

/-- btf/btf_types.go:94-143 `parseBTFHeader`. -/
def parseBTFHeader (buf : Bytes) : Option (BtfHeader × ByteOrder) :=
  match decodeHeader .little buf with
  | none => none
  | some (h, rest) =>
    if h.magic = 0xeb9f then
      if checkHeader h rest then some (h, .little) else none
    else match decodeHeader .big buf with
      | none => none
      | some (h, rest) =>
        if h.magic = 0xeb9f then
          if checkHeader h rest then some (h, .big) else none
        else none

/-- btf/btf.go:195-238 `loadRawSpec` without base. -/
def loadRawSpec (btf : Bytes) : Option Dec :=
  match parseBTFHeader btf with
  | none => none
  | some (h, bo) =>
    if h.hdrLen.toNat > btf.length then none
    else
      let b := btf.drop h.hdrLen.toNat
      if h.stringOff.toNat + h.stringLen.toNat > b.length then none
      else match newStringTable ((b.drop h.stringOff.toNat).take h.stringLen.toNat) none with
        | none => none
        | some st =>
          if h.typeOff.toNat + h.typeLen.toNat > b.length then none
          else newDecoder ((b.drop h.typeOff.toNat).take h.typeLen.toNat) bo st

end Ebpf.Btf
