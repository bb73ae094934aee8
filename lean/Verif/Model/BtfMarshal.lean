import Verif.Model.BtfTraversal
import Verif.Model.BtfHeader
import Verif.Model.BtfStrings
/-!
# Model of `btf/marshal.go`

`Builder` without deduplication. Slices of bytes are appended to as lists; the pending deque is a list (its model is `Ebpf.Deque`).
Go maps from types are association lists with at most one entry per key, searched by key only.
-/
namespace Ebpf.Btf
variable {R : Type}

/-- btf/marshal.go:16-30 `MarshalOptions` without the byte order. -/
structure Opts where
  stripFuncLinkage : Bool := false
  replaceDeclTags : Bool := false
  replaceTypeTags : Bool := false
  replaceEnum64 : Bool := false
  preventNoTypeFound : Bool := false

/-- "decl_tag_placeholder" -/
def declTagPlaceholder : Bytes := [0x64, 0x65, 0x63, 0x6c, 0x5f, 0x74, 0x61, 0x67, 0x5f, 0x70, 0x6c, 0x61, 0x63, 0x65, 0x68, 0x6f, 0x6c, 0x64, 0x65, 0x72]
/-- "enum64_placeholder" -/
def enum64Placeholder : Bytes := [0x65, 0x6e, 0x75, 0x6d, 0x36, 0x34, 0x5f, 0x70, 0x6c, 0x61, 0x63, 0x65, 0x68, 0x6f, 0x6c, 0x64, 0x65, 0x72]

/-- The struct behind a pointer met while marshalling. -/
def extGraph (g : Graph R) : Graph (TRef R)
  | .obj r => (g r).map .obj
  | .tag p v i _ => .declTag (.obj p) v i
  | .ph r =>
    -- btf/marshal.go:612-619
    match g r with
    | .enum _ s sg _ => .int enum64Placeholder s (if sg then 1 else 0)
    | _ => .void

section deflate
variable {T : Type}

/-- The result of deflating one type: header, data and string table. -/
abbrev Deflated := Option (BtfType × Bytes × Builder)

/-- btf/marshal.go:467-477 `deflateInt`. -/
def deflateInt (bo : ByteOrder) (raw : BtfType) (size : BitVec 32) (encoding : BitVec 8) : BtfType × Bytes :=
  ((raw.setKind kindInt).setSizeType size, bo.put32 (setIntBits (setIntEncoding 0 encoding) (size.setWidth 8 * 8)))

/-- btf/marshal.go:531-559 `deflateMembers`, the loop; `bf` is `isBitfield`. -/
def deflateMembers (bo : ByteOrder) (idOf : T → Option (BitVec 32)) : List (Member T) → Bool → Builder → Option (Bytes × Bool × Builder)
  | [], bf, sb => some ([], bf, sb)
  | m :: ms, bf, sb =>
    match sb.add m.name with
    | none => none
    | some (nameOff, sb) =>
      match idOf m.type with
      | none => none
      | some id =>
        match deflateMembers bo idOf ms (bf || m.bitfieldSize != 0) sb with
        | none => none
        | some (rest, bf', sb) =>
          some (bo.put32 nameOff ++ bo.put32 id ++
            bo.put32 (if bf || m.bitfieldSize != 0 then (m.bitfieldSize <<< 24) ||| (m.offset &&& 0xffffff) else m.offset) ++ rest, bf', sb)

/-- btf/marshal.go:377-383, 525-564: struct and union, with the whole of `deflateMembers`. -/
def deflateComposite (bo : ByteOrder) (idOf : T → Option (BitVec 32)) (raw : BtfType) (kind : BitVec 8) (size : BitVec 32)
    (ms : List (Member T)) (sb : Builder) : Deflated :=
  match deflateMembers bo idOf ms false sb with
  | none => none
  | some (data, bf, sb) => some ((((raw.setKind kind).setSizeType size).setVlen ms.length).setKflag bf, data, sb)

/-- btf/marshal.go:584-592: the range check. -/
def enumFits (signed : Bool) (v : BitVec 64) : Bool :=
  if signed then decide (-2147483648 ≤ v.toInt) && decide (v.toInt ≤ 2147483647) else decide (v.toNat ≤ 4294967295)

/-- btf/marshal.go:575-606 `deflateEnumValues`. -/
def deflateEnumValues (bo : ByteOrder) (signed : Bool) : List EnumValue → Builder → Option (Bytes × Builder)
  | [], sb => some ([], sb)
  | v :: vs, sb =>
    match sb.add v.name with
    | none => none
    | some (nameOff, sb) =>
      if !enumFits signed v.value then none
      else match deflateEnumValues bo signed vs sb with
        | none => none
        | some (rest, sb) => some (bo.put32 nameOff ++ bo.put32 (v.value.setWidth 32) ++ rest, sb)

/-- btf/marshal.go:642-664 `deflateEnum64Values`. -/
def deflateEnum64Values (bo : ByteOrder) : List EnumValue → Builder → Option (Bytes × Builder)
  | [], sb => some ([], sb)
  | v :: vs, sb =>
    match sb.add v.name with
    | none => none
    | some (nameOff, sb) =>
      match deflateEnum64Values bo vs sb with
      | none => none
      | some (rest, sb) =>
        some (bo.put32 nameOff ++ bo.put32 (v.value.setWidth 32) ++ bo.put32 ((v.value >>> 32).setWidth 32) ++ rest, sb)

/-- btf/marshal.go:666-686 `deflateFuncParams`. -/
def deflateFuncParams (bo : ByteOrder) (idOf : T → Option (BitVec 32)) : List (FuncParam T) → Builder → Option (Bytes × Builder)
  | [], sb => some ([], sb)
  | p :: ps, sb =>
    match sb.add p.name with
    | none => none
    | some (nameOff, sb) =>
      match idOf p.type with
      | none => none
      | some id =>
        match deflateFuncParams bo idOf ps sb with
        | none => none
        | some (rest, sb) => some (bo.put32 nameOff ++ bo.put32 id ++ rest, sb)

/-- btf/marshal.go:688-705 `deflateVarSecinfos`. -/
def deflateVarSecinfos (bo : ByteOrder) (idOf : T → Option (BitVec 32)) : List (VarSecinfo T) → Option Bytes
  | [] => some []
  | v :: vs =>
    match idOf v.type with
    | none => none
    | some id =>
      match deflateVarSecinfos bo idOf vs with
      | none => none
      | some rest => some (bo.put32 id ++ bo.put32 v.offset ++ bo.put32 v.size ++ rest)

/-- btf/marshal.go:371-373, 396-409, 506-509: kinds which consist of a header referring to one type. -/
def deflateRef (idOf : T → Option (BitVec 32)) (raw : BtfType) (kind : BitVec 8) (t : T) (sb : Builder) : Deflated :=
  match idOf t with
  | none => none
  | some id => some ((raw.setKind kind).setSizeType id, [], sb)

/-- btf/marshal.go:343-465 `deflateType` with 479-523 `deflateDeclTag`, `deflateConst`, `deflateTypeTag` and 566-640 `deflateEnum`, `deflateEnum64`: `none` = error. `idOf` is `encoder.id`, whose panics are turned into errors; `ph` is the pointer to the
placeholder of btf/marshal.go:612-622, whose ID has been allocated. -/
def deflateType (o : Opts) (bo : ByteOrder) (idOf : T → Option (BitVec 32)) (ph : T) (n : Node T) (sb : Builder) : Deflated :=
  match sb.add n.name with
  | none => none
  | some (nameOff, sb) =>
    let raw : BtfType := ⟨nameOff, 0, 0⟩
    match n with
    | .void => none
    | .cycle _ => none
    | .int _ size enc => some ((deflateInt bo raw size enc).1, (deflateInt bo raw size enc).2, sb)
    | .ptr t => deflateRef idOf raw kindPointer t sb
    | .array index type nelems =>
      match idOf type with
      | none => none
      | some tid =>
        match idOf index with
        | none => none
        | some iid => some (raw.setKind kindArray, bo.put32 tid ++ bo.put32 iid ++ bo.put32 nelems, sb)
    | .struct _ size ms _ => deflateComposite bo idOf raw kindStruct size ms sb
    | .union _ size ms _ => deflateComposite bo idOf raw kindUnion size ms sb
    | .enum _ size signed values =>
      if size = 8 then
        if o.replaceEnum64 then
          deflateComposite bo idOf raw kindUnion size (values.map fun v => ⟨v.name, ph, 0, 0, []⟩) sb
        else match deflateEnum64Values bo values sb with
          | none => none
          | some (data, sb) => some ((((raw.setKind kindEnum64).setSizeType size).setVlen values.length).setKflag signed, data, sb)
      else match deflateEnumValues bo signed values sb with
        | none => none
        | some (data, sb) =>
          some ((((raw.setKind kindEnum).setSizeType size).setVlen values.length).setKflag (signed && !o.replaceEnum64), data, sb)
    | .fwd _ kind => some ((raw.setKind kindForward).setFwdKind (BitVec.ofInt 32 kind), [], sb)
    | .typedef _ t _ => deflateRef idOf raw kindTypedef t sb
    | .volatile t => deflateRef idOf raw kindVolatile t sb
    | .const t => deflateRef idOf raw kindConst t sb
    | .restrict t => deflateRef idOf raw kindRestrict t sb
    | .func _ t linkage _ _ =>
      match idOf t with
      | none => none
      | some id =>
        let h := (raw.setKind kindFunc).setSizeType id
        some (if o.stripFuncLinkage then h else h.setLinkage (BitVec.ofInt 32 linkage), [], sb)
    | .funcProto ret params =>
      match idOf ret with
      | none => none
      | some id =>
        match deflateFuncParams bo idOf params sb with
        | none => none
        | some (data, sb) => some (((raw.setKind kindFuncProto).setSizeType id).setVlen params.length, data, sb)
    | .var _ t linkage _ =>
      match idOf t with
      | none => none
      | some id => some ((raw.setKind kindVar).setSizeType id, bo.put32 (BitVec.ofInt 32 linkage), sb)
    | .datasec _ size vars =>
      match deflateVarSecinfos bo idOf vars with
      | none => none
      | some data => some (((raw.setKind kindDatasec).setSizeType size).setVlen vars.length, data, sb)
    | .float _ size => some ((raw.setKind kindFloat).setSizeType size, [], sb)
    | .declTag t value index =>
      if o.replaceDeclTags then
        match sb.add declTagPlaceholder with
        | none => none
        | some (nameOff, sb) =>
          some ({ (deflateInt bo raw 1 0).1 with nameOff := nameOff }, (deflateInt bo raw 1 0).2, sb)
      else match idOf t with
        | none => none
        | some id =>
          match sb.add value with
          | none => none
          | some (nameOff, sb) =>
            some ({ (raw.setKind kindDeclTag).setSizeType id with nameOff := nameOff }, bo.put32 (BitVec.ofInt 32 index), sb)
    | .typeTag t value =>
      if o.replaceTypeTags then deflateRef idOf raw kindConst t sb
      else match idOf t with
        | none => none
        | some id =>
          match sb.add value with
          | none => none
          | some (nameOff, sb) => some ({ (raw.setKind kindTypeTag).setSizeType id with nameOff := nameOff }, [], sb)
end deflate

variable [DecidableEq R]

/-- btf/marshal.go:44-53 `encoder`. -/
structure Enc (R : Type) where
  pending : List (TRef R)
  strings : Builder
  ids : List (TRef R × BitVec 32)
  visited : List (TRef R)
  lastID : BitVec 32

/-- btf/marshal.go:284-301: the body of the loop of `allocateIDs`, over the types yielded by `postorder`. -/
def assignIDs (g : Graph R) : List (TRef R) → Enc R → Option (Enc R)
  | [], e => some e
  | t :: ts, e =>
    if extGraph g t = .void then assignIDs g ts e
    else if (e.ids.lookup t).isSome then assignIDs g ts e
    else if e.lastID + 1 < e.lastID then none
    else assignIDs g ts { e with pending := e.pending ++ [t], ids := (t, e.lastID + 1) :: e.ids, lastID := e.lastID + 1 }

/-- btf/marshal.go:283-304 `allocateIDs`. `fuel` bounds the depth of the traversal. -/
def allocateIDs (g : Graph R) (fuel : Nat) (root : TRef R) (e : Enc R) : Option (Enc R) :=
  match visit (children g) fuel root e.visited with
  | none => none
  | some (out, vis) => assignIDs g out { e with visited := vis }

/-- btf/marshal.go:307-318 `id`. -/
def Enc.id (g : Graph R) (e : Enc R) (t : TRef R) : Option (BitVec 32) :=
  if extGraph g t = .void then some 0 else e.ids.lookup t

/-- btf/marshal.go:608-623: a 64-bit enum which is replaced allocates a placeholder. In Go this happens within `deflateType`, after the
name of the enum was added to the string table. -/
def allocatePlaceholder (o : Opts) (g : Graph R) (fuel : Nat) (root : TRef R) (e : Enc R) : Option (Enc R) :=
  match root with
  | .obj r =>
    match g r with
    | .enum _ size _ _ => if size = 8 ∧ o.replaceEnum64 then allocateIDs g fuel (.ph r) e else some e
    | _ => some e
  | _ => some e

/-- The placeholder for the enum `t`; `t` itself where there is none. -/
def placeholderOf : TRef R → TRef R
  | .obj r => .ph r
  | t => t

/-- btf/marshal.go:320-341 `deflatePending`: the records written, with the type each one describes. `n` bounds the iterations. -/
def deflatePending (o : Opts) (bo : ByteOrder) (g : Graph R) (fuel : Nat) : Nat → Enc R → Option (List (TRef R × Bytes) × Enc R)
  | n, e =>
    match e.pending with
    | [] => some ([], e)
    | root :: pending =>
      match n with
      | 0 => none
      | n + 1 =>
        match allocateIDs g fuel root { e with pending := pending } with
        | none => none
        | some e =>
          match allocatePlaceholder o g fuel root e with
          | none => none
          | some e =>
            match deflateType o bo (e.id g) (placeholderOf root) (extGraph g root) e.strings with
            | none => none
            | some (raw, data, sb) =>
              match deflatePending o bo g fuel n { e with strings := sb } with
              | none => none
              | some (recs, e) => some ((root, raw.encode bo ++ data) :: recs, e)

/-- btf/marshal.go:74-83 `Builder`: explicitly added types and their IDs, strings. -/
structure TypeBuilder (R : Type) where
  types : List R
  stableIDs : List (R × BitVec 32)
  strings : Option Builder

/-- The zero value. -/
def TypeBuilder.empty : TypeBuilder R := ⟨[], [], none⟩

/-- btf/marshal.go:158-172, the end of `Add`. -/
def TypeBuilder.addOne (b : TypeBuilder R) (t : R) : Option (BitVec 32) × TypeBuilder R :=
  match b.stableIDs.lookup t with
  | some id => (some id, b)
  | none =>
    if (BitVec.ofNat 32 (b.types.length + 1)).toNat ≠ b.types.length + 1 then (none, { b with types := b.types ++ [t] })
    else (some (BitVec.ofNat 32 (b.types.length + 1)), { b with types := b.types ++ [t], stableIDs := (t, BitVec.ofNat 32 (b.types.length + 1)) :: b.stableIDs })

/-- btf/workarounds.go:7-29 `datasecResolveWorkaround`: the types added before a datasec. -/
def datasecQualified (g : Graph R) (vars : List (VarSecinfo R)) : List R :=
  vars.filterMap fun vsi =>
    match g vsi.type with
    | .var _ t _ _ =>
      match g t with
      | .typedef .. => some t
      | .volatile _ => some t
      | .const _ => some t
      | .restrict _ => some t
      | .typeTag .. => some t
      | _ => none
    | _ => none

/-- btf/workarounds.go:20: `Add` each of them, stopping at the first error. They are no datasecs, so `Add` amounts to `addOne`. -/
def TypeBuilder.addMany (b : TypeBuilder R) : List R → Bool × TypeBuilder R
  | [] => (true, b)
  | t :: ts =>
    match b.addOne t with
    | (none, b) => (false, b)
    | (some _, b) => b.addMany ts

/-- btf/marshal.go:131-172 `Builder.Add` without deduplication; types are not nil. -/
def TypeBuilder.add (g : Graph R) (b : TypeBuilder R) (t : R) : Option (BitVec 32) × TypeBuilder R :=
  match g t with
  | .void => (some 0, b)
  | .datasec _ _ vars =>
    match b.addMany (datasecQualified g vars) with
    | (false, b) => (none, b)
    | (true, b) => b.addOne t
  | _ => b.addOne t

/-- The encoder `Marshal` starts with, btf/marshal.go:192-235. `types` is the builder's list or the dummy type. -/
def initEnc (b : TypeBuilder R) (types : List R) : Enc R :=
  { pending := types.map .obj, strings := b.strings.getD Builder.new, ids := b.stableIDs.map fun p => (.obj p.1, p.2), visited := [],
    lastID := BitVec.ofNat 32 b.types.length }

/-- btf/btf_types.go:77-87 `btfHeader` as written by `Marshal`, btf/marshal.go:246-261. The magic is 0xeB9F. -/
def encodeBTFHeader (bo : ByteOrder) (typeLen stringLen : BitVec 32) : Bytes :=
  bo.put16 0xeb9f ++ [1, 0] ++ bo.put32 24 ++ bo.put32 0 ++ bo.put32 typeLen ++ bo.put32 typeLen ++ bo.put32 stringLen

/-- btf/marshal.go:191-267 `Marshal`, for a builder with at least one type, or no strings, or without `PreventNoTypeFound` (in the remaining
case a dummy type is written, see `dummy_written_twice`). `shuffle` is the iteration order of the map of strings.
The result is a fresh slice. -/
def marshal (o : Opts) (bo : ByteOrder) (g : Graph R) (fuel : Nat) (b : TypeBuilder R)
    (shuffle : List (Bytes × BitVec 32) → List (Bytes × BitVec 32)) : Option Bytes :=
  match deflatePending o bo g fuel fuel (initEnc b b.types) with
  | none => none
  | some (recs, e) =>
    let types := (recs.map (·.2)).flatten
    some (encodeBTFHeader bo (BitVec.ofNat 32 types.length) e.strings.length ++ types ++ encodeStrings e.strings.length (shuffle e.strings.strings))

end Ebpf.Btf
