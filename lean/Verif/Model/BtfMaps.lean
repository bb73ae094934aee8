import Verif.Model.BtfTypes
/-!
# Model of `elf_reader.go:985-1292`: map definitions in BTF

`R` is the type of pointers to types, as in Model/BtfTypes. The ELF section is given by its alignment and its relocations (offset to symbol).
`Tags`, error texts and the unused argument `spec` are dropped.
-/
namespace Ebpf.BtfMap
open Ebpf.Btf
variable {R : Type}

/-- The members a definition may have, elf_reader.go:998-1148. -/
inductive Field where
  | type | mapFlags | maxEntries | key | value | keySize | valueSize | pinning | values | mapExtra
deriving DecidableEq, Repr

/-- Their names, elf_reader.go:999-1144. -/
def fieldName : Field → List Char
  | .type => ['t', 'y', 'p', 'e']
  | .mapFlags => ['m', 'a', 'p', '_', 'f', 'l', 'a', 'g', 's']
  | .maxEntries => ['m', 'a', 'x', '_', 'e', 'n', 't', 'r', 'i', 'e', 's']
  | .key => ['k', 'e', 'y']
  | .value => ['v', 'a', 'l', 'u', 'e']
  | .keySize => ['k', 'e', 'y', '_', 's', 'i', 'z', 'e']
  | .valueSize => ['v', 'a', 'l', 'u', 'e', '_', 's', 'i', 'z', 'e']
  | .pinning => ['p', 'i', 'n', 'n', 'i', 'n', 'g']
  | .values => ['v', 'a', 'l', 'u', 'e', 's']
  | .mapExtra => ['m', 'a', 'p', '_', 'e', 'x', 't', 'r', 'a']

/-- A string constant as bytes (all names above are ASCII). -/
def ascii (s : List Char) : Bytes := s.map fun c => BitVec.ofNat 8 c.toNat

/-- The `switch` over names, elf_reader.go:998. -/
def fieldOf (name : Bytes) : Option Field :=
  [Field.type, .mapFlags, .maxEntries, .key, .value, .keySize, .valueSize, .pinning, .values, .mapExtra].find? fun f => ascii (fieldName f) = name

/-- Why a definition is rejected. -/
inductive Err where
  | unrecognized | notUint | bothSizes | notPointer | noSize | innerPinned | valuesNotLast | valuesSize | notArrayOfPointers | notOuter | nested
  | notProgArray | valuesType | offset | align | relocation
deriving DecidableEq, Repr

/-- elf_reader.go:1192-1211 `uintFromBTF`. -/
def uintFromBTF (g : Graph R) (t : R) : Except Err (BitVec 64) :=
  match g t with
  | .ptr a =>
    match g a with
    | .array _ _ n => .ok (n.setWidth 64)
    | _ => .error .notUint
  | .enum _ _ _ vs =>
    match vs with
    | [] => .error .notUint
    | v :: _ => .ok v.value
  | _ => .error .notUint

/-- elf_reader.go:1216-1228 `resolveBTFArrayMacro`. -/
def resolveBTFArrayMacro (g : Graph R) (t : R) : Except Err R :=
  match g t with
  | .array _ e _ =>
    match g e with
    | .ptr p => .ok p
    | _ => .error .notArrayOfPointers
  | _ => .error .notArrayOfPointers

/-- The symbol a relocation refers to: its name, and is it `STT_FUNC` or `STT_OBJECT`. -/
structure RelSym where
  name : Bytes
  known : Bool
deriving DecidableEq, Repr

/-- What is used of the section and of the symbol of the map: `Addralign`, `relocations`, `Value`, `Size`. -/
structure Place where
  align : BitVec 64
  relocations : BitVec 64 → Option RelSym
  symValue : BitVec 64
  symSize : BitVec 64

/-- elf_reader.go:1234-1272, 1287-1298: the loop of `resolveBTFValuesContents` over `valuesRelocations`, from index `i` on. -/
def contentsLoop (p : Place) (start : BitVec 64) : Nat → Nat → Except Err (List (Nat × Bytes))
  | 0, _ => .ok []
  | n + 1, i =>
    match p.relocations (start + BitVec.ofNat 64 i * p.align) with
    | none => contentsLoop p start n (i + 1)
    | some r =>
      if !r.known then .error .relocation
      else match contentsLoop p start n (i + 1) with
        | .error e => .error e
        | .ok l => .ok ((i, r.name) :: l)

/-- elf_reader.go:1277-1301 `resolveBTFValuesContents`; offset is `member.Offset`, in bits. -/
def resolveBTFValuesContents (p : Place) (offset : BitVec 32) : Except Err (List (Nat × Bytes)) :=
  let bytes := BitVec.ofNat 32 (offset.toNat / 8)
  if (p.symSize.setWidth 32).toNat < bytes.toNat then .error .offset
  else if p.align = 0#64 then .error .align
  else
    let start := p.symValue + bytes.setWidth 64
    let stop := p.symValue + p.symSize
    let elems := (stop - start).toNat / p.align.toNat
    contentsLoop p start (elems % 2 ^ 32) 0

/-- elf_reader.go:986-996: the variables of `mapSpecFromBTF`; also the resulting `MapSpec`. `inner` is the `InnerMap`. -/
structure State (R I : Type) where
  key : Option R
  value : Option R
  keySize : BitVec 64
  valueSize : BitVec 64
  mapType : BitVec 32
  flags : BitVec 64
  maxEntries : BitVec 64
  pinType : BitVec 32
  mapExtra : BitVec 64
  inner : Option I
  contents : List (Nat × Bytes)

/-- elf_reader.go:986-996. -/
def State.init {I : Type} : State R I := ⟨none, none, 0#64, 0#64, 0#32, 0#64, 0#64, 0#32, 0#64, none, []⟩

/-- elf_reader.go:1010-1025, 1027-1042: size and target of `key` and `value`. -/
def pointee (g : Graph R) (t : R) : Except Err (R × BitVec 64) :=
  match g t with
  | .ptr a =>
    match sizeof g a with
    | .error _ => .error .noSize
    | .ok n => .ok (a, BitVec.ofNat 64 n)
  | _ => .error .notPointer

/-- elf_reader.go:1081-1142: the member `values`, after the check that it is last. `resolveInner` is the recursive call for an inner map. -/
def stepValues {I : Type} (g : Graph R) (p : Place) (inner : Bool) (resolveInner : R → Except Err I) (st : State R I) (m : Member R) : Except Err (State R I) :=
  if st.valueSize ≠ 0#64 ∧ st.valueSize ≠ 4#64 then .error .valuesSize
  else match resolveBTFArrayMacro g m.type with
    | .error e => .error e
    | .ok t =>
      let withContents (st : State R I) : Except Err (State R I) :=
        match resolveBTFValuesContents p m.offset with
        | .error e => .error e
        | .ok c => .ok { st with valueSize := 4#64, contents := c }
      match g t with
      | .struct _ _ _ _ =>
        if st.mapType ≠ 12#32 ∧ st.mapType ≠ 13#32 then .error .notOuter
        else if inner then .error .nested
        else match resolveInner t with
          | .error e => .error e
          | .ok i => withContents { st with inner := some i }
      | .funcProto _ _ => if st.mapType ≠ 3#32 then .error .notProgArray else withContents st
      | _ => .error .valuesType

/-- elf_reader.go:997-1150: one member; `last` is `i == len(def.Members)-1`. -/
def step {I : Type} (g : Graph R) (p : Place) (inner : Bool) (resolveInner : R → Except Err I) (last : Bool) (st : State R I) (m : Member R) :
    Except Err (State R I) :=
  match fieldOf m.name with
  | none => .error .unrecognized
  | some .type => match uintFromBTF g m.type with | .error e => .error e | .ok n => .ok { st with mapType := n.setWidth 32 }
  | some .mapFlags => match uintFromBTF g m.type with | .error e => .error e | .ok n => .ok { st with flags := n }
  | some .maxEntries => match uintFromBTF g m.type with | .error e => .error e | .ok n => .ok { st with maxEntries := n }
  | some .key =>
    if st.keySize ≠ 0#64 then .error .bothSizes
    else match pointee g m.type with | .error e => .error e | .ok (a, n) => .ok { st with key := some a, keySize := n }
  | some .value =>
    if st.valueSize ≠ 0#64 then .error .bothSizes
    else match pointee g m.type with | .error e => .error e | .ok (a, n) => .ok { st with value := some a, valueSize := n }
  | some .keySize =>
    if st.key.isSome ∨ st.keySize ≠ 0#64 then .error .bothSizes
    else match uintFromBTF g m.type with | .error e => .error e | .ok n => .ok { st with keySize := n }
  | some .valueSize =>
    if st.value.isSome ∨ st.valueSize ≠ 0#64 then .error .bothSizes
    else match uintFromBTF g m.type with | .error e => .error e | .ok n => .ok { st with valueSize := n }
  | some .pinning =>
    if inner then .error .innerPinned
    else match uintFromBTF g m.type with | .error e => .error e | .ok n => .ok { st with pinType := n.setWidth 32 }
  | some .values => if !last then .error .valuesNotLast else stepValues g p inner resolveInner st m
  | some .mapExtra => match uintFromBTF g m.type with | .error e => .error e | .ok n => .ok { st with mapExtra := n }

/-- elf_reader.go:997-1150: the loop over the members. -/
def members {I : Type} (g : Graph R) (p : Place) (inner : Bool) (resolveInner : R → Except Err I) : State R I → List (Member R) → Except Err (State R I)
  | st, [] => .ok st
  | st, m :: ms =>
    match step g p inner resolveInner (decide (ms = [])) st m with
    | .error e => .error e
    | .ok st' => members g p inner resolveInner st' ms

/-- syscalls.go:35-52 `sanitizeName` with a negative replacement: characters that are not allowed are removed. (Bytes above 127 are parts of
characters that are not allowed.) -/
def sanitizeName (name : Bytes) : Bytes :=
  name.filter fun c => (65 ≤ c.toNat && c.toNat ≤ 90) || (97 ≤ c.toNat && c.toNat ≤ 122) || (48 ≤ c.toNat && c.toNat ≤ 57) || c.toNat == 46 || c.toNat == 95

/-- The `MapSpec` that is returned, elf_reader.go:1159-1175. -/
structure MapDef (R I : Type) where
  name : Bytes
  type : BitVec 32
  keySize : BitVec 32
  valueSize : BitVec 32
  maxEntries : BitVec 32
  flags : BitVec 32
  key : Option R
  value : Option R
  pinning : BitVec 32
  inner : Option I
  contents : List (Nat × Bytes)
  mapExtra : BitVec 64

/-- types.go:163-175 `canHaveValueSize`: ring buffers, arenas and perf event arrays cannot. -/
def canHaveValueSize (t : BitVec 32) : Bool := !(t = 27#32 || t = 33#32 || t = 4#32)

/-- elf_reader.go:1152-1175: the end of `mapSpecFromBTF`. -/
def finish {I : Type} (name : Bytes) (st : State R I) : MapDef R I :=
  let valueSize := if st.value.isSome && !canHaveValueSize st.mapType then 0#64 else st.valueSize
  ⟨sanitizeName name, st.mapType, st.keySize.setWidth 32, valueSize.setWidth 32, st.maxEntries.setWidth 32, st.flags.setWidth 32,
    st.key, st.value, st.pinType, st.inner, st.contents, st.mapExtra⟩

/-- elf_reader.go:985-1176 `mapSpecFromBTF` with `inner` true: there is no inner map. -/
def innerFromBTF (g : Graph R) (p : Place) (name : Bytes) (ms : List (Member R)) : Except Err (MapDef R Empty) :=
  match members g p true (fun _ => .error .nested) State.init ms with
  | .error e => .error e
  | .ok st => .ok (finish name st)

/-- The members of a struct. -/
def structMembers (g : Graph R) (t : R) : List (Member R) :=
  match g t with
  | .struct _ _ ms _ => ms
  | _ => []

/-- elf_reader.go:985-1176 `mapSpecFromBTF`. The inner map is called `<name>_inner`. -/
def mapSpecFromBTF (g : Graph R) (p : Place) (name : Bytes) (ms : List (Member R)) : Except Err (MapDef R (MapDef R Empty)) :=
  match members g p false (fun t => innerFromBTF g p (name ++ ascii ['_', 'i', 'n', 'n', 'e', 'r']) (structMembers g t)) State.init ms with
  | .error e => .error e
  | .ok st => .ok (finish name st)

end Ebpf.BtfMap
