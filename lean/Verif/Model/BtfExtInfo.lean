import Verif.Model.BtfMarshal
/-!
# Model of `btf/ext_info.go` and of the assignment of metadata, `elf_reader.go:508-541`

Records are read from byte lists: a reader over `n` bytes at some offset is `(bytes.drop off).take n`, `binary.Read` of a struct takes its
size from the front. `look` is the lookup in the string table (`LookupCached` returns the same, see `lookupCached_exact`).
-/
namespace Ebpf.Btf
variable {R : Type}

/-! ## Encoding -/

/-- btf/ext_info.go:462-467 `Line`. -/
structure Line where
  file : Bytes
  text : Bytes
  number : BitVec 32
  column : BitVec 32
deriving DecidableEq

/-- The source of an instruction: a `*Line` or something else with a `String` method, such as `asm.Comment`. -/
inductive Source
  | line (l : Line)
  | comment (s : Bytes)
deriving DecidableEq

/-- What `MarshalExtInfos` looks at in an instruction: `OpCode.rawInstructions` (1 or 2), `FuncMetadata`, `Source`. -/
structure XIns (R : Type) where
  width : Nat
  func : Option R := none
  source : Option Source := none

/-- btf/ext_info.go:498-503 `bpfLineMax`. -/
def bpfLineMax : BitVec 32 := (1 <<< (32 - 10)) - 1

/-- btf/ext_info.go:498-503 `bpfColumnMax`. -/
def bpfColumnMax : BitVec 32 := (1 <<< 10) - 1

/-- btf/marshal.go:275-281 `addString`. -/
def TypeBuilder.addString (b : TypeBuilder R) (s : Bytes) : Option (BitVec 32 × TypeBuilder R) :=
  match (b.strings.getD Builder.new).add s with
  | none => none
  | some (off, sb) => some (off, { b with strings := some sb })

/-- btf/ext_info.go:572-608 `LineOffset.marshal`; `none` = error. -/
def marshalLine (bo : ByteOrder) (b : TypeBuilder R) (off : Nat) (l : Line) : Option (Bytes × TypeBuilder R) :=
  if l.number > bpfLineMax then none
  else if l.column > bpfColumnMax then none
  else match b.addString l.file with
    | none => none
    | some (fileOff, b) =>
      match b.addString l.text with
      | none => none
      | some (lineOff, b) =>
        some (bo.put32 (BitVec.ofNat 32 off) ++ bo.put32 fileOff ++ bo.put32 lineOff ++ bo.put32 (l.number <<< 10 ||| l.column), b)

/-- btf/ext_info.go:384-399 `FuncOffset.marshal`; `none` = error. -/
def marshalFunc [DecidableEq R] (bo : ByteOrder) (g : Graph R) (b : TypeBuilder R) (off : Nat) (f : R) : Option (Bytes × TypeBuilder R) :=
  match b.add g f with
  | (none, _) => none
  | (some id, b) => some (bo.put32 (BitVec.ofNat 32 off) ++ bo.put32 id, b)

/-- btf/ext_info.go:144-151: other sources become a line without a location. -/
def Source.toLine : Source → Line
  | .line l => l
  | .comment s => ⟨[], s, 0, 0⟩

/-- btf/ext_info.go:133-165: the loop, from an instruction at raw offset `off`. The result are the func and the line infos. -/
def marshalLoop [DecidableEq R] (bo : ByteOrder) (g : Graph R) : Nat → List (XIns R) → TypeBuilder R → Option (Bytes × Bytes × TypeBuilder R)
  | _, [], b => some ([], [], b)
  | off, i :: is, b =>
    match (match i.func with | none => some ([], b) | some f => marshalFunc bo g b off f) with
    | none => none
    | some (fi, b) =>
      match (match i.source with | none => some ([], b) | some s => marshalLine bo b off s.toLine) with
      | none => none
      | some (li, b) =>
        match marshalLoop bo g (off + i.width) is b with
        | none => none
        | some (fs, ls, b) => some (fi ++ fs, li ++ ls, b)

/-- btf/ext_info.go:121-168 `MarshalExtInfos`: skip to the first instruction with metadata. -/
def marshalExtInfos [DecidableEq R] (bo : ByteOrder) (g : Graph R) : Nat → List (XIns R) → TypeBuilder R → Option (Bytes × Bytes × TypeBuilder R)
  | _, [], b => some ([], [], b)
  | off, i :: is, b =>
    if i.source.isSome || i.func.isSome then marshalLoop bo g off (i :: is) b
    else marshalExtInfos bo g (off + i.width) is b

/-! ## Decoding records -/

/-- btf/ext_info.go:322-326 `bpfFuncInfo`. -/
structure FuncRec where
  insnOff : BitVec 32
  typeID : BitVec 32
deriving DecidableEq

/-- btf/ext_info.go:505-511 `bpfLineInfo`. -/
structure LineRec where
  insnOff : BitVec 32
  fileOff : BitVec 32
  lineOff : BitVec 32
  lineCol : BitVec 32
deriving DecidableEq

/-- btf/ext_info.go:671-677 `bpfCORERelo`. -/
structure ReloRec where
  insnOff : BitVec 32
  typeID : BitVec 32
  accessOff : BitVec 32
  kind : BitVec 32
deriving DecidableEq

/-- `binary.Read` of two `uint32`. -/
def read2 (bo : ByteOrder) (bs : Bytes) : Option ((BitVec 32 × BitVec 32) × Bytes) :=
  match bo.get32l bs with
  | none => none
  | some (a, bs) => match bo.get32l bs with
    | none => none
    | some (b, bs) => some ((a, b), bs)

/-- `binary.Read` of four `uint32`. -/
def read4 (bo : ByteOrder) (bs : Bytes) : Option ((BitVec 32 × BitVec 32 × BitVec 32 × BitVec 32) × Bytes) :=
  match read2 bo bs with
  | none => none
  | some ((a, b), bs) => match read2 bo bs with
    | none => none
    | some ((c, d), bs) => some ((a, b, c, d), bs)

/-- btf/ext_info.go:442-450, 656-666, 806-812: byte offsets become instruction offsets. -/
def toInsnOff (inBytes : Bool) (off : BitVec 32) : Option (BitVec 32) :=
  if inBytes then if off % 8 ≠ 0 then none else some (off / 8) else some off

/-- btf/ext_info.go:428-456 `parseFuncInfoRecords`; `none` = error. -/
def readFuncRecs (bo : ByteOrder) (inBytes : Bool) : Nat → Bytes → Option (List FuncRec × Bytes)
  | 0, bs => some ([], bs)
  | n + 1, bs =>
    match read2 bo bs with
    | none => none
    | some ((off, id), bs) =>
      match toInsnOff inBytes off with
      | none => none
      | some off =>
        match readFuncRecs bo inBytes n bs with
        | none => none
        | some (rs, bs) => some (⟨off, id⟩ :: rs, bs)

/-- `binary.Read` of `n` `bpfLineInfo`. -/
def readLines (bo : ByteOrder) : Nat → Bytes → Option (List LineRec × Bytes)
  | 0, bs => some ([], bs)
  | n + 1, bs =>
    match read4 bo bs with
    | none => none
    | some ((a, b, c, d), bs) =>
      match readLines bo n bs with
      | none => none
      | some (rs, bs) => some (⟨a, b, c, d⟩ :: rs, bs)

/-- btf/ext_info.go:645-653: reading in chunks of 1024 records, `k` bounds the number of chunks. -/
def readLineChunks (bo : ByteOrder) : Nat → Nat → Bytes → Option (List LineRec × Bytes)
  | 0, _, bs => some ([], bs)
  | k + 1, remaining, bs =>
    if remaining = 0 then some ([], bs)
    else match readLines bo (min 1024 remaining) bs with
      | none => none
      | some (rs, bs) =>
        match readLineChunks bo k (remaining - min 1024 remaining) bs with
        | none => none
        | some (rs', bs) => some (rs ++ rs', bs)

/-- btf/ext_info.go:655-666: the offsets of all records. -/
def convertOffs (inBytes : Bool) : List LineRec → Option (List LineRec)
  | [] => some []
  | r :: rs =>
    match toInsnOff inBytes r.insnOff, convertOffs inBytes rs with
    | some off, some rs => some ({ r with insnOff := off } :: rs)
    | _, _ => none

/-- btf/ext_info.go:638-669 `parseLineInfoRecords`. -/
def readLineRecs (bo : ByteOrder) (inBytes : Bool) (n : Nat) (bs : Bytes) : Option (List LineRec × Bytes) :=
  match readLineChunks bo n n bs with
  | none => none
  | some (rs, bs) => match convertOffs inBytes rs with
    | none => none
    | some rs => some (rs, bs)

/-- btf/ext_info.go:794-820 `parseCOREReloRecords`. -/
def readReloRecs (bo : ByteOrder) : Nat → Bytes → Option (List ReloRec × Bytes)
  | 0, bs => some ([], bs)
  | n + 1, bs =>
    match read4 bo bs with
    | none => none
    | some ((off, id, acc, k), bs) =>
      match toInsnOff true off with
      | none => none
      | some off =>
        match readReloRecs bo n bs with
        | none => none
        | some (rs, bs) => some (⟨off, id, acc, k⟩ :: rs, bs)

/-- btf/ext_info.go:532-557 `newLineInfo`. -/
def newLineInfo (look : BitVec 32 → Option Bytes) (r : LineRec) : Option (BitVec 32 × Line) :=
  match look r.lineOff with
  | none => none
  | some text => match look r.fileOff with
    | none => none
    | some file => some (r.insnOff, ⟨file, text, r.lineCol >>> 10, r.lineCol &&& bpfColumnMax⟩)

/-- btf/ext_info.go:559-567 `newLineInfos` up to the sorting. -/
def newLineInfos (look : BitVec 32 → Option Bytes) : List LineRec → Option (List (BitVec 32 × Line))
  | [] => some []
  | r :: rs =>
    match newLineInfo look r, newLineInfos look rs with
    | some l, some ls => some (l :: ls)
    | _, _ => none

/-- btf/ext_info.go:328-348 `newFuncOffset`. `typeByID` is `Spec.TypeByID`. -/
def newFuncOffset (g : Graph R) (typeByID : BitVec 32 → Option R) (r : FuncRec) : Option (BitVec 32 × R) :=
  match typeByID r.typeID with
  | none => none
  | some t => match g t with
    | .func name .. => if name = [] then none else some (r.insnOff, t)
    | _ => none

/-- btf/ext_info.go:350-360 `newFuncOffsets` up to the sorting. -/
def newFuncOffsets (g : Graph R) (typeByID : BitVec 32 → Option R) : List FuncRec → Option (List (BitVec 32 × R))
  | [] => some []
  | r :: rs =>
    match newFuncOffset g typeByID r, newFuncOffsets g typeByID rs with
    | some l, some ls => some (l :: ls)
    | _, _ => none

/-- btf/ext_info.go:360-362, 568-570, 756-758: `sort.Slice` by offset. It isn't stable: the result is any sorted permutation. -/
def SortsTo {α : Type} (l r : List (BitVec 32 × α)) : Prop := r.Perm l ∧ r.Pairwise fun a b => a.1.toNat ≤ b.1.toNat

/-- btf/ext_info.go:369-382 `LoadFuncInfos` (the record size is the expected one) up to the sorting. -/
def loadFuncInfos (bo : ByteOrder) (g : Graph R) (typeByID : BitVec 32 → Option R) (n : Nat) (bs : Bytes) : Option (List (BitVec 32 × R)) :=
  match readFuncRecs bo false n bs with
  | none => none
  | some (rs, _) => newFuncOffsets g typeByID rs

/-- btf/ext_info.go:517-530 `LoadLineInfos` up to the sorting. -/
def loadLineInfos (bo : ByteOrder) (look : BitVec 32 → Option Bytes) (n : Nat) (bs : Bytes) : Option (List (BitVec 32 × Line)) :=
  match readLineRecs bo false n bs with
  | none => none
  | some (rs, _) => newLineInfos look rs

/-! ## Assigning metadata to instructions -/

/-- elf_reader.go:510-524 `take` with the predicate `Offset == raw`. -/
def takeAt {α : Type} (raw : Nat) : List (BitVec 32 × α) → Option α × List (BitVec 32 × α)
  | [] => (none, [])
  | x :: q => if x.1.toNat = raw then (some x.2, q) else (none, x :: q)

/-- elf_reader.go:498-500, info.go:721-724: one kind of metadata for each of the instructions, whose widths are given. The kinds don't
influence each other (elf_reader.go:528-541). -/
def attach {α : Type} : Nat → List Nat → List (BitVec 32 × α) → List (Option α)
  | _, [], _ => []
  | raw, w :: ws, q => (takeAt raw q).1 :: attach (raw + w) ws (takeAt raw q).2

/-! ## The `.BTF.ext` section -/

/-- btf/ext_info.go:278-302 `parseExtInfoRecordSize`. -/
def readRecordSize (bo : ByteOrder) (bs : Bytes) : Option (BitVec 32 × Bytes) :=
  match bo.get32l bs with
  | none => none
  | some (n, bs) => if n < 4 then none else if n > 256 then none else some (n, bs)

/-- btf/ext_info.go:402-425, 612-635, 766-791: the loop over the sections. `parse` reads the records of a section. Each section takes at
least eight bytes, `k` bounds their number. -/
def readSections {α : Type} (bo : ByteOrder) (look : BitVec 32 → Option Bytes) (parse : Nat → Bytes → Option (List α × Bytes)) :
    Nat → Bytes → Option (List (Bytes × List α))
  | 0, _ => none
  | k + 1, bs =>
    if bs = [] then some []
    else match read2 bo bs with
      | none => none
      | some ((nameOff, num), bs) =>
        match look nameOff with
        | none => none
        | some name =>
          if name = [] then none
          else if num = 0 then none
          else match parse num.toNat bs with
            | none => none
            | some (rs, bs) =>
              match readSections bo look parse k bs with
              | none => none
              | some ss => some ((name, rs) :: ss)

/-- btf/ext_info.go:402-425 `parseFuncInfos`. -/
def readFuncPart (bo : ByteOrder) (look : BitVec 32 → Option Bytes) (bs : Bytes) : Option (List (Bytes × List FuncRec)) :=
  match readRecordSize bo bs with
  | none => none
  | some (n, bs) => readSections bo look (fun num bs => if n ≠ 8 then none else readFuncRecs bo true num bs) (bs.length + 1) bs

/-- btf/ext_info.go:612-635 `parseLineInfos`. -/
def readLinePart (bo : ByteOrder) (look : BitVec 32 → Option Bytes) (bs : Bytes) : Option (List (Bytes × List LineRec)) :=
  match readRecordSize bo bs with
  | none => none
  | some (n, bs) => readSections bo look (fun num bs => if n ≠ 16 then none else readLineRecs bo true num bs) (bs.length + 1) bs

/-- btf/ext_info.go:766-791 `parseCORERelos`. -/
def readReloPart (bo : ByteOrder) (look : BitVec 32 → Option Bytes) (bs : Bytes) : Option (List (Bytes × List ReloRec)) :=
  match readRecordSize bo bs with
  | none => none
  | some (n, bs) => if n ≠ 16 then none else readSections bo look (readReloRecs bo) (bs.length + 1) bs

/-- btf/ext_info.go:172-186 `btfExtHeader`, without magic, version and flags. -/
structure ExtHeader where
  hdrLen : BitVec 32
  funcOff : BitVec 32
  funcLen : BitVec 32
  lineOff : BitVec 32
  lineLen : BitVec 32
deriving DecidableEq

/-- btf/ext_info.go:188-212 `parseBTFExtHeader`; the size of the header is 24. -/
def readExtHeader (bo : ByteOrder) : Bytes → Option (ExtHeader × Bytes)
  | m0 :: m1 :: ver :: flags :: bs =>
    match bo.get32l bs with
    | none => none
    | some (hdrLen, bs) => match read4 bo bs with
      | none => none
      | some ((a, b, c, d), bs) =>
        if bo.get16 m0 m1 ≠ 0xeB9F then none
        else if ver ≠ 1 then none
        else if flags ≠ 0 then none
        else if hdrLen.toNat < 24 then none
        else some (⟨hdrLen, a, b, c, d⟩, bs)
  | _ => none

/-- btf/ext_info.go:241-255 `parseBTFExtCOREHeader`: offset and length, or nil. `binary.Size(&extHeader)` is the size of a pointer to a
pointer, which is −1. -/
def readCoreHeader (bo : ByteOrder) (h : ExtHeader) (bs : Bytes) : Option (Option (BitVec 32 × BitVec 32)) :=
  let extHdrSize : Int := -1
  if (h.hdrLen.toNat : Int) - extHdrSize = 0 then some none
  else match read2 bo bs with
    | none => none
    | some (c, _) => some (some c)

/-- internal/io.go:25-40 `NewBufferedSectionReader`; `uint32` offsets wrap (btf/ext_info.go:214-230). -/
def part (bs : Bytes) (start len : BitVec 32) : Bytes := (bs.drop start.toNat).take len.toNat

/-- The records of a `.BTF.ext` section. -/
structure ExtRecords where
  funcs : List (Bytes × List FuncRec)
  lines : List (Bytes × List LineRec)
  relos : List (Bytes × List ReloRec)

/-- btf/ext_info.go:51-114 `loadExtInfos` up to the resolution of the records (`newFuncOffsets`, `newLineInfos`, `newRelocationInfos`). -/
def loadExtInfos (bo : ByteOrder) (look : BitVec 32 → Option Bytes) (bs : Bytes) : Option ExtRecords :=
  match readExtHeader bo bs with
  | none => none
  | some (h, rest) =>
    match readCoreHeader bo h rest with
    | none => none
    | some core =>
      match readFuncPart bo look (part bs (h.hdrLen + h.funcOff) h.funcLen) with
      | none => none
      | some funcs =>
        match readLinePart bo look (part bs (h.hdrLen + h.lineOff) h.lineLen) with
        | none => none
        | some lines =>
          match core with
          | none => some ⟨funcs, lines, []⟩
          | some (off, len) =>
            if len = 0 then some ⟨funcs, lines, []⟩
            else match readReloPart bo look (part bs (h.hdrLen + off) len) with
              | none => none
              | some relos => some ⟨funcs, lines, relos⟩

/-- btf/ext_info.go:422, 632, 788: `result[secName] = records` in the order of the sections, then a lookup. -/
def sectionOf {α : Type} (l : List (Bytes × List α)) (name : Bytes) : List α := (l.reverse.lookup name).getD []

/-! ## Accessors -/

/-- Go `strings.Split(s, ":")`; `cur` is the current part, reversed. -/
def splitColon (cur : Bytes) : Bytes → List Bytes
  | [] => [cur.reverse]
  | c :: s => if c = 0x3a then cur.reverse :: splitColon [] s else splitColon (c :: cur) s

/-- Go `strconv.ParseUint(s, 10, 31)` for a non-empty string, with the value so far. -/
def parseDec (acc : Nat) : Bytes → Option Nat
  | [] => some acc
  | c :: s =>
    if 0x30 ≤ c.toNat ∧ c.toNat ≤ 0x39 then
      if acc * 10 + (c.toNat - 0x30) < 2 ^ 31 then parseDec (acc * 10 + (c.toNat - 0x30)) s else none
    else none

/-- Go `strconv.ParseUint(s, 10, 31)`: no sign, no underscores. -/
def parseIndex (s : Bytes) : Option Nat := if s = [] then none else parseDec 0 s

/-- All of them. -/
def parseIndices : List Bytes → Option (List Nat)
  | [] => some []
  | s :: ss =>
    match parseIndex s, parseIndices ss with
    | some n, some ns => some (n :: ns)
    | _, _ => none

/-- btf/core.go:584-603 `parseCOREAccessor`. -/
def parseAccessor (s : Bytes) : Option (List Nat) := if s = [] then none else parseIndices (splitColon [] s)

end Ebpf.Btf
