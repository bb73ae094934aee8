import Verif.Base
/-!
# Model of `elf_reader.go`: which sections are what, the license, the version, and maps defined by structs in sections named maps…

The ELF container is parsed by debug/elf (not modelled): an object is a list of sections and a list of symbols. Go maps are visited in any order: the lists
`loadMaps` is given are in the order in which they are visited. Names are lists of characters.
-/
namespace Ebpf.ElfMaps

/-- Names. -/
abbrev Name := List Char

/-- `elf.SectionType`, as far as it matters. -/
inductive SType where
  | progbits | nobits | rel | other
deriving DecidableEq

/-- A section: its header, whether it can be read directly (it isn't compressed), and the bytes the file has for it. -/
structure Sec where
  name : Name
  typ : SType
  exec : Bool
  size : BitVec 64
  direct : Bool
  data : Bytes

/-- `elf.ST_TYPE` of a symbol. -/
inductive STyp where
  | notype | object | other
deriving DecidableEq

/-- A symbol; `sec` is the index of its section. -/
structure Sym where
  name : Name
  typ : STyp
  sec : Nat
  value : BitVec 64
  size : BitVec 64
deriving DecidableEq

/-- What BTF says about a section: its variables with their tags; `none` for something that isn't a variable. -/
abbrev Datasec := List (Option (Name × List Name))

/-- An object. -/
structure Obj where
  big : Bool
  sections : List Sec
  symbols : List Sym
  /-- `TypeByName` of a section's name. -/
  btf : Name → Option Datasec

/-- map.go:37-108 `MapSpec`, the fields that are set. -/
structure MapSpec where
  name : Name
  typ : BitVec 32
  keySize : BitVec 32
  valueSize : BitVec 32
  maxEntries : BitVec 32
  flags : BitVec 32
  extra : Option Bytes
  tags : List Name
deriving DecidableEq

/-- Errors. -/
inductive Err where
  | structOps | license | version | noSymbols | compressed | btf | duplicate | tooLarge | outOfBounds | missing
deriving DecidableEq

/-- What becomes of a section. -/
inductive Cls where
  | license | version | maps | btfMaps | data | rel | program | structOpsLink | structOps | ignored
deriving DecidableEq

/-- elf_reader.go:239-241 `isDataSection`. -/
def isDataSection (name : Name) : Bool :=
  name = ".bss".toList || ".data".toList.isPrefixOf name || ".rodata".toList.isPrefixOf name

/-- elf_reader.go:106-137: the switch. -/
def classify (s : Sec) : Cls :=
  if "license".toList.isPrefixOf s.name then .license
  else if "version".toList.isPrefixOf s.name then .version
  else if "maps".toList.isPrefixOf s.name then .maps
  else if s.name = ".maps".toList then .btfMaps
  else if isDataSection s.name then .data
  else if s.typ = .rel then .rel
  else if s.typ = .progbits ∧ s.size ≠ 0#64 then
    if s.exec then .program
    else if s.name = ".struct_ops.link".toList then .structOpsLink
    else if s.name = ".struct_ops".toList then .structOps
    else .ignored
  else .ignored

/-- elf_reader.go:103-137: the loop over the sections; a later license or version section replaces an earlier one. -/
def scan : List Sec → Option Sec → Option Sec → Except Err (Option Sec × Option Sec)
  | [], l, v => .ok (l, v)
  | s :: r, l, v =>
    match classify s with
    | .license => scan r (some s) v
    | .version => scan r l (some s)
    | .structOps => .error .structOps
    | _ => scan r l v

/-- `bytes.TrimRight(data, "\000")`. -/
def trimNul (b : Bytes) : Bytes := (b.reverse.dropWhile (· = 0#8)).reverse

/-- elf_reader.go:215-225 `loadLicense`. `Data` fails if the file is too short. -/
def loadLicense : Option Sec → Except Err Bytes
  | none => .ok []
  | some s => if s.data.length ≠ s.size.toNat then .error .license else .ok (trimNul s.data)

/-- `binary.Read` of a `uint32`; what is left. -/
def readU32 (big : Bool) : Bytes → Option (BitVec 32 × Bytes)
  | a :: b :: c :: d :: r => some (if big then a ++ b ++ c ++ d else d ++ c ++ b ++ a, r)
  | _ => none

/-- elf_reader.go:227-237 `loadVersion`. -/
def loadVersion (big : Bool) : Option Sec → Except Err (BitVec 32)
  | none => .ok 0#32
  | some s =>
    match readU32 big s.data with
    | none => .error .version
    | some (v, _) => .ok v

/-- elf_reader.go:143-151: license and version of an object. -/
def loadHead (o : Obj) : Except Err (Bytes × BitVec 32) := do
  let lv ← scan o.sections none none
  let l ← loadLicense lv.1
  let v ← loadVersion o.big lv.2
  return (l, v)

/-- syscalls.go:37-49: the characters that are kept. -/
def validChar (c : Char) : Bool := ('A' ≤ c && c ≤ 'Z') || ('a' ≤ c && c ≤ 'z') || ('0' ≤ c && c ≤ '9') || c = '.' || c = '_'

/-- syscalls.go:35-52 `sanitizeName` with replacement -1: other characters are removed. -/
def sanitizeName (n : Name) : Name := n.filter validChar

/-- elf_reader.go:313-319: is the symbol kept in a section of maps? -/
def keep (s : Sym) : Bool := s.name ≠ [] && (s.typ = .notype || s.typ = .object)

/-- elf_reader.go:297-337 `assignSymbols`, for the section with index `idx`: the contents of its map of symbols, where a later symbol replaces one with the
same value. -/
def assignSymbols (idx : Nat) : List Sym → List Sym → List Sym
  | [], m => m
  | s :: r, m => if s.sec = idx ∧ keep s then assignSymbols idx r (s :: m.filter (fun t => t.value ≠ s.value)) else assignSymbols idx r m

/-- The sections of maps with their symbols (the Go map `ec.sections` restricted to kind mapSection). -/
def mapSections (o : Obj) : List (Sec × List Sym) :=
  o.sections.zipIdx.filterMap fun x => if classify x.1 = .maps then some (x.1, assignSymbols x.2 o.symbols []) else none

/-- elf_reader.go:880-901 `sectionVars`: a later variable replaces an earlier one of the same name. -/
def sectionVars : Datasec → List (Name × List Name) → Except Err (List (Name × List Name))
  | [], m => .ok m
  | none :: _, _ => .error .btf
  | some v :: r, m => sectionVars r (v :: m)

/-- … for an optional Datasec. -/
def varsOf : Option Datasec → Except Err (List (Name × List Name))
  | none => .ok []
  | some ds => sectionVars ds []

/-- elf_reader.go:842-859: the fields of a map. -/
def readFields (big : Bool) (b : Bytes) : Except Err (BitVec 32 × BitVec 32 × BitVec 32 × BitVec 32 × BitVec 32 × Bytes) :=
  match readU32 big b with
  | none => .error .missing
  | some (typ, b) =>
    match readU32 big b with
    | none => .error .missing
    | some (ks, b) =>
      match readU32 big b with
      | none => .error .missing
      | some (vs, b) =>
        match readU32 big b with
        | none => .error .missing
        | some (me, b) =>
          match readU32 big b with
          | none => .error .missing
          | some (fl, b) => .ok (typ, ks, vs, me, fl, b)

/-- elf_reader.go:840: the part of the section `NewBufferedSectionReader(sec, value, size)` reads. -/
def symbolData (sec : Sec) (s : Sym) : Bytes := (sec.data.drop s.value.toNat).take s.size.toNat

/-- elf_reader.go:861-868: what follows. -/
def extraOf (b : Bytes) : Option Bytes := if b.length > 0 then some b else none

/-- elf_reader.go:870-872: the tags of the variable of this name. -/
def tagsOf (vars : List (Name × List Name)) (n : Name) : List Name :=
  match vars.lookup n with
  | some t => t
  | none => []

/-- elf_reader.go:831-872: one symbol. -/
def loadSymbol (big : Bool) (sec : Sec) (vars : List (Name × List Name)) (s : Sym) (maps : List (Name × MapSpec)) : Except Err (List (Name × MapSpec)) :=
  if (maps.lookup s.name).isSome then .error .duplicate
  else if s.value.toNat > 0xffffffff ∨ s.size.toNat > 0xffffffff then .error .tooLarge
  else if (s.value + s.size).toNat > sec.size.toNat then .error .outOfBounds
  else
    match readFields big (symbolData sec s) with
    | .error e => .error e
    | .ok (typ, ks, vs, me, fl, b) => .ok ((s.name, ⟨sanitizeName s.name, typ, ks, vs, me, fl, extraOf b, tagsOf vars s.name⟩) :: maps)

/-- elf_reader.go:830-875: the symbols of a section. -/
def loadSymbols (big : Bool) (sec : Sec) (vars : List (Name × List Name)) : List Sym → List (Name × MapSpec) → Except Err (List (Name × MapSpec))
  | [], maps => .ok maps
  | s :: r, maps =>
    match loadSymbol big sec vars s maps with
    | .error e => .error e
    | .ok maps => loadSymbols big sec vars r maps

/-- elf_reader.go:811-876 `loadMaps`. -/
def loadMaps (o : Obj) : List (Sec × List Sym) → List (Name × MapSpec) → Except Err (List (Name × MapSpec))
  | [], maps => .ok maps
  | (sec, syms) :: r, maps =>
    if syms = [] then .error .noSymbols
    else if !sec.direct then .error .compressed
    else
      match varsOf (o.btf sec.name) with
      | .error e => .error e
      | .ok vars =>
        match loadSymbols o.big sec vars syms maps with
        | .error e => .error e
        | .ok maps => loadMaps o r maps

end Ebpf.ElfMaps
