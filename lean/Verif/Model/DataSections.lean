import Verif.Model.ElfReader
/-!
# Model of reading global variables from an object: `loadDataSections`, `elf_reader.go:1303-1453`

Go maps are iterated in any order: the sections and the symbols of each section are lists in the order of iteration. `sanitizeName` of the map's name is left
out, types are numbers, and copying them is C72. Section contents are as long as the section, as `debug/elf` returns them.
-/
namespace Ebpf.DataSec
open Ebpf.Elf (STyp Bind)

/-- `debug/elf.Symbol` with its visibility; `hidden` is STV_HIDDEN or STV_INTERNAL. -/
structure Sym where
  name : String
  typ : STyp
  bind : Bind
  hidden : Bool
  sec : Nat
  value : BitVec 64
  size : BitVec 64
deriving DecidableEq

/-- `sec.Type`. -/
inductive SecType where
  | progbits
  | nobits
  | other
deriving DecidableEq

/-- elf_reader.go:262-272 `elfSection` of kind dataSection; `data` is what Data() returns. -/
structure Sec where
  idx : Nat
  name : String
  type : SecType
  size : BitVec 64
  data : Option Bytes
  references : Nat

/-- A `btf.VarSecinfo`: the name of its type, whether that is a `btf.Var`, and which. -/
structure DVar where
  name : String
  isVar : Bool
  offset : BitVec 32
  size : BitVec 32
  typ : Nat

/-- variable.go:18-28 `VariableSpec`. -/
structure VarSpec where
  sec : String
  offset : BitVec 32
  value : Bytes
  typ : Option Nat
deriving DecidableEq

/-- The `MapSpec` of a data section; `btf`: key and value types are set. -/
structure MapSpec where
  valueSize : BitVec 32
  rdonly : Bool
  contents : Bytes
  btf : Bool
deriving DecidableEq

/-- Errors. -/
inductive Err where
  | tooLarge
  | unreadable
  | secType
  | duplicate
  | bounds
  | offset
  | size
  | anonymous
  | notVar
  | offsetMismatch
  | sizeMismatch
deriving DecidableEq

/-- elf_reader.go:297-337 `assignSymbols` for the data section with this index: symbols by offset, later ones replacing earlier ones. -/
def assignSymbols (idx : Nat) : List Sym → List (BitVec 64 × Sym) → List (BitVec 64 × Sym)
  | [], m => m
  | s :: r, m =>
    if s.sec = idx ∧ s.name ≠ "" ∧ (s.typ = .notype ∨ s.typ = .object) then assignSymbols idx r ((s.value, s) :: m.filter (fun e => e.1 ≠ s.value))
    else assignSymbols idx r m

/-- `strings.HasPrefix(name, ".")`. -/
def startsWithDot (name : String) : Bool := name.toList.head? = some '.'

/-- `data[off : off+size]`. -/
def slice (data : Bytes) (off size : BitVec 64) : Bytes := (data.take (off + size).toNat).drop off.toNat

/-- elf_reader.go:1362-1409: the loop over the symbols of a section. -/
def addVars (sec : Sec) (data : Bytes) : List (BitVec 64 × Sym) → List (String × VarSpec) → Except Err (List (String × VarSpec))
  | [], vars => .ok vars
  | (off, s) :: r, vars =>
    if s.hidden then addVars sec data r vars
    else if s.bind ≠ .glob ∧ s.bind ≠ .weak then addVars sec data r vars
    else if (vars.lookup s.name).isSome then .error .duplicate
    else if startsWithDot s.name then addVars sec data r vars
    else if (off + s.size).toNat > data.length then .error .bounds
    else if off.toNat > 0xffffffff then .error .offset
    else if s.size.toNat > 0xffffffff then .error .size
    else addVars sec data r (vars ++ [(s.name, ⟨sec.name, off.setWidth 32, slice data off s.size, none⟩)])

/-- `ev.Type = ...` for the variable with this name. -/
def setType (name : String) (t : Nat) : List (String × VarSpec) → List (String × VarSpec)
  | [] => []
  | (n, v) :: r => if n = name then (n, { v with typ := some t }) :: r else (n, v) :: setType name t r

/-- elf_reader.go:1418-1447: the loop over the variables of a Datasec. -/
def addTypes : List DVar → List (String × VarSpec) → Except Err (List (String × VarSpec))
  | [], vars => .ok vars
  | d :: r, vars =>
    if d.name = "" then .error .anonymous
    else if d.isVar = false then .error .notVar
    else
      match vars.lookup d.name with
      | none => addTypes r vars
      | some ev =>
        if d.offset ≠ ev.offset then .error .offsetMismatch
        else if d.size ≠ BitVec.ofNat 32 ev.value.length then .error .sizeMismatch
        else addTypes r (setType d.name d.typ vars)

/-- elf_reader.go:1336-1358: the contents of a section. -/
def contents (sec : Sec) : Except Err Bytes :=
  match sec.type with
  | .progbits =>
    match sec.data with
    | some d => .ok d
    | none => .error .unreadable
  | .nobits => .ok (List.replicate sec.size.toNat 0#8)
  | .other => .error .secType

/-- elf_reader.go:243-245 `isConstantDataSection`. -/
def isConstant (name : String) : Bool := ['.', 'r', 'o', 'd', 'a', 't', 'a'].isPrefixOf name.toList

/-- elf_reader.go:1304-1450: one turn of the loop. `btf` gives the variables of the Datasec of a name. -/
def loadSection (btf : String → Option (List DVar)) (sec : Sec) (symbols : List (BitVec 64 × Sym)) (st : List (String × MapSpec) × List (String × VarSpec)) :
    Except Err (List (String × MapSpec) × List (String × VarSpec)) :=
  if sec.references = 0 ∧ symbols = [] then .ok st
  else if sec.size.toNat > 0xffffffff then .error .tooLarge
  else
    match contents sec with
    | .error e => .error e
    | .ok data =>
      match addVars sec data symbols st.2 with
      | .error e => .error e
      | .ok vars =>
        match btf sec.name with
        | none => .ok (st.1 ++ [(sec.name, ⟨sec.size.setWidth 32, isConstant sec.name, data, false⟩)], vars)
        | some ds =>
          match addTypes ds vars with
          | .error e => .error e
          | .ok vars => .ok (st.1 ++ [(sec.name, ⟨sec.size.setWidth 32, isConstant sec.name, data, true⟩)], vars)

/-- elf_reader.go:1303-1453 `loadDataSections`. -/
def loadSections (btf : String → Option (List DVar)) : List (Sec × List (BitVec 64 × Sym)) → List (String × MapSpec) × List (String × VarSpec) → Except Err (List (String × MapSpec) × List (String × VarSpec))
  | [], st => .ok st
  | (sec, symbols) :: r, st =>
    match loadSection btf sec symbols st with
    | .error e => .error e
    | .ok st => loadSections btf r st

end Ebpf.DataSec
