import Verif.Base
/-!
# Model of `link/uprobe.go` and `link/uprobe_multi.go`: where a uprobe is placed

The ELF file, parsed by `debug/elf`, is given by its symbols (`.symtab`, then `.dynsym`) and its segments. Go maps are functions.
-/
namespace Ebpf.Uprobe

/-- `elf.Symbol`: name, `ST_TYPE(Info) == STT_FUNC`, value and size. -/
structure ElfSym where
  name : Bytes
  isFunc : Bool
  value : BitVec 64
  size : BitVec 64
deriving DecidableEq

/-- `elf.ProgHeader`: `Type == PT_LOAD`, `Flags & PF_X != 0`, and position in memory and in the file. -/
structure Segment where
  load : Bool
  exec : Bool
  vaddr : BitVec 64
  off : BitVec 64
  filesz : BitVec 64
  memsz : BitVec 64
deriving DecidableEq

/-- An opened file: `f.Type` is `ET_EXEC` or `ET_DYN`, the symbols of both tables in order, the segments. -/
structure ElfFile where
  executable : Bool
  syms : List ElfSym
  segs : List Segment

/-- link/uprobe.go:48-51 `symbol`. -/
structure Symbol where
  addr : BitVec 64
  size : BitVec 64
deriving DecidableEq

/-- Errors; `parse` stands for any failure to open or read the file. -/
inductive Err where
  | parse | notExecutable | noSymbol | libraryCall | outOfRange | invalidInput
deriving DecidableEq, Repr

/-- link/uprobe.go:53-57 `contains`. -/
def Symbol.contains (s : Symbol) (address : BitVec 64) : Bool := decide (s.addr.toNat ≤ address.toNat) && decide (address.toNat < (s.addr + s.size).toNat)

/-- link/uprobe.go:142-161: the loop over the segments. -/
def symbolAddress (value : BitVec 64) : List Segment → BitVec 64
  | [] => value
  | p :: ps =>
    if !p.load || !p.exec then symbolAddress value ps
    else if p.vaddr.toNat ≤ value.toNat ∧ value.toNat < (p.vaddr + p.memsz).toNat then value - p.vaddr + p.off
    else symbolAddress value ps

/-- `cachedSymbols`, link/uprobe.go:43. -/
abbrev Cache := Bytes → Option Symbol

/-- link/uprobe.go:123-170 `load`: later symbols of the same name replace earlier ones. -/
def load (segs : List Segment) : List ElfSym → Cache → Cache
  | [], c => c
  | s :: ss, c =>
    if !s.isFunc then load segs ss c
    else load segs ss (fun n => if n = s.name then some ⟨symbolAddress s.value segs, s.size⟩ else c n)

/-- link/uprobe.go:38-46 `Executable`: has `cachedSymbolsOnce` run, and the cache. -/
structure Executable where
  once : Bool
  cache : Cache

/-- link/uprobe.go:108-121 `OpenExecutable`. -/
def openExecutable : Executable := ⟨false, fun _ => none⟩

/-- link/uprobe.go:172-191 `lazyLoadSymbols`; `file` is what opening the path at this moment gives. -/
def lazyLoadSymbols (file : Except Err ElfFile) (ex : Executable) : Except Err Unit × Executable :=
  if ex.once then (.ok (), ex)
  else match file with
    | .error e => (.error e, { ex with once := true })
    | .ok f =>
      if !f.executable then (.error .notExecutable, { ex with once := true })
      else (.ok (), ⟨true, load f.segs f.syms ex.cache⟩)

/-- link/uprobe.go:193-227 `address`. -/
def address (file : Except Err ElfFile) (ex : Executable) (symbol : Bytes) (addr offset : BitVec 64) : Except Err (BitVec 64) × Executable :=
  if 0 < addr.toNat then (.ok (addr + offset), ex)
  else match lazyLoadSymbols file ex with
    | (.error e, ex') => (.error e, ex')
    | (.ok (), ex') =>
      match ex'.cache symbol with
      | none => (.error .noSymbol, ex')
      | some sym =>
        if sym.addr = 0#64 then (.error .libraryCall, ex')
        else if sym.size.toNat ≤ offset.toNat then (.error .outOfRange, ex')
        else (.ok (sym.addr + offset), ex')

/-- link/uprobe.go:235-250 `Symbol`: the map is ranged over in any order, so the result is one of several. -/
inductive SymbolOf (file : Except Err ElfFile) (ex : Executable) (a : BitVec 64) : Except Err (Bytes × BitVec 64) × Executable → Prop where
  | fail {e ex'} : lazyLoadSymbols file ex = (.error e, ex') → SymbolOf file ex a (.error e, ex')
  | found {ex' n s} : lazyLoadSymbols file ex = (.ok (), ex') → ex'.cache n = some s → s.contains a = true →
      SymbolOf file ex a (.ok (n, a - s.addr), ex')
  | missing {ex'} : lazyLoadSymbols file ex = (.ok (), ex') → (∀ n s, ex'.cache n = some s → s.contains a = false) →
      SymbolOf file ex a (.error .noSymbol, ex')

/-- link/uprobe_multi.go:144-157: the `i`-th entry of a slice, the zero value if it is nil (`none`). -/
def nth {α : Type} (d : α) (l : Option (List α)) (i : Nat) : α := match l with | none => d | some l => l.getD i d

/-- link/uprobe_multi.go:142-166: the loop of `addresses` from index `i` on. `none` is a nil slice. -/
def addressesLoop (file : Except Err ElfFile) (symbols : Option (List Bytes)) (addresses offsets : Option (List (BitVec 64))) :
    Nat → Nat → Executable → Except Err (List (BitVec 64)) × Executable
  | 0, _, ex => (.ok [], ex)
  | k + 1, i, ex =>
    match address file ex (nth [] symbols i) (nth 0#64 addresses i) (nth 0#64 offsets i) with
    | (.error e, ex') => (.error e, ex')
    | (.ok a, ex') =>
      match addressesLoop file symbols addresses offsets k (i + 1) ex' with
      | (.error e, ex'') => (.error e, ex'')
      | (.ok as, ex'') => (.ok (a :: as), ex'')

/-- The length of a slice that may be nil. -/
def lenOf {α : Type} : Option (List α) → Nat
  | none => 0
  | some l => l.length

/-- link/uprobe_multi.go:119-170 `addresses`. -/
def addresses (file : Except Err ElfFile) (ex : Executable) (symbols : Option (List Bytes)) (addresses offsets : Option (List (BitVec 64))) :
    Except Err (List (BitVec 64)) × Executable :=
  let n := if lenOf symbols = 0 then lenOf addresses else lenOf symbols
  if n = 0 then (.error .invalidInput, ex)
  else if symbols.isSome ∧ lenOf symbols ≠ n then (.error .invalidInput, ex)
  else if addresses.isSome ∧ lenOf addresses ≠ n then (.error .invalidInput, ex)
  else if offsets.isSome ∧ lenOf offsets ≠ n then (.error .invalidInput, ex)
  else addressesLoop file symbols addresses offsets n 0 ex

end Ebpf.Uprobe
