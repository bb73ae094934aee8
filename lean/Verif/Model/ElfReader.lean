import Verif.Model.LinkerFixups
/-!
# Model of `elf_reader.go`: symbols, relocations, and the functions of program sections

Maps are association lists, newest entry first. Error texts are dropped. BTF metadata of instructions
is in `Model/BtfExtInfo` (C58).
-/
namespace Ebpf.Elf
open Ebpf.Asm Ebpf.Asm.OpCode Ebpf.LinkerFix

/-- elf_reader.go:251-260 `elfSectionKind`. -/
inductive Kind where
  | undef | maps | btfMaps | program | data | structOps
deriving DecidableEq, Repr

/-- `elf.ST_TYPE` of a symbol. -/
inductive STyp where
  | notype | object | func | sect | other
deriving DecidableEq, Repr

/-- `elf.ST_BIND` of a symbol. -/
inductive Bind where
  | loc | glob | weak | other
deriving DecidableEq, Repr

/-- `debug/elf.Symbol`; `sec` is the section index. -/
structure Sym where
  name : String
  typ : STyp
  bind : Bind
  sec : Nat
  value : BitVec 64
  size : BitVec 64
deriving DecidableEq, Repr

/-- elf_reader.go:262-272 `elfSection`, without the count of references. -/
structure Sec where
  kind : Kind
  name : String
  data : Bytes := []
  symbols : List (BitVec 64 × Sym) := []
  relocs : List (BitVec 64 × Sym) := []

/-- elf_reader.go:49-62 `elfCode`, what relocation looks at: sections by index, functions and variables of the `.ksyms` section
(for variables: whether their type is `void`), the `.kconfig` map with its variables. -/
structure Code where
  sections : Nat → Option Sec
  kfuncs : String → Bool := fun _ => false
  ksyms : String → Option Bool := fun _ => none
  kconfig : Option (Nat × List (String × BitVec 32)) := none

/-- Error classes. -/
inductive Err where
  | binding | symType | noSymbol | srcReg | notCallOrLoad | kconfig | notSupported
  | duplicate | tooLarge | outOfBounds | decode (e : AsmErr) | empty | noSymbols | badIndex
deriving DecidableEq, Repr

/-! ## symbols and relocation records -/

/-- elf_reader.go:313-333: is the symbol kept for a section of this kind? -/
def keepSymbol (k : Kind) (s : Sym) : Bool :=
  match k with
  | .maps | .btfMaps | .data => s.typ = .notype || s.typ = .object
  | .program => (s.typ = .notype || s.typ = .func) && !(s.typ = .notype && s.bind = .loc)
  | _ => false

/-- elf_reader.go:297-337 `assignSymbols`, seen from the section with index `idx`: later symbols replace earlier ones at
the same offset. -/
def assignSymbols (idx : Nat) (k : Kind) : List Sym → List (BitVec 64 × Sym) → List (BitVec 64 × Sym)
  | [], acc => acc
  | s :: r, acc =>
    if s.sec = idx ∧ s.name ≠ "" ∧ keepSymbol k s then assignSymbols idx k r ((s.value, s) :: acc) else assignSymbols idx k r acc

/-- elf_reader.go:1687-1713 `loadSectionRelocations`: records of offset and symbol number; the symbol table of `debug/elf` has
no entry for symbol 0. (`int` has 64 bits.) -/
def loadRelocs (symbols : List Sym) : List (BitVec 64 × BitVec 32) → List (BitVec 64 × Sym) → Except Err (List (BitVec 64 × Sym))
  | [], acc => .ok acc
  | (off, n) :: r, acc =>
    match symbols[(n - 1).toNat]? with
    | none => .error .badIndex
    | some s => loadRelocs symbols r ((off, s) :: acc)

/-! ## instructions -/

/-- asm/instruction.go:515-521 `WithReference`. -/
def withRef (i : LIns) (r : String) : LIns := { i with p := { i.p with ref := r } }

/-- Change the instruction proper. -/
def mapIns (i : LIns) (f : Ins → Ins) : LIns := { i with p := { i.p with ins := f i.p.ins } }

/-- elf_reader.go:574-587 `jumpTarget`. -/
def jumpTarget (off : BitVec 64) (i : Ins) : BitVec 64 :=
  let dest := i.cons * 8#64 + (off + 8#64)
  if dest.slt 0#64 then 0#64 else dest

/-- elf_reader.go:554-569 `referenceRelativeJump`. A missing map entry has the empty name. -/
def referenceRelativeJump (i : LIns) (off : BitVec 64) (symbols : List (BitVec 64 × Sym)) : Except Err LIns :=
  if !i.p.ins.isFunctionReference || i.p.ins.cons == BitVec.allOnes 64 then .ok i
  else
    let name := match symbols.lookup (jumpTarget off i.p.ins) with
      | some s => s.name
      | none => ""
    if name = "" then .error .noSymbol
    else .ok (withRef (mapIns i fun j => { j with cons := BitVec.allOnes 64 }) name)

/-- elf_reader.go:601-616: references to maps. -/
def relocMap (i : LIns) (rel : Sym) : Except Err LIns :=
  if rel.bind ≠ .glob then .error .binding
  else if rel.typ ≠ .object ∧ rel.typ ≠ .notype then .error .symType
  else .ok (withRef (mapIns i fun j => { j with src := Ins.PseudoMapFD }) rel.name)

/-- elf_reader.go:619-648: the offset into a data section. -/
def dataOffset (c : BitVec 64) (rel : Sym) : Except Err (BitVec 32) :=
  match rel.typ with
  | .sect => if rel.bind ≠ .loc then .error .binding else .ok (c.setWidth 32)
  | .object => if rel.bind ≠ .glob ∧ rel.bind ≠ .loc ∧ rel.bind ≠ .weak then .error .binding else .ok (rel.value.setWidth 32)
  | .notype => if rel.bind ≠ .loc then .error .binding else .ok (rel.value.setWidth 32)
  | _ => .error .symType

/-- elf_reader.go:618-658: references to data sections. -/
def relocData (i : LIns) (target : Sec) (rel : Sym) : Except Err LIns :=
  match dataOffset i.p.ins.cons rel with
  | .error e => .error e
  | .ok off => .ok (withRef (mapIns i fun j => { j with cons := off.setWidth 64 <<< 32, src := Ins.PseudoMapValue }) target.name)

/-- elf_reader.go:662-693: calls. -/
def relocCall (i : LIns) (target : Sec) (rel : Sym) : Except Err LIns :=
  if i.p.ins.src ≠ Ins.PseudoCall then .error .srcReg
  else match rel.typ with
    | .notype | .func => if rel.bind ≠ .glob ∧ rel.bind ≠ .weak then .error .binding else .ok (withRef i rel.name)
    | .sect =>
      if rel.bind ≠ .loc then .error .binding
      else match target.symbols.lookup (((i.p.ins.cons.setWidth 32 + 1#32).signExtend 64) * 8#64) with
        | none => .error .noSymbol
        | some s => .ok (withRef (mapIns i fun j => { j with cons := BitVec.allOnes 64 }) s.name)
    | _ => .error .symType

/-- elf_reader.go:694-723: loads of function pointers. -/
def relocFuncPtr (i : LIns) (target : Sec) (rel : Sym) : Except Err LIns :=
  let check : Except Err Unit := match rel.typ with
    | .func => if rel.bind ≠ .glob then .error .binding else .ok ()
    | .sect => if rel.bind ≠ .loc then .error .binding else .ok ()
    | _ => .error .symType
  match check with
  | .error e => .error e
  | .ok () =>
    match target.symbols.lookup i.p.ins.cons with
    | none => .error .noSymbol
    | some s => .ok (withRef (mapIns i fun j => { j with cons := BitVec.allOnes 64, src := Ins.PseudoFunc }) s.name)

/-- elf_reader.go:660-727: references to program sections. -/
def relocProg (i : LIns) (target : Sec) (rel : Sym) : Except Err LIns :=
  if i.p.ins.op.jumpOp = Call then relocCall i target rel
  else if i.p.ins.op.isDWordLoad then relocFuncPtr i target rel
  else .error .notCallOrLoad

/-- The bytes of a name. -/
def nameBytes (s : String) : Bytes := s.toUTF8.toList.map fun b => BitVec.ofNat 8 b.toNat

/-- elf_reader.go:731-799: references to symbols without a section. -/
def relocUndef (ec : Code) (i : LIns) (rel : Sym) : Except Err LIns :=
  if rel.bind ≠ .glob ∧ rel.bind ≠ .weak then .error .binding
  else if rel.typ ≠ .notype then .error .symType
  else
    let isCall := i.p.ins.op.jumpOp = Call
    let isLoad := i.p.ins.op.isDWordLoad
    if ec.kfuncs rel.name ∧ isCall then
      .ok (withRef (mapIns { i with kfunc := some ⟨rel.bind = .weak, nameBytes rel.name⟩ }
        fun j => { j with src := Ins.PseudoKfuncCall, cons := BitVec.allOnes 64 }) rel.name)
    else if ec.kfuncs rel.name ∧ isLoad then
      .ok (withRef (mapIns { i with kfunc := some ⟨rel.bind = .weak, nameBytes rel.name⟩ } fun j => { j with cons := 0#64 }) rel.name)
    else if (ec.ksyms rel.name).isSome ∧ isLoad then
      .ok (withRef { i with ksym := some ⟨rel.bind = .weak, nameBytes rel.name, nameBytes rel.name, (ec.ksyms rel.name).getD false⟩ } rel.name)
    else if isLoad then
      match ec.kconfig with
      | none => .ok (withRef i rel.name)
      | some (m, vars) =>
        if rel.bind ≠ .glob then .error .binding
        else match vars.lookup rel.name with
          | none => .error .kconfig
          | some off => .ok { mapIns i (fun j => { j with src := Ins.PseudoMapValue }) with kconfig := some ⟨m, off⟩ }
    else .ok (withRef i rel.name)

/-- elf_reader.go:591-806 `relocateInstruction`. `loadRelocations` (elf_reader.go:340-366) has checked that the section exists. -/
def relocateInstruction (ec : Code) (i : LIns) (rel : Sym) : Except Err LIns :=
  match ec.sections rel.sec with
  | none => .error .notSupported
  | some target =>
    match target.kind with
    | .maps | .btfMaps => relocMap i rel
    | .data => relocData i target rel
    | .program => relocProg i target rel
    | .undef => relocUndef ec i rel
    | .structOps => .error .notSupported

/-! ## functions -/

/-- elf_reader.go:486-495: one instruction at offset `off` of its section. -/
def resolveOne (ec : Code) (sec : Sec) (off : BitVec 64) (i : LIns) : Except Err LIns :=
  match sec.relocs.lookup off with
  | some rel => relocateInstruction ec i rel
  | none => referenceRelativeJump i off sec.symbols

/-- elf_reader.go:481-501: the loop over the instructions of a function; `off` is the offset of the next one in the section. -/
def resolveAll (ec : Code) (sec : Sec) : BitVec 64 → List LIns → Except Err (List LIns)
  | _, [] => .ok []
  | off, i :: r =>
    match resolveOne ec sec off i with
    | .error e => .error e
    | .ok j =>
      match resolveAll ec sec (off + 8#64 * BitVec.ofNat 64 i.p.ins.width) r with
      | .error e => .error e
      | .ok js => .ok (j :: js)

/-- elf_reader.go:460-504: one function: the instructions in the symbol's range, the first one marked. -/
def loadFunction (ec : Code) (bo : ByteOrder) (sec : Sec) (s : Sym) : Except Err (List LIns) :=
  if s.value > 0xffffffff#64 ∨ s.size > 0xffffffff#64 then .error .tooLarge
  else if s.value.toNat + s.size.toNat > sec.data.length then .error .outOfBounds
  else match appendInstructions bo "linux" ((sec.data.drop s.value.toNat).take s.size.toNat) with
    | .error e => .error (.decode e)
    | .ok [] => .error .empty
    | .ok (i :: r) => resolveAll ec sec s.value ({ p := { ins := i, sym := s.name } } :: r.map fun j => { p := { ins := j } })

/-- Insert into a list sorted by offset, keeping the newest entry of an offset. -/
def insertByOffset (e : BitVec 64 × Sym) : List (BitVec 64 × Sym) → List (BitVec 64 × Sym)
  | [] => [e]
  | f :: r => if e.1 = f.1 then e :: r else if e.1.toNat < f.1.toNat then e :: f :: r else f :: insertByOffset e r

/-- elf_reader.go:285-293 `symbolsSorted`. -/
def symbolsSorted : List (BitVec 64 × Sym) → List (BitVec 64 × Sym)
  | [] => []
  | e :: r => insertByOffset e (symbolsSorted r)

/-- elf_reader.go:455-505: the loop over the symbols of a section. -/
def loadSyms (ec : Code) (bo : ByteOrder) (sec : Sec) : List (BitVec 64 × Sym) → List (String × List LIns) → Except Err (List (String × List LIns))
  | [], progs => .ok progs
  | (_, s) :: r, progs =>
    if (progs.lookup s.name).isSome then .error .duplicate
    else match loadFunction ec bo sec s with
      | .error e => .error e
      | .ok l => loadSyms ec bo sec r (progs ++ [(s.name, l)])

/-- elf_reader.go:442-508 `loadFunctions`. -/
def loadFunctions (ec : Code) (bo : ByteOrder) (sec : Sec) : Except Err (List (String × List LIns)) :=
  loadSyms ec bo sec (symbolsSorted sec.symbols) []

/-- elf_reader.go:397-421: add the functions of a section; names must be unique. `true` marks a function outside of `.text`. -/
def addFunctions (exported : Bool) : List (String × List LIns) → List (String × Bool × List LIns) → Except Err (List (String × Bool × List LIns))
  | [], acc => .ok acc
  | (n, l) :: r, acc => if (acc.lookup n).isSome then .error .duplicate else addFunctions exported r (acc ++ [(n, exported, l)])

/-- elf_reader.go:377-422: the loop over the program sections, in any order. -/
def loadSections (ec : Code) (bo : ByteOrder) : List Sec → List (String × Bool × List LIns) → Except Err (List (String × Bool × List LIns))
  | [], acc => .ok acc
  | sec :: r, acc =>
    if sec.kind ≠ .program then loadSections ec bo r acc
    else if sec.symbols = [] then .error .noSymbols
    else match loadFunctions ec bo sec with
      | .error e => .error e
      | .ok fs =>
        match addFunctions (sec.name ≠ ".text") fs acc with
        | .error e => .error e
        | .ok acc => loadSections ec bo r acc

/-! ## the whole object -/

/-- A section as it is in the file: its kind (elf_reader.go:103-134), contents and relocation records (offset and symbol number). -/
structure RawSec where
  kind : Kind
  name : String
  data : Bytes := []
  rels : List (BitVec 64 × BitVec 32) := []
deriving DecidableEq, Repr

/-- What `LoadCollectionSpecFromReader` (elf_reader.go:79-212) works on: sections by index, the symbol table (without symbol 0) and
the variables and functions BTF declares for `.ksyms` and `.kconfig`. -/
structure Object where
  secs : List (Nat × RawSec)
  syms : List Sym
  kfuncs : String → Bool := fun _ => false
  ksyms : String → Option Bool := fun _ => none
  kconfig : Option (Nat × List (String × BitVec 32)) := none

/-- elf_reader.go:297-366: `assignSymbols` and `loadSectionRelocations` for one section. -/
def readSec (o : Object) (k : Nat) (r : RawSec) : Except Err Sec :=
  match loadRelocs o.syms r.rels [] with
  | .error e => .error e
  | .ok rels =>
    if rels.all fun e => (o.secs.lookup e.2.sec).isSome then
      .ok { kind := r.kind, name := r.name, data := r.data, symbols := assignSymbols k r.kind o.syms [], relocs := rels }
    else .error .notSupported

/-- elf_reader.go:297-366: all sections, in any order. -/
def readSecs (o : Object) : List (Nat × RawSec) → Except Err (List (Nat × Sec))
  | [] => .ok []
  | (k, r) :: t =>
    match readSec o k r with
    | .error e => .error e
    | .ok s =>
      match readSecs o t with
      | .error e => .error e
      | .ok l => .ok ((k, s) :: l)

/-- The state of `elfCode` when programs are loaded. -/
def codeOf (o : Object) (l : List (Nat × Sec)) : Code :=
  { sections := fun k => l.lookup k, kfuncs := o.kfuncs, ksyms := o.ksyms, kconfig := o.kconfig }

/-- elf_reader.go:160-193: symbols, relocations, then `loadProgramSections` (371-422) up to linking. -/
def loadObject (o : Object) (bo : ByteOrder) : Except Err (List (String × Bool × List LIns)) :=
  match readSecs o o.secs with
  | .error e => .error e
  | .ok l => loadSections (codeOf o l) bo (l.map (·.2)) []

end Ebpf.Elf
