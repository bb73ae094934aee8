import Verif.Model.DataSections
/-!
# Specification: the global variables of an object
-/
namespace Ebpf.DataSecSpec
open Ebpf.DataSec

/-- An object: its symbol table, its data sections and the variables listed in the Datasec of each name. -/
structure Object where
  syms : List Sym
  secs : List Sec
  btf : String → Option (List DVar)

/-- What a symbol must be to count at all. -/
def Counts (s : Sym) (idx : Nat) : Prop := s.sec = idx ∧ s.name ≠ "" ∧ (s.typ = .notype ∨ s.typ = .object)

/-- The symbol that stands for an address of a section: the last one in the table. -/
def StandsFor (o : Object) (idx : Nat) (s : Sym) : Prop :=
  ∃ pre post, o.syms = pre ++ s :: post ∧ Counts s idx ∧ ∀ s' ∈ post, Counts s' idx → s'.value ≠ s.value

/-- Exported: visible, global or weak, and not made up by the compiler. -/
def Exported (s : Sym) : Prop := s.hidden = false ∧ (s.bind = .glob ∨ s.bind = .weak) ∧ s.name.toList.head? ≠ some '.'

/-- The bytes of a section. -/
def Holds (sec : Sec) (data : Bytes) : Prop :=
  (sec.type = .progbits ∧ sec.data = some data) ∨ (sec.type = .nobits ∧ data = List.replicate sec.size.toNat 0#8)

/-- Sections that matter: something refers to them or they have symbols. -/
def Used (o : Object) (sec : Sec) : Prop := sec.references ≠ 0 ∨ ∃ s, StandsFor o sec.idx s

/-- An order in which Go may iterate over the sections and the symbols of each. -/
structure Order (o : Object) (l : List (Sec × List (BitVec 64 × Sym))) : Prop where
  secs : (l.map Prod.fst).Perm o.secs
  syms : ∀ e ∈ l, e.2.Perm (assignSymbols e.1.idx o.syms [])

/-- No two data sections have the same name. -/
def Distinct (o : Object) : Prop := (o.secs.map (·.name)).Nodup

/-- debug/elf returns as many bytes as the section has. -/
def Sized (o : Object) : Prop := ∀ sec ∈ o.secs, ∀ d, sec.data = some d → d.length = sec.size.toNat

/-- The object has this variable: an exported symbol of a section, with the bytes at its address. -/
def HasVar (o : Object) (sec : Sec) (s : Sym) (bytes : Bytes) : Prop :=
  sec ∈ o.secs ∧ StandsFor o sec.idx s ∧ Exported s ∧
  ∃ data, Holds sec data ∧ s.value.toNat + s.size.toNat ≤ data.length ∧ bytes = (data.drop s.value.toNat).take s.size.toNat

/-- No Datasec lists a variable with the name of an exported symbol of another section. -/
def NoCross (o : Object) : Prop :=
  ∀ sec ∈ o.secs, ∀ ds, o.btf sec.name = some ds → ∀ d ∈ ds, ∀ sec' ∈ o.secs, ∀ s, StandsFor o sec'.idx s → Exported s → s.name = d.name → sec' = sec

/-- What a correct compiler produces. -/
structure WellFormed (o : Object) : Prop where
  /-- Used sections have contents of their size, below 4 GiB. -/
  data : ∀ sec ∈ o.secs, Used o sec → sec.size.toNat < 2 ^ 32 ∧ ∃ d, Holds sec d
  /-- Exported symbols are inside their section. -/
  inside : ∀ sec ∈ o.secs, ∀ s, StandsFor o sec.idx s → Exported s → s.value.toNat + s.size.toNat ≤ sec.size.toNat
  /-- An exported name belongs to one symbol of one section. -/
  unique : ∀ sec ∈ o.secs, ∀ s, StandsFor o sec.idx s → Exported s → ∀ sec' ∈ o.secs, ∀ s', StandsFor o sec'.idx s' → Exported s' → s.name = s'.name → sec = sec' ∧ s = s'
  /-- A Datasec lists named variables, and those it shares with the symbol table have the same place and size. -/
  types : ∀ sec ∈ o.secs, ∀ ds, o.btf sec.name = some ds → ∀ d ∈ ds, d.name ≠ "" ∧ d.isVar = true ∧
    ∀ s, StandsFor o sec.idx s → Exported s → s.name = d.name → d.offset.toNat = s.value.toNat ∧ d.size.toNat = s.size.toNat
  /-- Section headers differ in their index. -/
  indices : (o.secs.map (·.idx)).Nodup

end Ebpf.DataSecSpec
