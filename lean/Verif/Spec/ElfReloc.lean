import Verif.Model.ElfReader
import Verif.Spec.Linker
/-!
# Specification: what the relocations of a BPF object mean

From the LLVM documentation of BPF relocations (implicit addends): an `R_BPF_64_64` of an `ld_imm64` refers to `S + imm`, an
`R_BPF_64_32` of a call to `S + (imm + 1) * 8`, where `S` is the value of the symbol. A call without a relocation is
relative to the next instruction.
-/
namespace Ebpf.Elf.Spec
open Ebpf.Asm

/-- A place in the object: a section and a byte offset in it. -/
structure Place where
  sec : Nat
  off : Int
deriving DecidableEq, Repr

/-- A bpf-to-bpf call. -/
def IsCall (i : Ins) : Prop := OpCode.jumpOp i.op = 0x80#8 ∧ i.src = 1#8

/-- An `ld_imm64`. -/
def IsLoad (i : Ins) : Prop := i.op = 0x18#32

/-- Relocation record: the instruction at offset `off` of section `k` refers to symbol `r`. -/
def Relocation (o : Object) (k : Nat) (off : Nat) (r : Sym) : Prop :=
  ∃ raw n, (k, raw) ∈ o.secs ∧ (BitVec.ofNat 64 off, n) ∈ raw.rels ∧ n ≠ 0#32 ∧ o.syms[n.toNat - 1]? = some r

/-- There is no relocation record for the instruction. -/
def NoRelocation (o : Object) (k : Nat) (off : Nat) : Prop := ∀ raw, (k, raw) ∈ o.secs → ∀ n, (BitVec.ofNat 64 off, n) ∉ raw.rels

/-- What a call with a relocation refers to. -/
def callTarget (r : Sym) (i : Ins) : Place := ⟨r.sec, r.value.toNat + (i.cons.toInt + 1) * 8⟩

/-- What a call without a relocation refers to. -/
def relativeTarget (k off : Nat) (i : Ins) : Place := ⟨k, off + 8 + i.cons.toInt * 8⟩

/-- What an `ld_imm64` with a relocation refers to. -/
def loadTarget (r : Sym) (i : Ins) : Place := ⟨r.sec, r.value.toNat + i.cons.toInt⟩

/-- `raw` are the instructions of the function that begins at the place: it has a symbol of non-zero size there, and these are
the bytes of the symbol, decoded. -/
def CodeAt (o : Object) (bo : ByteOrder) (p : Place) (name : String) (raw : List Ins) : Prop :=
  ∃ sec s, (p.sec, sec) ∈ o.secs ∧ sec.kind = .program ∧ s ∈ o.syms ∧ s.sec = p.sec ∧ s.name = name ∧ (s.value.toNat : Int) = p.off ∧
    (s.typ = .func ∨ s.typ = .notype) ∧ s.value.toNat + s.size.toNat ≤ sec.data.length ∧
    appendInstructions bo "linux" ((sec.data.drop s.value.toNat).take s.size.toNat) = .ok raw ∧ raw ≠ []

/-- Byte offset of instruction `n` from the start of its function. -/
def offsetOf (raw : List Ins) (n : Nat) : Nat := 8 * ((raw.take n).map Ins.width).sum

/-- Objects as a linker produces them: section numbers are unique; section symbols have value 0; functions have names;
an instruction has at most one relocation. -/
structure WellFormed (o : Object) : Prop where
  secs : (o.secs.map (·.1)).Nodup
  sections : ∀ s ∈ o.syms, s.typ = .sect → s.value = 0#64
  named : ∀ s ∈ o.syms, (s.typ = .func ∨ (s.typ = .notype ∧ s.bind ≠ .loc)) → s.name ≠ ""
  relocs : ∀ k raw, (k, raw) ∈ o.secs → (raw.rels.map (·.1)).Nodup

/-- Functions that are visible to the linker: not the labels. -/
def IsFunction (s : Sym) : Prop := s.name ≠ "" ∧ (s.typ = .func ∨ (s.typ = .notype ∧ s.bind ≠ .loc))

/-- No function has two names. -/
def NoAliases (o : Object) : Prop :=
  ∀ s ∈ o.syms, ∀ t ∈ o.syms, IsFunction s → IsFunction t → s.sec = t.sec → s.value = t.value → s = t

/-- The function `f` of the result is made of the instructions `raw`: the same operations in the same order, and its first instruction, no
other one, carries the name. -/
def MadeOf (name : String) (raw : List Ins) (f : List LinkerFix.LIns) : Prop :=
  f.length = raw.length ∧ ∀ (n : Nat) (i : Ins), raw[n]? = some i → ∃ j : LinkerFix.LIns, f[n]? = some j ∧
    j.p.ins.op = i.op ∧ j.p.ins.dst = i.dst ∧ j.p.ins.off = i.off ∧ j.p.sym = (if n = 0 then name else "")

/-- The kind of a section. -/
def HasKind (o : Object) (k : Nat) (kind : Kind) : Prop := ∃ raw, (k, raw) ∈ o.secs ∧ raw.kind = kind

/-- Instruction `j` is a reference the linker resolves (`Spec/Linker`), by name, to the function at place `p`: that
name is in the result, and its instructions are those at `p`. -/
def Resolved (o : Object) (bo : ByteOrder) (progs : List (String × Bool × List LinkerFix.LIns)) (j : LinkerFix.LIns) (p : Place) : Prop :=
  ∃ t x f raw, Linker.Spec.References j.p t ∧ progs.lookup t = some (x, f) ∧ CodeAt o bo p t raw ∧ MadeOf t raw f

end Ebpf.Elf.Spec
