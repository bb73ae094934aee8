import Verif.Model.Uprobe
/-!
# Specification: where in the file the code of a function is
-/
namespace Ebpf.UprobeSpec
open Ebpf.Uprobe

/-- The byte that a running program has at virtual address `va` (relative to its base) is at offset `o` of the file. -/
def FileOffset (segs : List Segment) (va o : Nat) : Prop :=
  ∃ p ∈ segs, p.load = true ∧ p.vaddr.toNat ≤ va ∧ va < p.vaddr.toNat + p.filesz.toNat ∧ o = p.off.toNat + (va - p.vaddr.toNat)

/-- All of the function is in one executable segment, and in the file. -/
def CodeIn (segs : List Segment) (s : ElfSym) : Prop :=
  ∃ p ∈ segs, p.load = true ∧ p.exec = true ∧ p.vaddr.toNat ≤ s.value.toNat ∧ s.value.toNat < p.vaddr.toNat + p.filesz.toNat ∧
    s.value.toNat + s.size.toNat ≤ p.vaddr.toNat + p.filesz.toNat ∧ p.off.toNat + (s.value.toNat - p.vaddr.toNat) ≠ 0

/-- Executables as linkers make them: segments do not wrap around nor overlap, functions are code (and not at offset 0 of the file, where the ELF
header is) or undefined, and functions of the same name are the same. -/
structure Sane (f : ElfFile) : Prop where
  executable : f.executable = true
  bounds : ∀ p ∈ f.segs, p.vaddr.toNat + p.memsz.toNat < 2 ^ 64 ∧ p.off.toNat + p.memsz.toNat < 2 ^ 64 ∧ p.filesz.toNat ≤ p.memsz.toNat
  disjoint : ∀ p ∈ f.segs, ∀ q ∈ f.segs, p.load = true → q.load = true → ∀ va, p.vaddr.toNat ≤ va → va < p.vaddr.toNat + p.memsz.toNat →
    q.vaddr.toNat ≤ va → va < q.vaddr.toNat + q.memsz.toNat → p = q
  zero : ∀ p ∈ f.segs, p.vaddr = 0#64 → p.off = 0#64
  code : ∀ s ∈ f.syms, s.isFunc = true → s.value ≠ 0#64 → CodeIn f.segs s
  undef : ∀ s ∈ f.syms, s.isFunc = true → s.value = 0#64 → s.size = 0#64
  unique : ∀ s ∈ f.syms, ∀ t ∈ f.syms, s.isFunc = true → t.isFunc = true → s.name = t.name → s = t

/-- `name` is a function of the file, and `k` bytes into it is the byte at offset `o` of the file. -/
def At (f : ElfFile) (name : Bytes) (k o : Nat) : Prop :=
  ∃ s ∈ f.syms, s.isFunc = true ∧ s.name = name ∧ s.value ≠ 0#64 ∧ k < s.size.toNat ∧ FileOffset f.segs (s.value.toNat + k) o

end Ebpf.UprobeSpec
